import Verif.Spec.Score

/-! # The fewest chunks -/
set_option autoImplicit false
namespace Klavier
namespace Spec

/-- The score has a passage with two or more endings of which the first begins at tick 0,
so that nothing comes before the endings. -/
def EndingsAtOnce (bars : List Bar) : Prop :=
  ∃ (ps : List Passage) (t : Nat) (ts : List Nat) (b : Nat),
    Reads (marks bars .Segno).head? .first 0 bars ps ∧ Passage.endings 0 (0 :: t :: ts) b ∈ ps

end Spec
end Klavier
