import Verif.Spec.Flow

/-! # How often everything is heard -/
set_option autoImplicit false
namespace Klavier
namespace Spec

/-- How often a tick of the passage is heard when the passage is played with its repeats: once
if it is plain, twice if it is repeated; before the first ending as often as there are endings,
in an ending once. -/
def Passage.times : Passage → Nat → Nat
  | .plain _ _, _ => 1
  | .repeated _ _, _ => 2
  | .endings _ ts _, t => if ts.all (fun v => decide (t < v)) then ts.length else 1

/-- The jump back at `d` is in the midst of a repeat with which the score begins. -/
def CutRepeat (ps : List Passage) (d : Nat) : Prop := ∃ b, ps.head? = some (.repeated 0 b) ∧ 0 < d ∧ d < b

end Spec
end Klavier
