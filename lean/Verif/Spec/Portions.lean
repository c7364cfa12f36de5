import Verif.Model.Project

/-! # Taking several selections as one -/
set_option autoImplicit false
namespace Klavier
namespace Spec

/-- The things of `m`, followed by the things of `n`. -/
def together (m n : Models) : Models where
  notes := m.notes ++ n.notes
  bars := m.bars ++ n.bars
  tempos := m.tempos ++ n.tempos
  dumpers := m.dumpers ++ n.dumpers
  softs := m.softs ++ n.softs

/-- No thing of `m` takes the place of a thing of `n`: of the kinds of which there is one
at a tick, they have no tick in common. -/
structure Apart (m n : Models) : Prop where
  bars : ∀ a ∈ m.bars, ∀ b ∈ n.bars, a.startTick ≠ b.startTick
  tempos : ∀ a ∈ m.tempos, ∀ b ∈ n.tempos, a.startTick ≠ b.startTick
  dumpers : ∀ a ∈ m.dumpers, ∀ b ∈ n.dumpers, a.startTick ≠ b.startTick
  softs : ∀ a ∈ m.softs, ∀ b ∈ n.softs, a.startTick ≠ b.startTick

end Spec
end Klavier
