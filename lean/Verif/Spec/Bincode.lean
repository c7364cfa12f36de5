import Verif.Spec.Serde
import Verif.Spec.Project

/-! # Vocabulary: files -/
set_option autoImplicit false
namespace Klavier
namespace Spec

/-- The contents of a file -/
def IsBytes (s : List Nat) : Prop := ∀ b ∈ s, b < 256

/-- A selection that fits its types, and no more items than a vector can hold -/
structure SavableModels (m : Models) : Prop extends SafeModels m where
  manyNotes : m.notes.length < 2 ^ 64
  manyBars : m.bars.length < 2 ^ 64
  manyTempos : m.tempos.length < 2 ^ 64
  manyDumpers : m.dumpers.length < 2 ^ 64
  manySofts : m.softs.length < 2 ^ 64

/-- A document whose data fit their types -/
structure SavableDocument (x : ExportedProject) : Prop where
  rhythm : SafeRhythm x.rhythm
  key : SafeKey x.key
  grid : x.grid.value ≤ 4294967295
  models : SavableModels x.models

/-- A command whose data fit their types -/
def SavableCmd : ProjectCmd → Prop
  | .setRhythm a b => SafeRhythm a ∧ SafeRhythm b
  | .setKey a b => SafeKey a ∧ SafeKey b
  | .setGrid a b => a.value ≤ 4294967295 ∧ b.value ≤ 4294967295
  | .modelChanged a r _ => SavableModels a ∧ SavableModels r

/-- At most `k` items of each kind -/
structure Few (k : Nat) (m : Models) : Prop where
  notes : m.notes.length ≤ k
  bars : m.bars.length ≤ k
  tempos : m.tempos.length ≤ k
  dumpers : m.dumpers.length ≤ k
  softs : m.softs.length ≤ k

/-- An edit whose new data fit their types, of no more items than memory can hold -/
def SavableEdit : Edit → Prop
  | .setRhythm r => SafeRhythm r
  | .setKey k => SafeKey k
  | .setGrid g => g.value ≤ 4294967295
  | e => SafeModels (introduced e) ∧ Few (2 ^ 62) (introduced e) ∧ Few (2 ^ 62) (withdrawn e)

end Spec
end Klavier
