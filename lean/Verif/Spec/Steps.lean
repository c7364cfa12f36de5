import Verif.Model.Project
import Verif.Spec.Store

/-! # Changing things in two steps -/
set_option autoImplicit false
namespace Klavier
namespace Spec

/-- Things (no bar lines) on their way: each as it is, as it is to be in between, and as it
is to be in the end. -/
structure Journey where
  notes : List (Note × Note × Note) := []
  tempos : List (Tempo × Tempo × Tempo) := []
  dumpers : List (CtrlChg × CtrlChg × CtrlChg) := []
  softs : List (CtrlChg × CtrlChg × CtrlChg) := []

namespace Journey

/-- Picks the two ends of a leg of the journey. -/
def leg (j : Journey) (f : ∀ {V : Type}, V × V × V → V × V) : ModelChanges where
  notes := j.notes.map f
  bars := []
  tempos := j.tempos.map f
  dumpers := j.dumpers.map f
  softs := j.softs.map f

/-- The change to what is in between. -/
def there (j : Journey) : ModelChanges := j.leg (fun e => (e.1, e.2.1))
/-- The change from what is in between. -/
def onward (j : Journey) : ModelChanges := j.leg (fun e => (e.2.1, e.2.2))
/-- The change at once. -/
def direct (j : Journey) : ModelChanges := j.leg (fun e => (e.1, e.2.2))

/-- Back to where it came from. -/
def Returns (j : Journey) : Prop :=
  (∀ e ∈ j.notes, e.2.2 = e.1) ∧ (∀ e ∈ j.tempos, e.2.2 = e.1) ∧ (∀ e ∈ j.dumpers, e.2.2 = e.1) ∧ ∀ e ∈ j.softs, e.2.2 = e.1

end Journey

/-- In between nothing is put in the place of a thing that stays: what is there is itself on
the journey, or is replaced at the end of it. -/
def NoneLost {V : Type} (tick : V → Nat) (s : Store V) (l : List (V × V × V)) : Prop :=
  ∀ e ∈ l, ∀ q ∈ s, q.1 = tick e.2.1 → (∃ e' ∈ l, tick e'.1 = q.1) ∨ ∃ e' ∈ l, tick e'.2.2 = q.1

end Spec
end Klavier
