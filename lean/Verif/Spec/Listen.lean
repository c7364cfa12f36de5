import Verif.Spec.Announce
import Verif.Model.Listen

/-! # An editor that reads the queues -/
set_option autoImplicit false
namespace Klavier
namespace Spec

/-- All five queues, as the editor reads them. -/
def readAll (h : Heard) : Calls :=
  ⟨h.noteEvents, h.barEvents, h.tempoEvents, h.dumperEvents, h.softEvents⟩

/-- The editor reads the queues each time before it clears them, and at the end: what
it has read, in order. -/
def listen (forgets : Bool) (h : Heard) : List Act → R (Heard × List Calls)
  | [] => .ok (h, [readAll h])
  | .clear :: as => do
    let h' ← h.act forgets .clear
    let (e, l) ← listen forgets h' as
    pure (e, readAll h :: l)
  | .op o :: as => do
    let h' ← h.act forgets (.op o)
    listen forgets h' as

/-- The user actions among the things the editor does. -/
def userOps : List Act → List Op
  | [] => []
  | .op o :: as => o :: userOps as
  | .clear :: as => userOps as

/-- The queues are empty. -/
def Silent (h : Heard) : Prop :=
  h.noteEvents = [] ∧ h.barEvents = [] ∧ h.tempoEvents = [] ∧ h.dumperEvents = [] ∧ h.softEvents = []

end Spec
end Klavier
