import Verif.Model.Announce

/-!
# project.rs: reading and clearing the queues

Assumed of the crate klavier_helper: `events` gives the events queued since
`clear_events`, one after the other.  The model keeps in each queue the calls that
give rise to the events (`Model/Announce.lean`).
Assumed of the crate serdo: `irreversible_mutate` runs the given function on the project
and records no command.  Whether it keeps the commands recorded before is not known:
`forgets` says whether they are dropped.
-/
set_option autoImplicit false
namespace Klavier

/-- A project in its store, and the queues of its five collections. -/
structure Heard where
  session : Session
  queues : Calls := {}

/-- What the editor does: a user action, or `clear_model_events`. -/
inductive Act where
  | op (o : Op)
  | clear

/-- Queue further calls. -/
def Calls.append (a b : Calls) : Calls where
  notes := a.notes ++ b.notes
  bars := a.bars ++ b.bars
  tempos := a.tempos ++ b.tempos
  dumpers := a.dumpers ++ b.dumpers
  softs := a.softs ++ b.softs

namespace Heard

/-- src/project.rs:860-862 -/
def barEvents (h : Heard) : List (Call Bar) := h.queues.bars

/-- src/project.rs:865-867 -/
def tempoEvents (h : Heard) : List (Call Tempo) := h.queues.tempos

/-- src/project.rs:870-873 -/
def dumperEvents (h : Heard) : List (Call CtrlChg) := h.queues.dumpers

/-- src/project.rs:876-878 -/
def softEvents (h : Heard) : List (Call CtrlChg) := h.queues.softs

/-- src/project.rs:881-883 -/
def noteEvents (h : Heard) : List NoteCall := h.queues.notes

/-- Crate serdo, `irreversible_mutate`, for a function that changes nothing of the
project but the queues. -/
def irreversible (forgets : Bool) (s : Session) : Session :=
  if forgets then Session.start s.cur else s

/-- src/project.rs:849-857 `clear_model_events` -/
def clearModelEvents (forgets : Bool) (h : Heard) : Heard where
  session := irreversible forgets h.session
  queues := { h.queues with notes := [], bars := [], tempos := [], dumpers := [], softs := [] }

/-- One thing the editor does. -/
def act (forgets : Bool) (h : Heard) : Act → R Heard
  | .op o => do
    let cs ← h.session.calls o
    let s ← h.session.step o
    pure ⟨s, h.queues.append cs⟩
  | .clear => .ok (h.clearModelEvents forgets)

end Heard
end Klavier
