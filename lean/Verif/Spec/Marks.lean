import Verif.Model.Marks
import Verif.Spec.RepeatSet

/-! # Vocabulary: calls on the jump builder -/
set_option autoImplicit false
namespace Klavier
namespace Spec

/-- What can be told to the jump builder -/
inductive JumpCall where
  | dc (tick len : Nat)
  | ds (tick : Nat)
  | fine (tick : Nat)
  | segno (tick : Nat)
  | coda (tick : Nat)
  | firstBarLen (len : Nat)
  deriving DecidableEq, Repr

namespace JumpCall

/-- Telling it -/
def run (g : GlobalRepeatBuilder) : JumpCall → RR GlobalRepeatBuilder
  | dc t len => g.addingDc t len
  | ds t => g.addingDs t
  | fine t => g.addingFine t
  | segno t => g.addingSegno t
  | coda t => g.addingCoda t
  | firstBarLen len => g.addingFirstBarLen len

/-- One call after the other, up to the first that is refused -/
def runAll (g : GlobalRepeatBuilder) : List JumpCall → RR GlobalRepeatBuilder
  | [] => .ok g
  | c :: cs => match run g c with
    | .ok g' => runAll g' cs
    | .error e => .error e

/-- The jumps told -/
def jumps (l : List JumpCall) : List DsDc :=
  l.filterMap (fun | dc t len => some (.dc t len) | ds t => some (.ds t) | _ => none)
def fines (l : List JumpCall) : List Nat := l.filterMap (fun | fine t => some t | _ => none)
def segnos (l : List JumpCall) : List Nat := l.filterMap (fun | segno t => some t | _ => none)
def codas (l : List JumpCall) : List Nat := l.filterMap (fun | coda t => some t | _ => none)
def firstBarLens (l : List JumpCall) : List Nat := l.filterMap (fun | firstBarLen n => some n | _ => none)

/-- One or two Codas -/
def IsCoda : List Nat → Option Coda → Prop
  | [], k => k = none
  | [a], k => k = some (.one a)
  | [a, b], k => k = some (.two a b)
  | _, _ => False

end JumpCall

/-- What can be told to a selection (`N` and so on: what its lists hold) -/
inductive SelCall (N B T C : Type) where
  | notes (l : List N)
  | bars (l : List B)
  | tempos (l : List T)
  | dumpers (l : List C)
  | softs (l : List C)

/-- Telling it to a selection -/
def SelCall.run (m : Models) : SelCall Note Bar Tempo CtrlChg → Models
  | notes l => m.withNotes l
  | bars l => m.withBars l
  | tempos l => m.withTempos l
  | dumpers l => m.withDumpers l
  | softs l => m.withSofts l

/-- Telling it to a list of changes -/
def SelCall.runChanges (m : ModelChanges) : SelCall (Note × Note) (Bar × Bar) (Tempo × Tempo) (CtrlChg × CtrlChg) → ModelChanges
  | notes l => m.withNotes l
  | bars l => m.withBars l
  | tempos l => m.withTempos l
  | dumpers l => m.withDumpers l
  | softs l => m.withSofts l

/-- The last list told of the kind, or the one there was -/
def lastTold {K α : Type} (f : K → Option (List α)) (was : List α) (l : List K) : List α :=
  (l.filterMap f).getLast?.getD was

end Spec
end Klavier
