import Verif.Model.Undo

/-! # The undo store as two stacks -/
set_option autoImplicit false
namespace Klavier
namespace Spec

/-- Calls to the store. -/
inductive UndoCall (U : Type) where
  | add (u : U)
  | undo
  | redo
  | freeze (b : Bool)

/-- What a caller can observe after a call: the returned command, whether undo
and redo are offered, and the number of stored commands. -/
structure UndoSeen (U : Type) where
  result : Option U
  canUndo : Bool
  canRedo : Bool
  len : Nat
  deriving DecidableEq

/-- Two stacks (top first) and the frozen flag. -/
structure Stacks (U : Type) where
  undo : List U
  redo : List U
  frozen : Bool

variable {U : Type}

def Stacks.seen (s : Stacks U) (r : Option U) : UndoSeen U :=
  ⟨r, !s.undo.isEmpty, !s.redo.isEmpty, s.undo.length + s.redo.length⟩

/-- One call on the stacks, limited to `cap` commands, oldest dropped first. -/
def Stacks.call (cap : Nat) (s : Stacks U) : UndoCall U → Stacks U × Option U
  | .add u => if s.frozen then (s, none) else (⟨(u :: s.undo).take cap, [], false⟩, none)
  | .undo => match s.undo with
    | u :: us => (⟨us, u :: s.redo, s.frozen⟩, some u)
    | [] => (s, none)
  | .redo => match s.redo with
    | r :: rs => (⟨r :: s.undo, rs, s.frozen⟩, some r)
    | [] => (s, none)
  | .freeze b => ({ s with frozen := b }, none)

def Stacks.trace (cap : Nat) (s : Stacks U) : List (UndoCall U) → List (UndoSeen U)
  | [] => []
  | c :: cs => let (s', r) := s.call cap c
    s'.seen r :: s'.trace cap cs

/-- One call on the modelled store. -/
def storeCall (s : UndoStore U) : UndoCall U → UndoStore U × Option U
  | .add u => (s.add u, none)
  | .undo => s.undo
  | .redo => s.redo
  | .freeze b => (s.freeze b, none)

def storeSeen (s : UndoStore U) (r : Option U) : UndoSeen U := ⟨r, s.canUndo, s.canRedo, s.len⟩

def storeTrace (s : UndoStore U) : List (UndoCall U) → List (UndoSeen U)
  | [] => []
  | c :: cs => let (s', r) := storeCall s c
    storeSeen s' r :: storeTrace s' cs

end Spec
end Klavier
