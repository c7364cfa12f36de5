import Verif.Model.Basic

/-! # undo.rs -/
set_option autoImplicit false
namespace Klavier

/-- src/undo.rs:10-16 `UndoStore`; `U` is the type of the recorded commands
(`Undo`, src/undo.rs:6-8), front of the deque first. -/
structure UndoStore (U : Type) where
  store : List U
  capacity : Nat
  index : Nat
  isFreezed : Bool

namespace UndoStore
variable {U : Type}

/-- src/undo.rs:25-32 `UndoStore::new` -/
def new (capacity : Nat) : UndoStore U := ⟨[], capacity, 0, false⟩

/-- src/undo.rs:18-22 `Default` -/
def default : UndoStore U := new 100

/-- src/undo.rs:35-37 `UndoStore::iter`: the commands it yields, in order -/
def iter (s : UndoStore U) : List U := s.store

/-- src/undo.rs:39-50 `UndoStore::add` (`split_off(i)` keeps the elements from `i`) -/
def add (s : UndoStore U) (u : U) : UndoStore U :=
  if s.isFreezed then s
  else
    let s := if s.index ≠ 0 then { s with store := s.store.drop s.index, index := 0 } else s
    let s := if s.capacity ≤ s.store.length then { s with store := s.store.dropLast } else s
    { s with store := u :: s.store }

/-- src/undo.rs:52-58 `UndoStore::undo` -/
def undo (s : UndoStore U) : UndoStore U × Option U :=
  match s.store[s.index]? with
  | some u => ({ s with index := s.index + 1 }, some u)
  | none => (s, none)

/-- src/undo.rs:61-68 `UndoStore::redo` -/
def redo (s : UndoStore U) : UndoStore U × Option U :=
  if s.index ≠ 0 then
    let s := { s with index := s.index - 1 }
    (s, s.store[s.index]?)
  else (s, none)

/-- src/undo.rs:71-73 `UndoStore::len` -/
def len (s : UndoStore U) : Nat := s.store.length
/-- src/undo.rs:75-77 `UndoStore::can_undo` -/
def canUndo (s : UndoStore U) : Bool := s.index < s.store.length
/-- src/undo.rs:80-82 `UndoStore::can_redo` -/
def canRedo (s : UndoStore U) : Bool := s.index ≠ 0
/-- src/undo.rs:84-86 `UndoStore::freeze` -/
def freeze (s : UndoStore U) (b : Bool) : UndoStore U := { s with isFreezed := b }

end UndoStore
end Klavier
