import Verif.Model.Repeat
import Verif.Model.Project

/-! # Smaller functions: marks of a bar, the jump builder, selections -/
set_option autoImplicit false
namespace Klavier

/-- src/bar.rs:197-199 `RepeatSet::len`, `EnumSet::len` -/
def RepeatSet.len (s : RepeatSet) : Nat :=
  s.start.toNat + s.end_.toNat + s.dc.toNat + s.fine.toNat + s.ds.toNat + s.segno.toNat + s.coda.toNat +
    s.var1.toNat + s.var2.toNat + s.var3.toNat + s.var4.toNat

/-- src/bar.rs:208-220 the macro `repeat_set!`: the set of the marks after the first,
then the first -/
def RepeatSet.ofMarks : List Repeat → R RepeatSet
  | [] => .ok EMPTY
  | r :: rs => do
    let s ← ofMarks rs
    unwrapR (s.tryAdd r)

/-- src/global_repeat.rs:143-146 `adding_first_bar_len` -/
def GlobalRepeatBuilder.addingFirstBarLen (g : GlobalRepeatBuilder) (len : Nat) : RR GlobalRepeatBuilder :=
  .ok { g with firstBarLen := some len }

namespace Models

/-- src/models.rs:33-52 `with_capacity` and `empty`: the capacity does not matter -/
def empty : Models := ⟨[], [], [], [], []⟩
/-- src/models.rs:94-97 `with_notes`; 28-31 `unwrap_rc` copies the notes -/
def withNotes (m : Models) (l : List Note) : Models := { m with notes := l }
/-- src/models.rs:99-102 `with_bars` -/
def withBars (m : Models) (l : List Bar) : Models := { m with bars := l }
/-- src/models.rs:104-107 `with_tempos` -/
def withTempos (m : Models) (l : List Tempo) : Models := { m with tempos := l }
/-- src/models.rs:109-112 `with_dumpers` -/
def withDumpers (m : Models) (l : List CtrlChg) : Models := { m with dumpers := l }
/-- src/models.rs:114-117 `with_softs` -/
def withSofts (m : Models) (l : List CtrlChg) : Models := { m with softs := l }

end Models

namespace ModelChanges

/-- src/models.rs:161-181 `empty` and `with_capacity` -/
def empty : ModelChanges := ⟨[], [], [], [], []⟩
/-- src/models.rs:183-186 `with_notes` -/
def withNotes (m : ModelChanges) (l : List (Note × Note)) : ModelChanges := { m with notes := l }
/-- src/models.rs:188-191 `with_bars` -/
def withBars (m : ModelChanges) (l : List (Bar × Bar)) : ModelChanges := { m with bars := l }
/-- src/models.rs:193-196 `with_tempos` -/
def withTempos (m : ModelChanges) (l : List (Tempo × Tempo)) : ModelChanges := { m with tempos := l }
/-- src/models.rs:198-201 `with_dumpers` -/
def withDumpers (m : ModelChanges) (l : List (CtrlChg × CtrlChg)) : ModelChanges := { m with dumpers := l }
/-- src/models.rs:203-206 `with_softs` -/
def withSofts (m : ModelChanges) (l : List (CtrlChg × CtrlChg)) : ModelChanges := { m with softs := l }

end ModelChanges
end Klavier
