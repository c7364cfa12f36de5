import Verif.Spec.Queries
import Verif.Model.Session

/-! # Edits: which ones are legal, and histories -/
set_option autoImplicit false
namespace Klavier
namespace Spec

/-- The ticks of a selection are 32-bit numbers (`u32` fields). -/
structure Ticks32 (m : Models) : Prop where
  bars : ∀ b ∈ m.bars, b.startTick ≤ U32_MAX
  tempos : ∀ b ∈ m.tempos, b.startTick ≤ U32_MAX
  dumpers : ∀ b ∈ m.dumpers, b.startTick ≤ U32_MAX
  softs : ∀ b ∈ m.softs, b.startTick ≤ U32_MAX

/-- The items a `change` introduces. -/
def changedTo (c : ModelChanges) : Models :=
  ⟨c.notes.map (·.2), c.bars.map (·.2), c.tempos.map (·.2), c.dumpers.map (·.2), c.softs.map (·.2)⟩

/-- The items a `change` replaces. -/
def changedFrom (c : ModelChanges) : Models :=
  ⟨c.notes.map (·.1), c.bars.map (·.1), c.tempos.map (·.1), c.dumpers.map (·.1), c.softs.map (·.1)⟩

/-- The items an edit introduces. -/
def introduced : Edit → Models
  | .addBar b _ => { bars := [b] }
  | .addTempo t _ => { tempos := [t] }
  | .addDumper c _ => { dumpers := [c] }
  | .addSoft c _ => { softs := [c] }
  | .addNote n _ => { notes := [n] }
  | .bulkAdd m _ => m
  | .change c _ => changedTo c
  | _ => {}

/-- The selection consists of items of the project, no note more often than it
is there. -/
structure Present (p : Project) (m : Models) : Prop where
  notes : ∀ n, m.notes.count n ≤ (p.notes.map (·.2)).count n
  bars : ∀ b ∈ m.bars, (b.startTick, b) ∈ p.bars
  tempos : ∀ b ∈ m.tempos, (b.startTick, b) ∈ p.tempos
  dumpers : ∀ b ∈ m.dumpers, (b.startTick, b) ∈ p.dumpers
  softs : ∀ b ∈ m.softs, (b.startTick, b) ∈ p.softs

/-- No two bars, tempos, pedals of a selection share a tick. -/
structure DistinctTicks (m : Models) : Prop where
  bars : (m.bars.map Bar.startTick).Nodup
  tempos : (m.tempos.map Tempo.startTick).Nodup
  dumpers : (m.dumpers.map CtrlChg.startTick).Nodup
  softs : (m.softs.map CtrlChg.startTick).Nodup

/-- An edit a user can make from the screen: what is removed or changed is there,
and what is put in has distinct ticks. -/
def Legal (p : Project) : Edit → Prop
  | .tuplize ns => Present p { notes := ns }
  | .bulkRemove m _ => Present p m
  | .bulkAdd m _ => DistinctTicks m
  | .change c _ => Present p (changedFrom c) ∧ DistinctTicks (changedTo c)
  | _ => True

/-- The items an edit takes away. -/
def withdrawn : Edit → Models
  | .tuplize ns => { notes := ns }
  | .bulkRemove m _ => m
  | .change c _ => changedFrom c
  | _ => {}

/-- The selection hint an edit asks for; setting rhythm, key or grid has none. -/
def hint : Edit → Metadata
  | .addNote _ select | .addBar _ select | .addTempo _ select | .addDumper _ select | .addSoft _ select =>
    { needSelect := if select then some true else none, dragged := false }
  | .tuplize _ => { needSelect := some true, dragged := false }
  | .bulkRemove _ md | .bulkAdd _ md | .change _ md => md
  | _ => {}

/-- All ticks mentioned by an edit are 32-bit numbers, as their Rust types say. -/
structure EditTicks32 (e : Edit) : Prop where
  introduced : Ticks32 (introduced e)
  withdrawn : Ticks32 (withdrawn e)

/-- Execute recorded commands one after the other. -/
def replay (p : Project) (l : List ProjectCmd) : Project := l.foldl (fun p c => c.redo p) p

/-- Sessions reachable from a project by edits satisfying `ok`, undo and redo. -/
inductive Reach (ok : Project → Edit → Prop) (base : Project) : Session → Prop where
  | start : Reach ok base (Session.start base)
  | edit {s s' e} : Reach ok base s → EditTicks32 e → ok s.cur e → s.step (.edit e) = .ok s' → Reach ok base s'
  | undo {s s'} : Reach ok base s → s.step .undo = .ok s' → Reach ok base s'
  | redo {s s'} : Reach ok base s → s.step .redo = .ok s' → Reach ok base s'

/-- The last item of a selection at tick `k`. -/
def LastAt {V : Type} (tick : V → Nat) (l : List V) (k : Nat) (v : V) : Prop :=
  ∃ a b, l = a ++ v :: b ∧ tick v = k ∧ ∀ w ∈ b, tick w ≠ k

/-- Edits after which the bars are completed. -/
def AddsContent : Edit → Bool
  | .addNote _ _ | .addTempo _ _ | .addDumper _ _ | .addSoft _ _ | .tuplize _ | .bulkAdd _ _ | .change _ _ => true
  | _ => false

/-- Edits of the project settings. -/
def Setting : Edit → Bool
  | .setRhythm _ | .setKey _ | .setGrid _ => true
  | _ => false

/-- The notes an edit puts in: those given, except that a tuplet of several notes
puts in the retimed ones. -/
def NewNotes (N : List Note) : Edit → Prop
  | .tuplize ns => 1 < ns.length ∧ Tuple.tuplize ns = .ok N
  | e => N = (introduced e).notes

/-- The items of one kind after an edit: the last introduced one at each tick, and
what was there at ticks where nothing was introduced or withdrawn. -/
def ItemsAfter {V : Type} (tick : V → Nat) (gone put : List V) (old new : Store V) : Prop :=
  ∀ k v, (k, v) ∈ new ↔ LastAt tick put k v ∨
    ((k, v) ∈ old ∧ (∀ w ∈ put, tick w ≠ k) ∧ ∀ w ∈ gone, tick w ≠ k)

/-- `q` is `p` with the items of `e` withdrawn and introduced, `N` being the new notes. -/
structure Edited (p : Project) (e : Edit) (N : List Note) (q : Project) : Prop where
  wf : WF q
  rhythm : q.rhythm = p.rhythm
  key : q.key = p.key
  grid : q.grid = p.grid
  notes : ∀ n, (q.notes.map (·.2)).count n = (p.notes.map (·.2)).count n - (withdrawn e).notes.count n + N.count n
  bars : ItemsAfter Bar.startTick (withdrawn e).bars (introduced e).bars p.bars q.bars
  tempos : ItemsAfter Tempo.startTick (withdrawn e).tempos (introduced e).tempos p.tempos q.tempos
  dumpers : ItemsAfter CtrlChg.startTick (withdrawn e).dumpers (introduced e).dumpers p.dumpers q.dumpers
  softs : ItemsAfter CtrlChg.startTick (withdrawn e).softs (introduced e).softs p.softs q.softs

/-- The last but one of the items of a selection at tick `k`. -/
def LastButOneAt {V : Type} (tick : V → Nat) (l : List V) (k : Nat) (v : V) : Prop :=
  ∃ a w b, l = a ++ w :: b ∧ tick w = k ∧ (∀ u ∈ b, tick u ≠ k) ∧ LastAt tick a k v

/-- The items of one kind after an edit was undone.  Where several were introduced at one
tick, the last but one is there; elsewhere the last one withdrawn at the tick, and what was
there before where nothing was withdrawn. -/
def ItemsUndone {V : Type} (tick : V → Nat) (gone put : List V) (old new : Store V) : Prop :=
  ∀ k v, (k, v) ∈ new ↔ LastButOneAt tick put k v ∨ ((∀ w, ¬ LastButOneAt tick put k w) ∧
    (LastAt tick gone k v ∨ ((∀ w ∈ gone, tick w ≠ k) ∧ (k, v) ∈ old)))

/-- `q` is what undoing the edit `e` of `p` leaves. -/
structure Undone (p : Project) (e : Edit) (q : Project) : Prop where
  rhythm : q.rhythm = p.rhythm
  key : q.key = p.key
  grid : q.grid = p.grid
  notes : ∀ n, (q.notes.map (·.2)).count n = max ((p.notes.map (·.2)).count n) ((withdrawn e).notes.count n)
  bars : ItemsUndone Bar.startTick (withdrawn e).bars (introduced e).bars p.bars q.bars
  tempos : ItemsUndone Tempo.startTick (withdrawn e).tempos (introduced e).tempos p.tempos q.tempos
  dumpers : ItemsUndone CtrlChg.startTick (withdrawn e).dumpers (introduced e).dumpers p.dumpers q.dumpers
  softs : ItemsUndone CtrlChg.startTick (withdrawn e).softs (introduced e).softs p.softs q.softs

/-- The items of one kind are as before: where several were introduced at one tick, the last
but one of them was there before; elsewhere the last one withdrawn at a tick was there. -/
def UndoesTo {V : Type} (tick : V → Nat) (gone put : List V) (old : Store V) : Prop :=
  ∀ k v, (LastButOneAt tick put k v → (k, v) ∈ old) ∧
    ((∀ w, ¬ LastButOneAt tick put k w) → LastAt tick gone k v → (k, v) ∈ old)

end Spec
end Klavier
