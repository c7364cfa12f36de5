import Verif.Spec.Project
import Verif.Model.Announce

/-! # What an editor learns from the calls on the collections -/
set_option autoImplicit false
namespace Klavier
namespace Spec

/-- A copy of a collection, of which only its content by tick is looked at, follows a call. -/
def follow {V : Type} (s : Store V) : Call V → Store V
  | .add tick v _ => s.add tick v
  | .remove tick => s.remove tick
  | .bulkAdd l _ => l.foldl (fun s p => s.add p.1 p.2) s
  | .change l _ => (l.map (·.2)).foldl (fun s p => s.add p.1 p.2) (l.foldl (fun s p => s.remove p.1) s)

/-- The same for a copy of the notes. -/
def followNote (s : Bag Note) : NoteCall → Bag Note
  | .add tick n _ => s.add tick n
  | .remove tick n => s.remove tick n
  | .bulkAdd l _ => l.foldl (fun s p => s.add p.1 p.2) s
  | .bulkRemove l _ => l.foldl (fun s p => s.remove p.1 p.2) s
  | .change l _ => (l.map (·.2)).foldl (fun s p => s.add p.1 p.2) ((l.map (·.1)).foldl (fun s p => s.remove p.1 p.2) s)

/-- The collections of `q` are those of `p` with the calls followed. -/
structure Follows (p : Project) (cs : Calls) (q : Project) : Prop where
  notes : cs.notes.foldl followNote p.notes = q.notes
  bars : cs.bars.foldl follow p.bars = q.bars
  tempos : cs.tempos.foldl follow p.tempos = q.tempos
  dumpers : cs.dumpers.foldl follow p.dumpers = q.dumpers
  softs : cs.softs.foldl follow p.softs = q.softs

/-- The calls of several actions, one after the other. -/
def joined (l : List Calls) : Calls :=
  ⟨l.flatMap (·.notes), l.flatMap (·.bars), l.flatMap (·.tempos), l.flatMap (·.dumpers), l.flatMap (·.softs)⟩

/-- The items a call says are added, each with the hint given for it. -/
def told {V : Type} : Call V → List (V × Metadata)
  | .add _ v md => [(v, md)]
  | .remove _ => []
  | .bulkAdd l md => l.map (fun p => (p.2, md))
  | .change l md => l.map (fun p => (p.2.2, md))

/-- The same for notes. -/
def toldNote : NoteCall → List (Note × Metadata)
  | .add _ n md => [(n, md)]
  | .remove _ _ => []
  | .bulkAdd l md => l.map (fun p => (p.2, md))
  | .bulkRemove _ _ => []
  | .change l md => l.map (fun p => (p.2.2, md))

/-- The ticks at which a call says something is taken away. -/
def gone {V : Type} : Call V → List Nat
  | .remove tick => [tick]
  | .change l _ => l.map (·.1)
  | _ => []

/-- The notes a call says are taken away. -/
def goneNote : NoteCall → List Note
  | .remove _ n => [n]
  | .bulkRemove l _ => l.map (·.2)
  | .change l _ => l.map (·.1.2)
  | _ => []

/-- All items of a selection with one hint. -/
def hinted {V : Type} (l : List V) (md : Metadata) : List (V × Metadata) := l.map (fun v => (v, md))

/-- The calls tell of exactly the items of `inn` added with the hint `md`, except that
the bars `bars` come after them with no hint; and of exactly the items of `out` taken away. -/
structure Tells (cs : Calls) (out inn : Models) (md : Metadata) (bars : List Bar) : Prop where
  notes : cs.notes.flatMap toldNote = hinted inn.notes md
  bars : cs.bars.flatMap told = hinted inn.bars md ++ hinted bars {}
  tempos : cs.tempos.flatMap told = hinted inn.tempos md
  dumpers : cs.dumpers.flatMap told = hinted inn.dumpers md
  softs : cs.softs.flatMap told = hinted inn.softs md
  goneNotes : cs.notes.flatMap goneNote = out.notes
  goneBars : cs.bars.flatMap gone = out.bars.map Bar.startTick
  goneTempos : cs.tempos.flatMap gone = out.tempos.map Tempo.startTick
  goneDumpers : cs.dumpers.flatMap gone = out.dumpers.map CtrlChg.startTick
  goneSofts : cs.softs.flatMap gone = out.softs.map CtrlChg.startTick

/-- The command recorded for an edit puts back `inn` and the completed bars `bs`, with
the hint `md`; a command that changes a setting puts back nothing. -/
def Records : ProjectCmd → Models → Metadata → List Bar → Prop
  | .modelChanged added _ md', inn, md, bs => added = { inn with bars := inn.bars ++ bs } ∧ md' = md
  | _, inn, _, bs => inn = {} ∧ bs = []

/-- The items an edit puts in, `N` being the notes. -/
def putIn (e : Edit) (N : List Note) : Models := { introduced e with notes := N }

/-- Two actions tell of the same items added, with the same hints. -/
def SameNews (cs cs' : Calls) : Prop :=
  cs.notes.flatMap toldNote = cs'.notes.flatMap toldNote ∧ cs.bars.flatMap told = cs'.bars.flatMap told ∧
  cs.tempos.flatMap told = cs'.tempos.flatMap told ∧ cs.dumpers.flatMap told = cs'.dumpers.flatMap told ∧
  cs.softs.flatMap told = cs'.softs.flatMap told

end Spec
end Klavier
