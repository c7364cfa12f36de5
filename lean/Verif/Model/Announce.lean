import Verif.Model.Session

/-!
# project.rs: what the collections are told

The collections are made with `BagStore::new(true)` and `Store::new(true)`
(src/project.rs:400-404): they queue an event for every call that changes them, with
the metadata given along, and the editor reads the queues (src/project.rs:849-883).
The queues are in the crate klavier_helper; modelled here are the calls themselves, in
their order for each collection.
-/
set_option autoImplicit false
namespace Klavier

/-- A changing call on a `Store` (src/project.rs:189, 436, 452 and so on, 619, 635,
729-743, 790-820). -/
inductive Call (V : Type) where
  | add (tick : Nat) (v : V) (md : Metadata)
  | remove (tick : Nat)
  | bulkAdd (l : List (Nat × V)) (md : Metadata)
  | change (l : List (Nat × (Nat × V))) (md : Metadata)
  deriving DecidableEq, Repr

/-- A changing call on the `BagStore` of the notes (src/project.rs:433, 449, 480, 496,
601, 687-691, 720, 780). -/
inductive NoteCall where
  | add (tick : Nat) (n : Note) (md : Metadata)
  | remove (tick : Nat) (n : Note)
  | bulkAdd (l : List (Nat × Note)) (md : Metadata)
  | bulkRemove (l : List (Nat × Note)) (md : Metadata)
  | change (l : List ((Nat × Note) × (Nat × Note))) (md : Metadata)
  deriving DecidableEq, Repr

/-- The calls of an operation on each of the five collections. -/
structure Calls where
  notes : List NoteCall := []
  bars : List (Call Bar) := []
  tempos : List (Call Tempo) := []
  dumpers : List (Call CtrlChg) := []
  softs : List (Call CtrlChg) := []
  deriving DecidableEq, Repr

/-- The body of `undo` and `redo`: src/project.rs:431-463, 478-510, with `out` the items
removed and `inn` the items added. -/
def swapCalls (out inn : Models) (md : Metadata) : Calls where
  notes := out.notes.map (fun n => .remove n.startTick n) ++ inn.notes.map (fun n => .add n.startTick n md)
  bars := out.bars.map (fun b => .remove b.startTick) ++ inn.bars.map (fun b => .add b.startTick b md)
  tempos := out.tempos.map (fun t => .remove t.startTick) ++ inn.tempos.map (fun t => .add t.startTick t md)
  dumpers := out.dumpers.map (fun c => .remove c.startTick) ++ inn.dumpers.map (fun c => .add c.startTick c md)
  softs := out.softs.map (fun c => .remove c.startTick) ++ inn.softs.map (fun c => .add c.startTick c md)

/-- src/project.rs:420-465 `Cmd::undo` -/
def ProjectCmd.undoCalls : ProjectCmd → Calls
  | .modelChanged added removed md => swapCalls added removed md
  | _ => {}

/-- src/project.rs:467-512 `Cmd::redo` -/
def ProjectCmd.redoCalls : ProjectCmd → Calls
  | .modelChanged added removed md => swapCalls removed added md
  | _ => {}

namespace Project

/-- src/project.rs:345-351 with 186-190: the calls of `replenish_bars`
(`add_bar_internal(bar, false)`) for the bars it adds. -/
def replenishCalls (bs : List Bar) : List (Call Bar) := bs.map (fun b => .add b.startTick b (.selecting false))

/-- The calls of an editing operation; `none` when it is refused before any call. -/
def calls (p : Project) : Edit → R (Option Calls)
  /- src/project.rs:571-573, 579-581, 587-589 -/
  | .setRhythm r => .ok (some (ProjectCmd.setRhythm p.rhythm r).redoCalls)
  | .setKey k => .ok (some (ProjectCmd.setKey p.key k).redoCalls)
  | .setGrid g => .ok (some (ProjectCmd.setGrid p.grid g).redoCalls)
  /- src/project.rs:595-611 -/
  | .addNote n select => do
    let (_, bs) ← replenishBars { p with notes := p.notes.add n.startTick n }
    pure (some { notes := [.add n.startTick n (.selecting select)], bars := replenishCalls bs })
  /- src/project.rs:613-627 -/
  | .addBar b select => .ok (some { bars := [.add b.startTick b (.selecting select)] })
  /- src/project.rs:629-644 -/
  | .addTempo t select => do
    let (_, bs) ← replenishBars { p with tempos := p.tempos.add t.startTick t }
    pure (some { tempos := [.add t.startTick t (.selecting select)], bars := replenishCalls bs })
  /- src/project.rs:646-660 -/
  | .addDumper c select => do
    let (_, bs) ← replenishBars { p with dumpers := p.dumpers.add c.startTick c }
    pure (some { dumpers := [.add c.startTick c (.selecting select)], bars := replenishCalls bs })
  /- src/project.rs:662-676 -/
  | .addSoft c select => do
    let (_, bs) ← replenishBars { p with softs := p.softs.add c.startTick c }
    pure (some { softs := [.add c.startTick c (.selecting select)], bars := replenishCalls bs })
  /- src/project.rs:678-706 -/
  | .tuplize notes =>
    if 1 < notes.length then do
      let tupled ← Tuple.tuplize notes
      let out := notes.map (fun n : Note => (n.startTick, n))
      let inn := tupled.map (fun n : Note => (n.startTick, n))
      let (_, bs) ← replenishBars { p with notes := (p.notes.bulkRemove out).bulkAdd inn }
      pure (some { notes := [.bulkRemove out {}, .bulkAdd inn (Metadata.withNeedSelect {} true)], bars := replenishCalls bs })
    else pure none
  /- src/project.rs:708-710 -/
  | .bulkRemove m md => .ok (some (ProjectCmd.modelChanged {} m md).redoCalls)
  /- src/project.rs:712-752 -/
  | .bulkAdd m md => do
    let notes := m.notes.map (fun n : Note => (n.startTick, n))
    let bars := m.bars.map (fun b : Bar => (b.startTick, b))
    let tempos := m.tempos.map (fun t : Tempo => (t.startTick, t))
    let dumpers := m.dumpers.map (fun c : CtrlChg => (c.startTick, c))
    let softs := m.softs.map (fun c : CtrlChg => (c.startTick, c))
    let (_, bs) ← replenishBars { p with
      notes := p.notes.bulkAdd notes, bars := (p.bars.bulkAdd bars).1, tempos := (p.tempos.bulkAdd tempos).1,
      dumpers := (p.dumpers.bulkAdd dumpers).1, softs := (p.softs.bulkAdd softs).1 }
    pure (some { notes := [.bulkAdd notes md], bars := .bulkAdd bars md :: replenishCalls bs, tempos := [.bulkAdd tempos md],
                 dumpers := [.bulkAdd dumpers md], softs := [.bulkAdd softs md] })
  /- src/project.rs:754-827 -/
  | .change c md => do
    let notes := c.notes.map (fun (f, t) => ((f.startTick, f), (t.startTick, t)))
    let bars := c.bars.map (fun (f, t) => (f.startTick, (t.startTick, t)))
    let tempos := c.tempos.map (fun (f, t) => (f.startTick, (t.startTick, t)))
    let dumpers := c.dumpers.map (fun (f, t) => (f.startTick, (t.startTick, t)))
    let softs := c.softs.map (fun (f, t) => (f.startTick, (t.startTick, t)))
    let (_, bs) ← replenishBars { p with
      notes := p.notes.change notes, bars := (p.bars.change bars).1, tempos := (p.tempos.change tempos).1,
      dumpers := (p.dumpers.change dumpers).1, softs := (p.softs.change softs).1 }
    pure (some { notes := [.change notes md], bars := .change bars md :: replenishCalls bs, tempos := [.change tempos md],
                 dumpers := [.change dumpers md], softs := [.change softs md] })

end Project

namespace Session

/-- The calls of an edit, of `undo` and of `redo` (which run the command, crate serdo)
on the collections. -/
def calls (s : Session) : Op → R Calls
  | .edit e => do
    match ← s.cur.calls e with
    | none => pure {}
    | some cs => pure cs
  | .undo =>
    if s.cursor = 0 then .ok {}
    else match s.log[s.cursor - 1]? with
      | some c => .ok c.undoCalls
      | none => .ok {}
  | .redo =>
    match s.log[s.cursor]? with
    | some c => .ok c.redoCalls
    | none => .ok {}

/-- The calls of a sequence of user actions. -/
def queue (s : Session) : List Op → R (List Calls)
  | [] => .ok []
  | o :: os => do
    let cs ← s.calls o
    let s ← s.step o
    let l ← s.queue os
    pure (cs :: l)

end Session
end Klavier
