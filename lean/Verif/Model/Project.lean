import Verif.Model.Store
import Verif.Model.Bar
import Verif.Model.Tuple

/-! # project.rs, location.rs (values), models.rs (data) -/
set_option autoImplicit false
namespace Klavier

/-- src/models.rs:8-14 `Models` -/
structure Models where
  notes : List Note := []
  bars : List Bar := []
  tempos : List Tempo := []
  dumpers : List CtrlChg := []
  softs : List CtrlChg := []
  deriving DecidableEq, Repr

/-- src/models.rs:152-158 `ModelChanges` -/
structure ModelChanges where
  notes : List (Note × Note) := []
  bars : List (Bar × Bar) := []
  tempos : List (Tempo × Tempo) := []
  dumpers : List (CtrlChg × CtrlChg) := []
  softs : List (CtrlChg × CtrlChg) := []

/-- src/project.rs:71-80 `ProjectImpl` -/
structure Project where
  rhythm : Rhythm
  key : Key
  grid : Grid
  notes : Bag Note
  bars : Store Bar
  tempos : Store Tempo
  dumpers : Store CtrlChg
  softs : Store CtrlChg

/-- src/location.rs:6-9 `Location` -/
structure Location where
  barNo : Nat
  offset : Nat
  deriving DecidableEq, Repr

/-- src/project.rs:25-27 `LocationError` -/
inductive LocationError where
  | overflow
  deriving DecidableEq, Repr

/-- Indexing `store[i]` (panics when out of bounds). -/
def idx {V : Type} (s : Store V) (i : Nat) : R (Nat × V) :=
  match s[i]? with
  | some p => .ok p
  | none => .error .index

/-- src/project.rs:356-373 `tempo_at` -/
def tempoAt (tick : Nat) (store : Store Tempo) : R TempoValue :=
  if store.isEmpty then .ok ⟨120⟩
  else match store.find tick with
    | .ok i => do
      let p ← idx store i
      pure p.2.value
    | .error i =>
      if i = 0 then .ok ⟨120⟩
      else do
        let p ← idx store (i - 1)
        pure p.2.value

/-- src/project.rs:375-392 `ctrl_chg_at` (`velocity::MIN` is 0) -/
def ctrlChgAt (tick : Nat) (store : Store CtrlChg) : R Velocity :=
  if store.isEmpty then .ok ⟨0⟩
  else match store.find tick with
    | .ok i => do
      let p ← idx store i
      pure p.2.velocity
    | .error i =>
      if i = 0 then .ok ⟨0⟩
      else do
        let p ← idx store (i - 1)
        pure p.2.velocity

namespace Project

/-- src/project.rs:394-407 `Default` (`Grid::default()` is 60, src/grid.rs:49-53) -/
def default : Project :=
  ⟨Rhythm.default, Key.NONE, ⟨60⟩, [], [], [], [], []⟩

/-- src/project.rs:192-197 `bar_no` -/
def barNo (p : Project) (b : Bar) : Option Nat :=
  match p.bars.find b.startTick with
  | .ok i => some i
  | .error _ => none

/-- src/project.rs:199-201 -/
def tempoAt (p : Project) (tick : Nat) : R TempoValue := Klavier.tempoAt tick p.tempos
/-- src/project.rs:203-205 -/
def dumperAt (p : Project) (tick : Nat) : R Velocity := ctrlChgAt tick p.dumpers
/-- src/project.rs:207-209 -/
def softAt (p : Project) (tick : Nat) : R Velocity := ctrlChgAt tick p.softs

/-- src/project.rs:273-278 and 289-294: the backward scan from index `i` for the
first bar carrying a value; `n` counts the remaining indices (`i + 1`). -/
def scan {α : Type} (bars : Store Bar) (sel : Bar → Option α) (dflt : α) : Nat → R α
  | 0 => .ok dflt
  | n + 1 => do
    let p ← idx bars n
    match sel p.2 with
    | some a => pure a
    | none => scan bars sel dflt n

/-- src/project.rs:267-281 `rhythm_at` -/
def rhythmAt (p : Project) (tick : Nat) : R Rhythm :=
  match p.bars.find tick with
  | .ok t => scan p.bars Bar.rhythm p.rhythm (t + 1)
  | .error t => if t = 0 then .ok p.rhythm else scan p.bars Bar.rhythm p.rhythm (t - 1 + 1)

/-- src/project.rs:283-297 `key_at` -/
def keyAt (p : Project) (tick : Nat) : R Key :=
  match p.bars.find tick with
  | .ok t => scan p.bars Bar.key p.key (t + 1)
  | .error t => if t = 0 then .ok p.key else scan p.bars Bar.key p.key (t - 1 + 1)

/-- src/project.rs:301-303 `last_bar` -/
def lastBar (p : Project) : Option (Nat × Bar) :=
  match p.bars.peekLast with
  | none => none
  | some (_, b) => some (p.bars.length - 1, b)

/-- src/project.rs:211-248 `location_to_tick` (`usize` is 64 bits) -/
def locationToTick (p : Project) (loc : Location) : R (Except LocationError Nat) :=
  if loc.barNo = 0 then
    .ok (if U32_MAX < loc.offset then .error .overflow else .ok loc.offset)
  else if U32_MAX < loc.barNo then .ok (.error .overflow)
  else if loc.barNo ≤ p.bars.length then do
    let (tick, _) ← idx p.bars (loc.barNo - 1)
    let sum ← addUsize tick loc.offset
    pure (if U32_MAX < sum then .error .overflow else .ok sum)
  else do
    let tick ← match p.lastBar with
      | none => do
        let x ← mulUsize loc.barNo p.rhythm.tickLen
        addUsize x loc.offset
      | some (lastNo, last) => do
        let r ← p.rhythmAt last.startTick
        let a ← subU32 loc.barNo lastNo
        let b ← subU32 a 1
        let x ← mulUsize b r.tickLen
        let y ← addUsize x loc.offset
        addUsize y last.startTick
    pure (if U32_MAX < tick then .error .overflow else .ok tick)

/-- src/project.rs:250-265 `tick_to_location` -/
def tickToLocation (p : Project) (tick : Nat) : R Location :=
  if p.bars.length = 0 then .ok ⟨0, tick⟩
  else match p.bars.find tick with
    | .ok i => .ok ⟨i + 1, 0⟩
    | .error i =>
      if i = 0 then .ok ⟨0, tick⟩
      else do
        let (_, bar) ← idx p.bars (i - 1)
        let off ← subU32 tick bar.startTick
        pure ⟨i, off⟩

/-- src/project.rs:311-314: the maximum of the note ends over the scanned window. -/
def maxEnd : List (Nat × Note) → Nat → R Nat
  | [], m => .ok m
  | (tick, n) :: l, m => do
    let len ← n.tickLen
    let e ← addU32 tick len
    maxEnd l (max m e)

/-- src/project.rs:305-317 `note_max_end_tick` -/
def noteMaxEndTick (p : Project) : R (Option Nat) :=
  match p.notes.peekLast with
  | none => .ok none
  | some (t, _) => do
    let longest ← Note.longestTickLen
    let start : Int := (t : Int) - longest
    let start := if start < 0 then 0 else start
    let m ← maxEnd (p.notes.rangeFrom (asU32 start)) 0
    pure (some m)

/-- src/project.rs:319-332 `tempo_max_tick`, `dumper_max_tick`, `soft_max_tick`. -/
def maxTick {V : Type} (s : Store V) : Option Nat := s.peekLast.map (·.1)

/-- src/project.rs:346-351: the bars appended by `replenish_bars`, from the last
bar tick.  With a zero length (a deserialised 0/n signature) the loop never
ends. -/
def newBars (len maxEnd barTick : Nat) : R (List Bar) :=
  if barTick < maxEnd then
    if _h : len = 0 then .error .diverge
    else if barTick + len ≤ U32_MAX then do
      let rest ← newBars len maxEnd (barTick + len)
      pure ({ startTick := barTick + len } :: rest)
    else .error .overflow
  else .ok []
termination_by maxEnd - barTick
decreasing_by omega

/-- src/project.rs:186-190 `add_bar_internal`, for a list of bars. -/
def addBars (s : Store Bar) (bs : List Bar) : Store Bar := bs.foldl (fun s b => s.add b.startTick b) s

/-- src/project.rs:335-353 `replenish_bars`: the new project and the added bars. -/
def replenishBars (p : Project) : R (Project × List Bar) := do
  let barTick := match p.lastBar with
    | some (_, b) => b.startTick
    | none => 0
  let noteEnd ← p.noteMaxEndTick
  let maxEndTick := max (max (max (noteEnd.getD 0) ((maxTick p.tempos).getD 0))
    ((maxTick p.dumpers).getD 0)) ((maxTick p.softs).getD 0)
  if maxEndTick ≤ barTick then pure (p, [])
  else do
    let r ← p.rhythmAt barTick
    let bs ← newBars r.tickLen maxEndTick barTick
    pure ({ p with bars := addBars p.bars bs }, bs)

end Project

/-- src/project.rs:43-50 `ModelChangeMetadata`: what the editor is to select. -/
structure Metadata where
  needSelect : Option Bool := none
  dragged : Bool := false
  deriving DecidableEq, Repr

/-- src/project.rs:60-65 `with_need_select` -/
def Metadata.withNeedSelect (m : Metadata) (b : Bool) : Metadata := ⟨some b, m.dragged⟩

/-- `let mut metadata = ModelChangeMetadata::new(); if select { metadata.need_select = Some(true); }`
(src/project.rs:597-598, 614-615, 630-631, 647-648, 663-664) -/
def Metadata.selecting (select : Bool) : Metadata := if select then { needSelect := some true } else {}

/-- src/project.rs:409-415 `ProjectCmd` -/
inductive ProjectCmd where
  | setRhythm (old new : Rhythm)
  | setKey (old new : Key)
  | setGrid (old new : Grid)
  | modelChanged (added removed : Models) (metadata : Metadata)

namespace Project

/-- One of the five loops `for n in .. { note_repo.remove(..) }`
(src/project.rs:432-434, 479-481). -/
def removeNotes (s : Bag Note) (l : List Note) : Bag Note :=
  l.foldl (fun s n => s.remove n.startTick n) s

/-- src/project.rs:448-450, 495-497 -/
def addNotes (s : Bag Note) (l : List Note) : Bag Note :=
  l.foldl (fun s n => s.add n.startTick n) s

/-- src/project.rs:435-446, 482-493: removal of bars, tempos, pedals by tick. -/
def removeItems {V : Type} (tick : V → Nat) (s : Store V) (l : List V) : Store V :=
  l.foldl (fun s v => s.remove (tick v)) s

/-- src/project.rs:451-462, 498-509 -/
def addItems {V : Type} (tick : V → Nat) (s : Store V) (l : List V) : Store V :=
  l.foldl (fun s v => s.add (tick v) v) s

/-- Remove `out` and then add `inn`: the common body of `undo` and `redo`
(src/project.rs:431-463, 478-510). -/
def swap (p : Project) (out inn : Models) : Project :=
  { p with
    notes := addNotes (removeNotes p.notes out.notes) inn.notes
    bars := addItems Bar.startTick (removeItems Bar.startTick p.bars out.bars) inn.bars
    tempos := addItems Tempo.startTick (removeItems Tempo.startTick p.tempos out.tempos) inn.tempos
    dumpers := addItems CtrlChg.startTick (removeItems CtrlChg.startTick p.dumpers out.dumpers) inn.dumpers
    softs := addItems CtrlChg.startTick (removeItems CtrlChg.startTick p.softs out.softs) inn.softs }

end Project

/-- src/project.rs:420-465 `Cmd::undo` -/
def ProjectCmd.undo (c : ProjectCmd) (p : Project) : Project :=
  match c with
  | setRhythm old _ => { p with rhythm := old }
  | setKey old _ => { p with key := old }
  | setGrid old _ => { p with grid := old }
  | modelChanged added removed _ => p.swap added removed

/-- src/project.rs:467-512 `Cmd::redo` -/
def ProjectCmd.redo (c : ProjectCmd) (p : Project) : Project :=
  match c with
  | setRhythm _ new => { p with rhythm := new }
  | setKey _ new => { p with key := new }
  | setGrid _ new => { p with grid := new }
  | modelChanged added removed _ => p.swap removed added

/-- The editing operations of the trait `Project` (src/project.rs:533-548). -/
inductive Edit where
  | setRhythm (r : Rhythm)
  | setKey (k : Key)
  | setGrid (g : Grid)
  | addNote (n : Note) (select : Bool)
  | addBar (b : Bar) (select : Bool)
  | addTempo (t : Tempo) (select : Bool)
  | addDumper (c : CtrlChg) (select : Bool)
  | addSoft (c : CtrlChg) (select : Bool)
  | tuplize (notes : List Note)
  | bulkRemove (m : Models) (md : Metadata)
  | bulkAdd (m : Models) (md : Metadata)
  | change (c : ModelChanges) (md : Metadata)

namespace Project

/-- src/project.rs:595-611 `add_note` -/
def addNote (p : Project) (n : Note) (select : Bool) : R (Project × ProjectCmd) := do
  let p := { p with notes := p.notes.add n.startTick n }
  let (p, bs) ← p.replenishBars
  pure (p, .modelChanged { notes := [n], bars := bs } {} (.selecting select))

/-- src/project.rs:613-627 `add_bar` -/
def addBar (p : Project) (b : Bar) (select : Bool) : Project × ProjectCmd :=
  ({ p with bars := p.bars.add b.startTick b },
   .modelChanged { bars := [b] } { bars := (p.bars.get? b.startTick).toList } (.selecting select))

/-- src/project.rs:629-644 `add_tempo` -/
def addTempo (p : Project) (t : Tempo) (select : Bool) : R (Project × ProjectCmd) := do
  let origin := (p.tempos.get? t.startTick).toList
  let p := { p with tempos := p.tempos.add t.startTick t }
  let (p, bs) ← p.replenishBars
  pure (p, .modelChanged { bars := bs, tempos := [t] } { tempos := origin } (.selecting select))

/-- src/project.rs:646-660 `add_dumper` -/
def addDumper (p : Project) (c : CtrlChg) (select : Bool) : R (Project × ProjectCmd) := do
  let origin := (p.dumpers.get? c.startTick).toList
  let p := { p with dumpers := p.dumpers.add c.startTick c }
  let (p, bs) ← p.replenishBars
  pure (p, .modelChanged { bars := bs, dumpers := [c] } { dumpers := origin } (.selecting select))

/-- src/project.rs:662-676 `add_soft` -/
def addSoft (p : Project) (c : CtrlChg) (select : Bool) : R (Project × ProjectCmd) := do
  let origin := (p.softs.get? c.startTick).toList
  let p := { p with softs := p.softs.add c.startTick c }
  let (p, bs) ← p.replenishBars
  pure (p, .modelChanged { bars := bs, softs := [c] } { softs := origin } (.selecting select))

/-- src/project.rs:678-706 `tuplize`; `none` is the `NoOp` error. -/
def tuplize (p : Project) (notes : List Note) : R (Option (Project × ProjectCmd)) :=
  if 1 < notes.length then do
    let tupled ← Tuple.tuplize notes
    let s := p.notes.bulkRemove (notes.map (fun n : Note => (n.startTick, n)))
    let p := { p with notes := s.bulkAdd (tupled.map (fun n : Note => (n.startTick, n))) }
    let (p, bs) ← p.replenishBars
    pure (some (p, .modelChanged { notes := tupled, bars := bs } { notes := notes }
      (Metadata.withNeedSelect {} true)))
  else pure none

/-- src/project.rs:712-752 `bulk_add` -/
def bulkAdd (p : Project) (m : Models) (md : Metadata) : R (Project × ProjectCmd) := do
  let notes := p.notes.bulkAdd (m.notes.map (fun n : Note => (n.startTick, n)))
  let (bars, ob) := p.bars.bulkAdd (m.bars.map (fun b : Bar => (b.startTick, b)))
  let (tempos, ot) := p.tempos.bulkAdd (m.tempos.map (fun b : Tempo => (b.startTick, b)))
  let (dumpers, od) := p.dumpers.bulkAdd (m.dumpers.map (fun b : CtrlChg => (b.startTick, b)))
  let (softs, os) := p.softs.bulkAdd (m.softs.map (fun b : CtrlChg => (b.startTick, b)))
  let p := { p with notes := notes, bars := bars, tempos := tempos, dumpers := dumpers, softs := softs }
  let (p, bs) ← p.replenishBars
  pure (p, .modelChanged { m with bars := m.bars ++ bs }
    { bars := ob.map (·.2), tempos := ot.map (·.2), dumpers := od.map (·.2), softs := os.map (·.2) } md)

/-- src/project.rs:754-827 `change` -/
def change (p : Project) (c : ModelChanges) (md : Metadata) : R (Project × ProjectCmd) := do
  let notes := p.notes.change (c.notes.map (fun (f, t) => ((f.startTick, f), (t.startTick, t))))
  let (bars, ob) := p.bars.change (c.bars.map (fun (f, t) => (f.startTick, (t.startTick, t))))
  let (tempos, ot) := p.tempos.change (c.tempos.map (fun (f, t) => (f.startTick, (t.startTick, t))))
  let (dumpers, od) := p.dumpers.change (c.dumpers.map (fun (f, t) => (f.startTick, (t.startTick, t))))
  let (softs, os) := p.softs.change (c.softs.map (fun (f, t) => (f.startTick, (t.startTick, t))))
  let p := { p with notes := notes, bars := bars, tempos := tempos, dumpers := dumpers, softs := softs }
  let (p, bs) ← p.replenishBars
  pure (p, .modelChanged
    { notes := c.notes.map (·.2), bars := c.bars.map (·.2) ++ bs, tempos := c.tempos.map (·.2),
      dumpers := c.dumpers.map (·.2), softs := c.softs.map (·.2) }
    { notes := c.notes.map (·.1), bars := c.bars.map (·.1) ++ ob.map (·.2),
      tempos := c.tempos.map (·.1) ++ ot.map (·.2), dumpers := c.dumpers.map (·.1) ++ od.map (·.2),
      softs := c.softs.map (·.1) ++ os.map (·.2) } md)

/-- `SqliteUndoStore::add_cmd` (crate serdo): runs `redo`. -/
def viaCmd (p : Project) (c : ProjectCmd) : Project × ProjectCmd := (c.redo p, c)

/-- Every editing operation: the new project and the recorded command, or
`none` when nothing happens and nothing is recorded. -/
def exec (p : Project) : Edit → R (Option (Project × ProjectCmd))
  /- src/project.rs:571-573 -/
  | .setRhythm r => .ok (some (p.viaCmd (.setRhythm p.rhythm r)))
  /- src/project.rs:579-581 -/
  | .setKey k => .ok (some (p.viaCmd (.setKey p.key k)))
  /- src/project.rs:587-589 -/
  | .setGrid g => .ok (some (p.viaCmd (.setGrid p.grid g)))
  | .addNote n select => do pure (some (← p.addNote n select))
  | .addBar b select => .ok (some (p.addBar b select))
  | .addTempo t select => do pure (some (← p.addTempo t select))
  | .addDumper c select => do pure (some (← p.addDumper c select))
  | .addSoft c select => do pure (some (← p.addSoft c select))
  | .tuplize ns => p.tuplize ns
  /- src/project.rs:708-710 -/
  | .bulkRemove m md => .ok (some (p.viaCmd (.modelChanged {} m md)))
  | .bulkAdd m md => do pure (some (← p.bulkAdd m md))
  | .change c md => do pure (some (← p.change c md))

end Project
end Klavier
