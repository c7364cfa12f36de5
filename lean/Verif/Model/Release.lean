import Verif.Model.Session
import Verif.Model.Repeat
import Verif.Model.Parts

/-!
# The program without overflow checks

`Cargo.toml` sets no `overflow-checks`, so a release build of the code does not check
arithmetic: sums, differences and products are taken modulo the size of their type, and
the number of places of a shift modulo the number of bits.  These are the functions of
the model that contain a checked operation, or call one that does, with that arithmetic.
Each is otherwise the function of the same name outside this namespace, where the lines
are cited in full.
-/
set_option autoImplicit false
namespace Klavier
namespace Release

/-- The `i32` equal to `x` modulo 2^32. -/
def wrapI32 (x : Int) : Int := (x + 2147483648) % 4294967296 - 2147483648
/-- The `i16` equal to `x` modulo 2^16. -/
def wrapI16 (x : Int) : Int := (x + 32768) % 65536 - 32768
/-- The `i64` equal to `x` modulo 2^64. -/
def wrapI64 (x : Int) : Int := (x + 9223372036854775808) % 18446744073709551616 - 9223372036854775808
/-- `u32` addition -/
def add32 (a b : Nat) : Nat := (a + b) % 4294967296
/-- `u32` subtraction (`a` and `b` are `u32`) -/
def sub32 (a b : Nat) : Nat := if b ≤ a then a - b else a + 4294967296 - b
/-- `u32` multiplication -/
def mul32 (a b : Nat) : Nat := (a * b) % 4294967296
/-- `usize` addition (64 bits) -/
def add64 (a b : Nat) : Nat := (a + b) % 18446744073709551616
/-- `usize` subtraction (64 bits; `a` and `b` are `usize`) -/
def sub64 (a b : Nat) : Nat := if b ≤ a then a - b else a + 18446744073709551616 - b
/-- `usize` multiplication (64 bits) -/
def mul64 (a b : Nat) : Nat := (a * b) % 18446744073709551616

/-! ## Pitches -/

/-- src/solfa.rs:9-17 `AddAssign<i32> for Solfa` -/
def solfaAddAssign (s : Solfa) (rhs : Int) : R Solfa :=
  let so := wrapI32 (s.scoreOffset + rhs)
  if Solfa.B.scoreOffset < so then .error .explicit else Solfa.fromScoreOffset so

/-- src/solfa.rs:19-27 `SubAssign<i32> for Solfa` -/
def solfaSubAssign (s : Solfa) (rhs : Int) : R Solfa :=
  let so := wrapI32 (s.scoreOffset - rhs)
  if so < Solfa.C.scoreOffset then .error .explicit else Solfa.fromScoreOffset so

/-- src/octave.rs:37-39 -/
def octaveOf (v : Int) : R (Except OctaveError Octave) := Octave.fromScoreOffset (wrapI32 (v + Octave.BIAS_VALUE))

/-- src/octave.rs:70-74 `AddAssign<i32> for Octave` -/
def octaveAddAssign (o : Octave) (rhs : Int) : R Octave := do
  let r ← octaveOf (wrapI32 (o.value + rhs))
  unwrapR r

/-- src/octave.rs:76-80 `SubAssign<i32> for Octave` -/
def octaveSubAssign (o : Octave) (rhs : Int) : R Octave := do
  let r ← octaveOf (wrapI32 (o.value - rhs))
  unwrapR r

/-- src/pitch.rs:164-172 `Pitch::with_score_offset_delta` -/
def withScoreOffsetDelta (p : Pitch) (delta : Int) : R (Except PitchError Pitch) :=
  let so := wrapI32 (p.scoreOffset + delta)
  if so < Pitch.MIN_SCORE_OFFSET ∨ Pitch.MAX_SCORE_OFFSET < so then
    pure (.error (.invalidScoreOffset so))
  else do
    let (s, o) ← Pitch.scoreOffsetToSolfaOctave so
    pure (Pitch.valueOf s o p.sharpFlat)

/-- src/pitch.rs:190-205 `Pitch::up` -/
def pitchUp (p : Pitch) : R (Except PitchError Pitch) :=
  if p.solfa = .B then
    if p.octave ≠ Octave.MAX then do
      let o ← octaveAddAssign p.octave 1
      pure (Pitch.valueOf .C o p.sharpFlat)
    else pure (.error (.tooHigh p.solfa p.octave p.sharpFlat (-1)))
  else do
    let s ← solfaAddAssign p.solfa 1
    pure (Pitch.valueOf s p.octave p.sharpFlat)

/-- src/pitch.rs:207-222 `Pitch::down` -/
def pitchDown (p : Pitch) : R (Except PitchError Pitch) :=
  if p.solfa = .C then
    if p.octave ≠ Octave.MIN then do
      let o ← octaveSubAssign p.octave 1
      pure (Pitch.valueOf .B o p.sharpFlat)
    else pure (.error (.tooLow p.solfa p.octave p.sharpFlat (-1)))
  else do
    let s ← solfaSubAssign p.solfa 1
    pure (Pitch.valueOf s p.octave p.sharpFlat)

/-- src/octave.rs:82-87 `Add for Octave` -/
def octaveAdd (a b : Octave) : R Octave := do
  let r ← octaveOf (wrapI32 (a.value + b.value))
  unwrapR r

/-! ## Values -/

/-- src/duration.rs:162-176 `Duration::tick_length` -/
def tickLength (d : Duration) : R Nat :=
  let len := Duration.baseLen d.numerator
  if d.dots = 0 ∧ d.denominator = 2 then .ok len
  else if d.denominator = 0 then .error .divZero
  else .ok ((len + (len - (len >>> (d.dots % 32)))) * 2 / d.denominator)

/-- src/duration.rs:190-192 `Duration::min` -/
def durationMin (d e : Duration) : R Duration := do
  let a ← tickLength d
  let b ← tickLength e
  pure (if a < b then d else e)

/-- src/trimmer.rs:44-49 `Trimmer::from_array`, and reading a trimmer -/
def trimmerFromArray (a b c d : Int) : Trimmer :=
  ⟨a, b, c, d, wrapI16 (wrapI16 (wrapI16 (a + b) + c) + d)⟩

/-- src/trimmer.rs:51-56 `Trimmer::from_vec` -/
def trimmerFromVec (vs : List Int) : R Trimmer := do
  let a ← Trimmer.at_ vs 0
  let b ← Trimmer.at_ vs 1
  let c ← Trimmer.at_ vs 2
  let d ← Trimmer.at_ vs 3
  pure (trimmerFromArray a b c d)

/-- src/trimmer.rs:78-82 `Trimmer::updated` -/
def trimmerUpdated (t : Trimmer) (f : Int × Int × Int × Int → Int × Int × Int × Int) : Trimmer :=
  let (a, b, c, d) := f (t.v0, t.v1, t.v2, t.v3)
  trimmerFromArray a b c d

/-- src/trimmer.rs:86-96, one slot (`t - MAX` and `t - MIN` are between the limits of
an `i32`) -/
def addSlot (v tick : Int) : Int × Option Int :=
  let t := wrapI32 (v + tick)
  if I16_MAX < t then (I16_MAX, some (t - I16_MAX))
  else if t < I16_MIN then (I16_MIN, some (t - I16_MIN))
  else (t, none)

/-- src/trimmer.rs:85-97, the slots -/
def addSlots : List Int → Int → List Int
  | [], _ => []
  | v :: vs, tick =>
    match addSlot v tick with
    | (v', none) => v' :: vs
    | (v', some c) => v' :: addSlots vs c

/-- src/trimmer.rs:84-102 `Trimmer::added` -/
def trimmerAdded (t : Trimmer) (tick : Int) : R Trimmer :=
  match addSlots [t.v0, t.v1, t.v2, t.v3] tick with
  | [a, b, c, d] => .ok ⟨a, b, c, d, a + b + c + d⟩
  | _ => .error .index

/-- src/tempo.rs:100-106 `Tempo::drag` -/
def tempoDrag (t : Tempo) (tickDelta tempoDelta : Int) : R Tempo := do
  let v ← TempoValue.safeNew (asU16 (wrapI32 (t.value.value + tempoDelta)))
  pure ⟨asU32 (t.startTick + tickDelta), v⟩

/-- src/grid.rs:38-46 `Grid::snap` -/
def snap (g : Grid) (tick : Int) : R Int :=
  let i : Int := g.value
  if i = 0 then .error .divZero
  else if tick < 0 then .ok (wrapI64 (i * (wrapI64 (tick - i.tdiv 2)).tdiv i))
  else .ok (wrapI64 (i * (wrapI64 (tick + i.tdiv 2)).tdiv i))

/-! ## Notes -/

/-- src/note.rs:79-81 `Note::tick_len` -/
def noteTickLen (n : Note) : R Nat := do
  let l ← tickLength n.duration
  pure (n.durationTrimmer.apply l)

/-- src/note.rs:120-138 `Note::with_tick_added` -/
def noteWithTickAdded (n : Note) (delta : Int) (isTrim : Bool) : R (Except TickError Note) :=
  let tick := (n.baseStartTick : Int) + delta
  if tick < 0 then .ok (.error .minus)
  else if isTrim then do
    let t ← trimmerAdded n.startTickTrimmer delta
    pure (.ok { n with startTickTrimmer := t })
  else .ok (.ok { n with baseStartTick := asU32 tick })

/-- src/note.rs:140-148 `Note::drag` -/
def noteDrag (n : Note) (tickDelta scoreDelta : Int) : R Note := do
  let r ← withScoreOffsetDelta n.pitch scoreDelta
  let p ← unwrapR r
  pure { n with baseStartTick := asU32 (n.baseStartTick + tickDelta), pitch := p }

/-- src/note.rs:150-162 `Note::add_dots` -/
def addDots (n : Note) (k : Int) : R (Except Int Note) :=
  let d := wrapI32 (n.duration.dots + k)
  if d < 0 ∨ 7 < d then pure (.error d)
  else do
    let dots ← unwrapO (Dots.fromValue d.toNat)
    pure (.ok { n with duration := n.duration.withDots dots })

/-! ## Tuplets -/

/-- src/tuple.rs:142-145 `numerator_unit` -/
def numeratorUnit (d : Duration) : Nat :=
  let len := 1 <<< (8 - d.numerator.ord)
  len + (len - (len >>> (d.dots % 32)))

/-- src/tuple.rs:96-129 `TupleElem::add` -/
def tupleAdd (cur : Option Tuple.Elem) (note : Note) : R (Option Tuple.Elem × Tuple.Elem) :=
  let duration := note.duration.withDenominator 2
  match cur with
  | none => .ok (none, ⟨note.baseStartTick, [note], duration⟩)
  | some e =>
    if e.startTick ≠ note.baseStartTick then
      .ok (some e, ⟨note.baseStartTick, [note], duration⟩)
    else do
      let m ← durationMin e.minDuration duration
      pure (none, ⟨e.startTick, e.notes ++ [note], m⟩)

/-- src/tuple.rs:160-171 -/
def group : List Note → Option Tuple.Elem → R (List Tuple.Elem)
  | [], none => .ok []
  | [], some cur => .ok [cur]
  | n :: ns, cur => do
    let (done, cur') ← tupleAdd cur n
    let rest ← group ns (some cur')
    pure (match done with
      | some e => e :: rest
      | none => rest)

/-- src/tuple.rs:148-150 `gcd_units` -/
def gcdUnits : List Note → Option Nat
  | [] => none
  | n :: ns =>
    match gcdUnits ns with
    | none => some (numeratorUnit n.duration)
    | some g => some ((numeratorUnit n.duration).gcd g)

/-- src/tuple.rs:180-190 `total_tick_unit` -/
def totalTickUnit : List Tuple.Elem → Nat × Nat → R (Nat × Nat)
  | [], acc => .ok acc
  | e :: es, (tick, unit) => do
    let l ← tickLength e.minDuration
    totalTickUnit es (add32 tick l, add32 unit (numeratorUnit e.minDuration))

/-- src/tuple.rs:25-31 -/
def place (startTick totalTick totalUnit denominator : Nat) : List Note → Nat → R (List Note)
  | [], _ => .ok []
  | n :: ns, u =>
    if totalUnit = 0 then .error .divZero else do
    let tick := add32 startTick (mul32 totalTick u / totalUnit)
    let note := { n with baseStartTick := tick, duration := n.duration.withDenominator denominator }
    let rest ← place startTick totalTick totalUnit denominator ns (add32 u (numeratorUnit note.duration))
    pure (note :: rest)

/-- src/tuple.rs:6-40 `tuplize` -/
def tuplize (notes : List Note) : R (List Note) :=
  match Tuple.sort notes with
  | [] => .ok []
  | first :: more => do
    let work := first :: more
    let sorted ← group work none
    match gcdUnits work with
    | none => pure []
    | some minUnit => do
      let (totalTick, totalUnit) ← totalTickUnit sorted (0, 0)
      if minUnit = 0 then .error .divZero else do
      let denominator := totalUnit / minUnit
      if denominator < 2 then pure notes else do
      let d ← unwrapO (Denominator.fromValue (asU8 denominator))
      place first.baseStartTick (mul32 (totalTick / denominator) 2) totalUnit d (sorted.flatMap (·.notes)) 0

/-! ## Projects -/

/-- src/project.rs:211-248 `location_to_tick` -/
def locationToTick (p : Project) (loc : Location) : R (Except LocationError Nat) :=
  if loc.barNo = 0 then
    .ok (if U32_MAX < loc.offset then .error .overflow else .ok loc.offset)
  else if U32_MAX < loc.barNo then .ok (.error .overflow)
  else if loc.barNo ≤ p.bars.length then do
    let (tick, _) ← idx p.bars (loc.barNo - 1)
    let sum := add64 tick loc.offset
    pure (if U32_MAX < sum then .error .overflow else .ok sum)
  else do
    let tick ← match p.lastBar with
      | none => pure (add64 (mul64 loc.barNo p.rhythm.tickLen) loc.offset)
      | some (lastNo, last) => do
        let r ← p.rhythmAt last.startTick
        pure (add64 (add64 (mul64 (sub64 (sub64 loc.barNo lastNo) 1) r.tickLen) loc.offset) last.startTick)
    pure (if U32_MAX < tick then .error .overflow else .ok tick)

/-- src/project.rs:250-265 `tick_to_location` -/
def tickToLocation (p : Project) (tick : Nat) : R Location :=
  if p.bars.length = 0 then .ok ⟨0, tick⟩
  else match p.bars.find tick with
    | .ok i => .ok ⟨i + 1, 0⟩
    | .error i =>
      if i = 0 then .ok ⟨0, tick⟩
      else do
        let (_, bar) ← idx p.bars (i - 1)
        pure ⟨i, sub32 tick bar.startTick⟩

/-- src/project.rs:311-314 -/
def maxEnd : List (Nat × Note) → Nat → R Nat
  | [], m => .ok m
  | (tick, n) :: l, m => do
    let len ← noteTickLen n
    maxEnd l (max m (add32 tick len))

/-- src/project.rs:305-317 `note_max_end_tick` (the constant `LONGEST_TICK_LEN` is the
same in both builds: nothing overflows in it) -/
def noteMaxEndTick (p : Project) : R (Option Nat) :=
  match p.notes.peekLast with
  | none => .ok none
  | some (t, _) => do
    let longest ← Note.longestTickLen
    let start : Int := (t : Int) - longest
    let start := if start < 0 then 0 else start
    let m ← maxEnd (p.notes.rangeFrom (asU32 start)) 0
    pure (some m)

/-- src/project.rs:346-351: the loop of `replenish_bars`, at most `fuel` times.  With a
zero length it never ends. -/
def newBars (len maxEnd : Nat) : Nat → Nat → R (List Bar)
  | 0, barTick => if barTick < maxEnd then .error .diverge else .ok []
  | fuel + 1, barTick =>
    if barTick < maxEnd then
      if len = 0 then .error .diverge
      else do
        let rest ← newBars len maxEnd fuel (add32 barTick len)
        pure ({ startTick := add32 barTick len } :: rest)
    else .ok []

/-- src/project.rs:335-353 `replenish_bars`.  The tick of the bar is a `u32`, and the
next one depends on it alone: a loop that has not ended after 2^32 rounds never ends
(proved in `C76_bars`). -/
def replenishBars (p : Project) : R (Project × List Bar) := do
  let barTick := match p.lastBar with
    | some (_, b) => b.startTick
    | none => 0
  let noteEnd ← noteMaxEndTick p
  let maxEndTick := max (max (max (noteEnd.getD 0) ((Project.maxTick p.tempos).getD 0))
    ((Project.maxTick p.dumpers).getD 0)) ((Project.maxTick p.softs).getD 0)
  if maxEndTick ≤ barTick then pure (p, [])
  else do
    let r ← p.rhythmAt barTick
    let bs ← newBars r.tickLen maxEndTick (4294967296 + maxEndTick) barTick
    pure ({ p with bars := Project.addBars p.bars bs }, bs)

/-- src/project.rs:595-611 `add_note` -/
def addNote (p : Project) (n : Note) (select : Bool) : R (Project × ProjectCmd) := do
  let p := { p with notes := p.notes.add n.startTick n }
  let (p, bs) ← replenishBars p
  pure (p, .modelChanged { notes := [n], bars := bs } {} (.selecting select))

/-- src/project.rs:629-644 `add_tempo` -/
def addTempo (p : Project) (t : Tempo) (select : Bool) : R (Project × ProjectCmd) := do
  let origin := (p.tempos.get? t.startTick).toList
  let p := { p with tempos := p.tempos.add t.startTick t }
  let (p, bs) ← replenishBars p
  pure (p, .modelChanged { bars := bs, tempos := [t] } { tempos := origin } (.selecting select))

/-- src/project.rs:646-660 `add_dumper` -/
def addDumper (p : Project) (c : CtrlChg) (select : Bool) : R (Project × ProjectCmd) := do
  let origin := (p.dumpers.get? c.startTick).toList
  let p := { p with dumpers := p.dumpers.add c.startTick c }
  let (p, bs) ← replenishBars p
  pure (p, .modelChanged { bars := bs, dumpers := [c] } { dumpers := origin } (.selecting select))

/-- src/project.rs:662-676 `add_soft` -/
def addSoft (p : Project) (c : CtrlChg) (select : Bool) : R (Project × ProjectCmd) := do
  let origin := (p.softs.get? c.startTick).toList
  let p := { p with softs := p.softs.add c.startTick c }
  let (p, bs) ← replenishBars p
  pure (p, .modelChanged { bars := bs, softs := [c] } { softs := origin } (.selecting select))

/-- src/project.rs:678-706 `tuplize` -/
def projectTuplize (p : Project) (notes : List Note) : R (Option (Project × ProjectCmd)) :=
  if 1 < notes.length then do
    let tupled ← tuplize notes
    let s := p.notes.bulkRemove (notes.map (fun n : Note => (n.startTick, n)))
    let p := { p with notes := s.bulkAdd (tupled.map (fun n : Note => (n.startTick, n))) }
    let (p, bs) ← replenishBars p
    pure (some (p, .modelChanged { notes := tupled, bars := bs } { notes := notes }
      (Metadata.withNeedSelect {} true)))
  else pure none

/-- src/project.rs:712-752 `bulk_add` -/
def bulkAdd (p : Project) (m : Models) (md : Metadata) : R (Project × ProjectCmd) := do
  let notes := p.notes.bulkAdd (m.notes.map (fun n : Note => (n.startTick, n)))
  let (bars, ob) := p.bars.bulkAdd (m.bars.map (fun b : Bar => (b.startTick, b)))
  let (tempos, ot) := p.tempos.bulkAdd (m.tempos.map (fun b : Tempo => (b.startTick, b)))
  let (dumpers, od) := p.dumpers.bulkAdd (m.dumpers.map (fun b : CtrlChg => (b.startTick, b)))
  let (softs, os) := p.softs.bulkAdd (m.softs.map (fun b : CtrlChg => (b.startTick, b)))
  let p := { p with notes := notes, bars := bars, tempos := tempos, dumpers := dumpers, softs := softs }
  let (p, bs) ← replenishBars p
  pure (p, .modelChanged { m with bars := m.bars ++ bs }
    { bars := ob.map (·.2), tempos := ot.map (·.2), dumpers := od.map (·.2), softs := os.map (·.2) } md)

/-- src/project.rs:754-827 `change` -/
def change (p : Project) (c : ModelChanges) (md : Metadata) : R (Project × ProjectCmd) := do
  let notes := p.notes.change (c.notes.map (fun (f, t) => ((f.startTick, f), (t.startTick, t))))
  let (bars, ob) := p.bars.change (c.bars.map (fun (f, t) => (f.startTick, (t.startTick, t))))
  let (tempos, ot) := p.tempos.change (c.tempos.map (fun (f, t) => (f.startTick, (t.startTick, t))))
  let (dumpers, od) := p.dumpers.change (c.dumpers.map (fun (f, t) => (f.startTick, (t.startTick, t))))
  let (softs, os) := p.softs.change (c.softs.map (fun (f, t) => (f.startTick, (t.startTick, t))))
  let p := { p with notes := notes, bars := bars, tempos := tempos, dumpers := dumpers, softs := softs }
  let (p, bs) ← replenishBars p
  pure (p, .modelChanged
    { notes := c.notes.map (·.2), bars := c.bars.map (·.2) ++ bs, tempos := c.tempos.map (·.2),
      dumpers := c.dumpers.map (·.2), softs := c.softs.map (·.2) }
    { notes := c.notes.map (·.1), bars := c.bars.map (·.1) ++ ob.map (·.2),
      tempos := c.tempos.map (·.1) ++ ot.map (·.2), dumpers := c.dumpers.map (·.1) ++ od.map (·.2),
      softs := c.softs.map (·.1) ++ os.map (·.2) } md)

/-- Every editing operation (src/project.rs:571-827). -/
def exec (p : Project) : Edit → R (Option (Project × ProjectCmd))
  | .setRhythm r => .ok (some (p.viaCmd (.setRhythm p.rhythm r)))
  | .setKey k => .ok (some (p.viaCmd (.setKey p.key k)))
  | .setGrid g => .ok (some (p.viaCmd (.setGrid p.grid g)))
  | .addNote n select => do pure (some (← addNote p n select))
  | .addBar b select => .ok (some (p.addBar b select))
  | .addTempo t select => do pure (some (← addTempo p t select))
  | .addDumper c select => do pure (some (← addDumper p c select))
  | .addSoft c select => do pure (some (← addSoft p c select))
  | .tuplize ns => projectTuplize p ns
  | .bulkRemove m md => .ok (some (p.viaCmd (.modelChanged {} m md)))
  | .bulkAdd m md => do pure (some (← bulkAdd p m md))
  | .change c md => do pure (some (← change p c md))

/-- One action of the user (src/project.rs:570-830 and the crate serdo, as
`Session.step`) -/
def sessionStep (s : Session) : Op → R Session
  | .edit e => do
    match ← exec s.cur e with
    | none => pure s
    | some (p, c) => pure { s with log := s.log.take s.cursor ++ [c], cursor := s.cursor + 1, cur := p }
  | .undo => s.step .undo
  | .redo => s.step .redo

/-- A sequence of user actions. -/
def sessionRun (s : Session) : List Op → R Session
  | [] => .ok s
  | o :: os => do
    let s ← sessionStep s o
    sessionRun s os

/-! ## Playing order -/

/-- src/repeat.rs:66-71, the loop of `by_accum_tick` -/
def byAccumLoop (offset : Nat) (buf : Store Chunk) : List Chunk → Store Chunk
  | [] => buf
  | c :: cs =>
    byAccumLoop (if c.endTick ≠ U32_MAX then add32 offset (sub32 c.endTick c.startTick) else offset)
      (buf.add offset c) cs

/-- src/repeat.rs:62-74 `Chunk::by_accum_tick` -/
def byAccumTick (chunks : List Chunk) : Store Chunk := byAccumLoop 0 [] chunks

/-- src/play_start_tick.rs:24-35, the loop (`cur` is a `u8`) -/
def startLoop (p : PlayStartTick) (cur : Nat) : List (Nat × Chunk) → Except CannotFind Nat
  | [] => .error ⟨p.iter, if cur = 0 then 255 else cur - 1⟩
  | (accum, chunk) :: cs =>
    if chunk.contains p.tick then
      if cur = p.iter then .ok (sub32 (add32 accum p.tick) chunk.startTick)
      else startLoop p ((cur + 1) % 256) cs
    else startLoop p cur cs

/-- src/play_start_tick.rs:23-36 `to_accum_tick` -/
def toAccumTick (p : PlayStartTick) (chunks : List (Nat × Chunk)) : Except CannotFind Nat := startLoop p 1 chunks

/-! ## Rendering

What intervallum does with the bounds that a wrapped difference produces is not known
(Model/Interval is exact for the others); `C75_render` is about inputs where no
difference wraps. -/

/-- src/global_repeat.rs:193-207 `to_interval_set` -/
def toIntervalSet (ip : Bool) (startTick : Nat) (fine : Option Nat) (coda : Option (Nat × Nat)) : R IntervalSet :=
  let endTick := fine.getD U32_MAX
  match coda with
  | some (codaFrom, codaTo) =>
    IntervalSet.ofPairs ip [(startTick, sub32 codaFrom 1), (codaTo, sub32 endTick 1)]
  | none =>
    if endTick ≤ startTick then .ok []
    else IntervalSet.ofPairs ip [(startTick, sub32 endTick 1)]

/-- src/global_repeat.rs:222-229 -/
def implicitSegno (g : GlobalRepeatBuilder) (len firstBarLen : Nat) : Nat :=
  let r := g.topRhythm.tickLen
  if add32 len firstBarLen = r then 0
  else if len = r ∧ firstBarLen = r then 0
  else firstBarLen

/-- src/global_repeat.rs:218-230 -/
def dcSegno (g : GlobalRepeatBuilder) (tick len firstBarLen : Nat) : Nat × List RenderRegionWarning :=
  match g.segno with
  | some s => (s, g.warnings ++ [.segnoAndDcFound s tick])
  | none => (implicitSegno g len firstBarLen, g.warnings)

/-- src/global_repeat.rs:209-294 `build` -/
def build (ip : Bool) (g : GlobalRepeatBuilder) : RR (Option GlobalRepeat × List RenderRegionWarning) :=
  match g.dsDc with
  | none => .ok (none, g.warnings)
  | some (.dc tick len) =>
    match g.firstBarLen with
    | none => .ok (none, g.warnings)
    | some firstBarLen => do
      let (segno, warnings) := dcSegno g tick len firstBarLen
      let (coda, warnings) ← g.dcCoda warnings
      let s ← liftR (toIntervalSet ip segno g.fine coda)
      pure (some ⟨.dc tick len, g.fine, segno, coda, s⟩, warnings)
  | some (.ds tick) => do
    let segno ← g.dsSegno tick
    let coda ← g.dsCoda
    let s ← liftR (toIntervalSet ip segno g.fine coda)
    pure (some ⟨.ds tick, g.fine, segno, coda, s⟩, g.warnings)

/-- src/repeat.rs:150-152 `to_iter1_interval_set` -/
def sequenceSet (ip : Bool) (r : SequenceRegion) : R IntervalSet :=
  IntervalSet.ofPairs ip [(r.start, sub32 r.stop 1)]

/-- src/repeat.rs:150-152, 185-187 and 241-245 `to_iter1_interval_set`: without endings
the index `len() - 1` wraps and the indexing panics. -/
def iter1Set (ip : Bool) : SimpleRegion → R IntervalSet
  | .seq r => sequenceSet ip r
  | .rep r => sequenceSet ip r
  | .var common vs => do
    let a ← sequenceSet ip common
    match vs.getLast? with
    | none => .error .index
    | some v => do
      let b ← sequenceSet ip v
      pure (a.union b)

/-- The chunks of the sections, src/repeat.rs:97-99 -/
def sectionChunks (s : IntervalSet) : List Chunk := s.map (fun i => ⟨i.1, add32 i.2 1⟩)

/-- src/repeat.rs:92-100 `to_iter1_chunks` -/
def iter1Chunks (ip : Bool) (r : SimpleRegion) (g : GlobalRepeat) : R (List Chunk) := do
  let s ← iter1Set ip r
  pure (sectionChunks (g.iter1.inter s))

/-- src/repeat.rs:156-172, 191-215 and 249-277 `render_chunks` (only the last phase
computes) -/
def renderChunks (ip : Bool) (r : SimpleRegion) (phase : RenderPhase) : R (List Chunk) :=
  match phase with
  | .iter1 g => iter1Chunks ip r g
  | .nonDcDs => r.renderChunks ip .nonDcDs
  | .iter0 d => r.renderChunks ip (.iter0 d)

/-- The loops of `to_chunks` (src/repeat.rs:287-309) -/
def renderAll (ip : Bool) (phase : RenderPhase) : List SimpleRegion → R (List Chunk)
  | [] => .ok []
  | r :: rs => do
    let a ← renderChunks ip r phase
    let b ← renderAll ip phase rs
    pure (a ++ b)

/-- src/repeat.rs:287-309 `to_chunks` -/
def toChunks (ip : Bool) (c : CompoundRegion) : R (List Chunk) :=
  match c.globalRepeat with
  | some gr => do
    let a ← renderAll ip (.iter0 gr.dsDc.tick) c.regions
    let b ← renderAll ip (.iter1 gr) c.regions
    pure (a ++ b)
  | none => renderAll ip .nonDcDs c.regions

/-- src/repeat.rs:366-500 `render_region` (`renderLoop` computes nothing that could
overflow) -/
def renderRegion (ip : Bool) (tuneRhythm : Rhythm) (bars : List Bar) :
    RR (CompoundRegion × List RenderRegionWarning) := do
  let (g, regions, state) ← renderLoop (GlobalRepeatBuilder.new tuneRhythm) .idle bars
  match state with
  | .idle => do
    let (gr, w) ← build ip g
    pure (⟨gr, regions ++ [.seq ⟨0, U32_MAX⟩]⟩, w)
  | .seq s => do
    let (gr, w) ← build ip g
    pure (⟨gr, regions ++ [.seq ⟨s, U32_MAX⟩]⟩, w)
  | .repeatStart s => fail (.noRepeatEnd s)
  | .variation _ ts =>
    match ts.getLast? with
    | some t => fail (.variationNotClosed t)
    | none => .error (.panic .unwrap)

end Release
end Klavier
