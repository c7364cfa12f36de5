import Verif.Model.Pitch
import Verif.Model.F32

/-!
# duration.rs, rhythm.rs, percent.rs, trimmer.rs, velocity.rs, channel.rs,
tempo.rs, ctrl_chg.rs, clipper.rs, grid.rs, play_iter.rs
-/
set_option autoImplicit false
namespace Klavier

/-! ## duration.rs -/

/-- src/duration.rs:5-14 `Numerator` -/
inductive NoteValue where
  | Whole | Half | Quarter | N8th | N16th | N32nd | N64th | N128th
  deriving DecidableEq, Repr

namespace NoteValue

/-- src/duration.rs:23-34 `Numerator::ord` -/
def ord : NoteValue → Nat
  | Whole => 0 | Half => 1 | Quarter => 2 | N8th => 3
  | N16th => 4 | N32nd => 5 | N64th => 6 | N128th => 7

/-- src/duration.rs:36-48 `Numerator::from_ord` -/
def fromOrd (n : Nat) : Option NoteValue :=
  if n = 0 then some Whole
  else if n = 1 then some Half
  else if n = 2 then some Quarter
  else if n = 3 then some N8th
  else if n = 4 then some N16th
  else if n = 5 then some N32nd
  else if n = 6 then some N64th
  else if n = 7 then some N128th
  else none

end NoteValue

/-- src/duration.rs:82-88 `Denominator::from_value`; a `Denominator(u8)` is
represented by its value. -/
def Denominator.fromValue (v : Nat) : Option Nat := if v < 2 then none else some v

/-- src/duration.rs:65-69 `From<SerializedDenominator>`: deserialisation. -/
def Denominator.ofSerialized (v : Nat) : Nat := (Denominator.fromValue v).getD 2

/-- src/duration.rs:115-121 `Dots::from_value`; `Dots(u8)` is represented by its
value.  Deserialisation is derived, i.e. unchecked. -/
def Dots.fromValue (v : Nat) : Option Nat := if 7 < v then none else some v

/-- src/duration.rs:134-138 `Duration` -/
structure Duration where
  numerator : NoteValue
  denominator : Nat
  dots : Nat
  deriving DecidableEq, Repr

namespace Duration

/-- src/duration.rs:151 `TICK_RESOLUTION` -/
abbrev TICK_RESOLUTION : Nat := 240

/-- The undotted length computed first by `tick_length` (src/duration.rs:163-169). -/
def baseLen (n : NoteValue) : Nat :=
  if n.ord ≤ 2 then TICK_RESOLUTION <<< (2 - n.ord) else TICK_RESOLUTION >>> (n.ord - 2)

/-- src/duration.rs:162-176 `Duration::tick_length`.  Shifting a `u32` by 32 or
more panics (reachable only with deserialised dots), dividing by a zero
denominator panics (`Denominator` cannot be 0, also not by deserialisation). -/
def tickLength (d : Duration) : R Nat :=
  let len := baseLen d.numerator
  if d.dots = 0 ∧ d.denominator = 2 then .ok len
  else if 32 ≤ d.dots then .error .overflow
  else if d.denominator = 0 then .error .divZero
  else .ok ((len + (len - (len >>> d.dots))) * 2 / d.denominator)

/-- src/duration.rs:178-180 -/
def withNumerator (d : Duration) (n : NoteValue) : Duration := { d with numerator := n }
/-- src/duration.rs:182-184 -/
def withDenominator (d : Duration) (m : Nat) : Duration := { d with denominator := m }
/-- src/duration.rs:186-188 -/
def withDots (d : Duration) (k : Nat) : Duration := { d with dots := k }

/-- src/duration.rs:190-192 `Duration::min` -/
def min (d e : Duration) : R Duration := do
  let a ← d.tickLength
  let b ← e.tickLength
  pure (if a < b then d else e)

end Duration

/-! ## rhythm.rs -/

/-- src/rhythm.rs:51-53 `Denominator` -/
inductive BarUnit where
  | D2 | D4 | D8 | D16 | D32 | D64
  deriving DecidableEq, Repr

/-- src/rhythm.rs:77-86 `Denominator::value` -/
def BarUnit.value : BarUnit → Nat
  | D2 => 2 | D4 => 4 | D8 => 8 | D16 => 16 | D32 => 32 | D64 => 64

/-- src/rhythm.rs:65-75 `Denominator::from_value` -/
def BarUnit.fromValue (v : Nat) : Except Nat BarUnit :=
  if v = 2 then .ok .D2
  else if v = 4 then .ok .D4
  else if v = 8 then .ok .D8
  else if v = 16 then .ok .D16
  else if v = 32 then .ok .D32
  else if v = 64 then .ok .D64
  else .error v

/-- src/rhythm.rs:100-105 `Rhythm`; the numerator is represented by its value
(`Numerator(u8)`, deserialisation is derived and unchecked). -/
structure Rhythm where
  numerator : Nat
  denominator : BarUnit
  deriving DecidableEq, Repr

/-- src/rhythm.rs:95-98 `RhythmError` -/
inductive RhythmError where
  | numerator (v : Nat)
  | denominator (v : Nat)
  deriving DecidableEq, Repr

namespace Rhythm

/-- src/rhythm.rs:25-31 `Numerator::from_value` -/
def numeratorFromValue (v : Nat) : Except Nat Nat :=
  if v < 1 ∨ 99 < v then .error v else .ok v

/-- src/rhythm.rs:123-138 `Rhythm::value_of` -/
def valueOf (n d : Nat) : Except RhythmError Rhythm :=
  match numeratorFromValue n with
  | .error v => .error (.numerator v)
  | .ok n =>
    match BarUnit.fromValue d with
    | .error v => .error (.denominator v)
    | .ok d => .ok { numerator := n, denominator := d }

/-- src/rhythm.rs:108-113 `Rhythm::new` -/
def new (n d : Nat) : R Rhythm :=
  match valueOf n d with
  | .error _ => .error .explicit
  | .ok r => .ok r

/-- src/rhythm.rs:145-149 `Default` -/
def default : Rhythm := { numerator := 4, denominator := .D4 }

/-- src/rhythm.rs:140-142 `Rhythm::tick_len`; the products fit `i32` for every
`u8` numerator. -/
def tickLen (r : Rhythm) : Nat := r.numerator * Duration.TICK_RESOLUTION * 4 / r.denominator.value

end Rhythm

/-! ## percent.rs -/

/-- src/percent.rs:6-8 `PercentU16`, represented by its `u16` value (thousandths). -/
structure Percent where
  value : Nat
  deriving DecidableEq, Repr

namespace Percent

/-- src/percent.rs:20 -/
def MAX : Percent := ⟨2000⟩
/-- src/percent.rs:23 -/
def HUNDRED : Percent := ⟨1000⟩

/-- src/percent.rs:31-33 `to_f32` -/
def toF32 (p : Percent) : F32 := (F32.ofU16 p.value).divConst 1000

/-- src/percent.rs:36-41 `CanApply<u32>::apply`: the product is an `i64`
product (no overflow for `u32` and `u16` operands), the result is cast to `u32`. -/
def apply (p : Percent) (v : Nat) : Nat := (v * p.value / 1000) % 4294967296

/-- src/percent.rs:49-64 `From<f32>` -/
def ofF32 (rate : F32) : Percent :=
  if rate.isNan then ⟨0⟩
  else if rate.ltZero then ⟨0⟩
  else if F32.gtConst 2 rate then ⟨2000⟩
  else ⟨asU16 (rate.mul (.fin false (1000 * F32.ONE))).asI32⟩

end Percent

/-! ## trimmer.rs -/

/-- src/trimmer.rs:11-15 `Trimmer`: four `i16` slots and the cached sum. -/
structure Trimmer where
  v0 : Int
  v1 : Int
  v2 : Int
  v3 : Int
  sum : Int
  deriving DecidableEq, Repr

namespace Trimmer

/-- src/trimmer.rs:37-42 `Trimmer::new` (sum in `i32`: cannot overflow) -/
def new (a b c d : Int) : Trimmer := ⟨a, b, c, d, a + b + c + d⟩

/-- src/trimmer.rs:35 `Trimmer::ZERO` -/
def ZERO : Trimmer := new 0 0 0 0

/-- src/trimmer.rs:44-49 `Trimmer::from_array`, 51-56 `from_vec` (for a vector
of four), and `From<TrimmerSerializedForm>` (23-27), i.e. deserialisation: the
additions are `i16` additions. -/
def fromArray (a b c d : Int) : R Trimmer := do
  let s1 ← chkI16 (a + b)
  let s2 ← chkI16 (s1 + c)
  let s3 ← chkI16 (s2 + d)
  pure ⟨a, b, c, d, s3⟩

/-- src/trimmer.rs:78-82 `Trimmer::updated` -/
def updated (t : Trimmer) (f : Int × Int × Int × Int → Int × Int × Int × Int) : R Trimmer :=
  let (a, b, c, d) := f (t.v0, t.v1, t.v2, t.v3)
  fromArray a b c d

/-- Loop body of `added` (src/trimmer.rs:86-96) for one slot: the new slot and
the tick carried to the next slot (`none`: `break`). -/
def addSlot (v tick : Int) : R (Int × Option Int) := do
  let t ← chkI32 (v + tick)
  if I16_MAX < t then pure (I16_MAX, some (t - I16_MAX))
  else if t < I16_MIN then pure (I16_MIN, some (t - I16_MIN))
  else pure (t, none)

/-- The loop of `added` (src/trimmer.rs:85-97) over the remaining slots. -/
def addSlots : List Int → Int → R (List Int)
  | [], _ => .ok []
  | v :: vs, tick => do
    let (v', carry) ← addSlot v tick
    match carry with
    | none => pure (v' :: vs)
    | some c => do
      let vs' ← addSlots vs c
      pure (v' :: vs')

/-- src/trimmer.rs:84-102 `Trimmer::added` -/
def added (t : Trimmer) (tick : Int) : R Trimmer := do
  let vs ← addSlots [t.v0, t.v1, t.v2, t.v3] tick
  match vs with
  | [a, b, c, d] => pure ⟨a, b, c, d, a + b + c + d⟩
  | _ => .error .index

end Trimmer

/-- src/trimmer.rs:124-128 `RateTrimmer` -/
structure RateTrimmer where
  v0 : Percent
  v1 : Percent
  v2 : Percent
  v3 : Percent
  sum : Percent
  deriving DecidableEq, Repr

namespace RateTrimmer

/-- src/trimmer.rs:154-157 `RateTrimmer::ONE` -/
def ONE : RateTrimmer := ⟨.HUNDRED, .HUNDRED, .HUNDRED, .HUNDRED, .HUNDRED⟩

/-- src/trimmer.rs:159-164 `RateTrimmer::new` -/
def new (a b c d : F32) : RateTrimmer :=
  ⟨.ofF32 a, .ofF32 b, .ofF32 c, .ofF32 d, .ofF32 (((a.mul b).mul c).mul d)⟩

/-- src/trimmer.rs:166-171 `from_array`, 173-178 `from_vec` (four elements) and
`From<RateTrimmerSerializedForm>` (136-140), i.e. deserialisation. -/
def fromArray (a b c d : Percent) : RateTrimmer :=
  ⟨a, b, c, d, .ofF32 (((a.toF32.mul b.toF32).mul c.toF32).mul d.toF32)⟩

/-- src/trimmer.rs:147-151 `apply` -/
def apply (t : RateTrimmer) (v : Nat) : Nat := t.sum.apply v

end RateTrimmer

/-! ## velocity.rs, channel.rs -/

/-- src/velocity.rs:4 `Velocity(u8)` -/
structure Velocity where
  value : Nat
  deriving DecidableEq, Repr

/-- src/velocity.rs:29-31 `Velocity::new`; also deserialisation (21-25). -/
def Velocity.new (v : Nat) : Velocity := if 127 < v then ⟨127⟩ else ⟨v⟩

/-- src/channel.rs:3 `Channel(u8)`, represented by its value. -/
abbrev Channel := Nat

/-- src/channel.rs:6-12 `Channel::new` -/
def Channel.new (v : Nat) : R Channel := if v < 16 then .ok v else .error .explicit

/-! ## tempo.rs -/

/-- src/tempo.rs:12 `TempoValue(u16)` -/
structure TempoValue where
  value : Nat
  deriving DecidableEq, Repr

namespace TempoValue

/-- src/tempo.rs:36-42 `TempoValue::new` -/
def new (v : Nat) : R TempoValue := if 999 < v then .error .explicit else .ok ⟨v⟩

/-- src/tempo.rs:23-29 `From<SerializedTempoValue>`: deserialisation. -/
def ofSerialized (v : Nat) : TempoValue :=
  if 999 < v then ⟨999⟩ else if v < 1 then ⟨1⟩ else ⟨v⟩

/-- src/tempo.rs:71-73 `safe_new` -/
def safeNew (v : Nat) : R TempoValue := new (if 999 < v then 999 else v)

/-- src/tempo.rs:52-59 `up` (the value is at most 999, the `u16` sum fits) -/
def up (t : TempoValue) : R (Except Nat TempoValue) :=
  let n := t.value + 1
  if 999 < n then .ok (.error n) else do
    let t ← new n
    pure (.ok t)

/-- src/tempo.rs:61-69 `down` -/
def down (t : TempoValue) : R (Except Nat TempoValue) :=
  if t.value ≤ 1 then .ok (.error 1) else do
    let t ← new (t.value - 1)
    pure (.ok t)

end TempoValue

/-- src/note.rs:21-24 `TickError` (its only value). -/
inductive TickError where
  | minus
  deriving DecidableEq, Repr

/-- src/tempo.rs:78-81 `Tempo` -/
structure Tempo where
  startTick : Nat
  value : TempoValue
  deriving DecidableEq, Repr

namespace Tempo

/-- src/tempo.rs:93-98 `Tempo::new` -/
def new (tick value : Nat) : R Tempo := do
  let v ← TempoValue.new value
  pure ⟨tick, v⟩

/-- src/tempo.rs:100-106 `Tempo::drag`: the tick sum is `i64`, cast to `u32`; the
tempo sum is `i32`, cast to `u16`. -/
def drag (t : Tempo) (tickDelta tempoDelta : Int) : R Tempo := do
  let s ← chkI32 (t.value.value + tempoDelta)
  let v ← TempoValue.safeNew (asU16 s)
  pure ⟨asU32 (t.startTick + tickDelta), v⟩

/-- src/tempo.rs:108-120 `Tempo::with_tick_added` -/
def withTickAdded (t : Tempo) (delta : Int) : Except TickError Tempo :=
  let tick := (t.startTick : Int) + delta
  if tick < 0 then .error .minus else .ok { t with startTick := asU32 tick }

/-- src/tempo.rs:122-129 `Tempo::up` -/
def up (t : Tempo) : R (Except Nat Tempo) := do
  let r ← t.value.up
  pure (r.map (fun v => { t with value := v }))

/-- src/tempo.rs:131-138 `Tempo::down` -/
def down (t : Tempo) : R (Except Nat Tempo) := do
  let r ← t.value.down
  pure (r.map (fun v => { t with value := v }))

end Tempo

/-! ## ctrl_chg.rs -/

/-- src/ctrl_chg.rs:6-10 `CtrlChg` -/
structure CtrlChg where
  startTick : Nat
  velocity : Velocity
  channel : Channel
  deriving DecidableEq, Repr

namespace CtrlChg

/-- src/ctrl_chg.rs:17-22 `CtrlChg::drag` -/
def drag (c : CtrlChg) (delta : Int) : CtrlChg :=
  { c with startTick := asU32 (c.startTick + delta) }

/-- src/ctrl_chg.rs:24-36 `CtrlChg::with_tick_added` -/
def withTickAdded (c : CtrlChg) (delta : Int) : Except TickError CtrlChg :=
  let tick := (c.startTick : Int) + delta
  if tick < 0 then .error .minus else .ok { c with startTick := asU32 tick }

end CtrlChg

/-! ## clipper.rs -/

/-- src/clipper.rs:2-5 `Clipper<T>` and 20-30 `clip`, for any type with a
`<` test (`PartialOrd`, so not necessarily total). -/
def clip {α : Type} (lt : α → α → Bool) (min max value : α) : α :=
  if lt value min then min
  else if lt max value then max
  else value

/-! ## grid.rs -/

/-- src/grid.rs:8-10 `Grid` (deserialisation is derived, so 0 is possible there) -/
structure Grid where
  value : Nat
  deriving DecidableEq, Repr

namespace Grid

/-- src/grid.rs:24-30 `Grid::from_u32` (error text "0" omitted) -/
def fromU32 (i : Nat) : Except Unit Grid := if i = 0 then .error () else .ok ⟨i⟩

/-- src/grid.rs:38-46 `Grid::snap`: `i64` arithmetic, truncating division. -/
def snap (g : Grid) (tick : Int) : R Int :=
  let i : Int := g.value
  if tick < 0 then do
    let s ← chkI64 (tick - i.tdiv 2)
    if i = 0 then .error .divZero else chkI64 (i * s.tdiv i)
  else do
    let s ← chkI64 (tick + i.tdiv 2)
    if i = 0 then .error .divZero else chkI64 (i * s.tdiv i)

end Grid

/-! ## play_iter.rs -/

/-- src/play_iter.rs:9-16 `PlayIter::new`; a `PlayIter` is represented by `iter`. -/
def PlayIter.new (iter : Nat) : Nat :=
  let iter := if iter < 1 then 1 else iter
  if 5 < iter then 5 else iter

/-- src/play_iter.rs:20-27 `PlayIter::set_iter`: new state and returned flag. -/
def PlayIter.setIter (cur iter : Nat) : Nat × Bool :=
  if 0 < iter ∧ iter ≤ 5 then (iter, true) else (cur, false)

end Klavier
