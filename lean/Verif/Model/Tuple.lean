import Verif.Model.Note

/-! # tuple.rs -/
set_option autoImplicit false
namespace Klavier
namespace Tuple

/-- src/tuple.rs:142-145 `numerator_unit` (shifting by 32 or more panics) -/
def numeratorUnit (d : Duration) : R Nat :=
  let len := 1 <<< (8 - d.numerator.ord)
  if 32 ≤ d.dots then .error .overflow else .ok (len + (len - (len >>> d.dots)))

/-- src/tuple.rs:41-48 `TupleElem::Some`; `TupleElem::None` is `none`. -/
structure Elem where
  startTick : Nat
  notes : List Note
  minDuration : Duration
  deriving DecidableEq, Repr

/-- src/tuple.rs:96-129 `TupleElem::add`: the element finished by this note, if
any, and the new current element. -/
def add (cur : Option Elem) (note : Note) : R (Option Elem × Elem) :=
  let duration := note.duration.withDenominator 2
  match cur with
  | none => .ok (none, ⟨note.baseStartTick, [note], duration⟩)
  | some e =>
    if e.startTick ≠ note.baseStartTick then
      .ok (some e, ⟨note.baseStartTick, [note], duration⟩)
    else do
      let m ← e.minDuration.min duration
      pure (none, ⟨e.startTick, e.notes ++ [note], m⟩)

/-- Stable insertion used by `sort`. -/
def insert (n : Note) : List Note → List Note
  | [] => [n]
  | m :: ms => if n.baseStartTick ≤ m.baseStartTick then n :: m :: ms else m :: insert n ms

/-- src/tuple.rs:155 `notes.sort_by(..)`: the stable sort by base start tick. -/
def sort (notes : List Note) : List Note := notes.foldr insert []

/-- src/tuple.rs:160-171: the grouping loop. -/
def group : List Note → Option Elem → R (List Elem)
  | [], none => .ok []
  | [], some cur => .ok [cur]
  | n :: ns, cur => do
    let _ ← numeratorUnit n.duration
    let (done, cur') ← add cur n
    let rest ← group ns (some cur')
    pure (match done with
      | some e => e :: rest
      | none => rest)

/-- src/tuple.rs:148-150 `gcd_units`: the reduction visits a `HashSet` in an
unspecified order and without duplicates; neither affects a greatest common
divisor, so the model folds over the list of notes. -/
def gcdUnits : List Note → R (Option Nat)
  | [] => .ok none
  | n :: ns => do
    let u ← numeratorUnit n.duration
    let r ← gcdUnits ns
    pure (match r with
      | none => some u
      | some g => some (u.gcd g))

/-- src/tuple.rs:180-190 `total_tick_unit` (`u32` additions) -/
def totalTickUnit : List Elem → Nat × Nat → R (Nat × Nat)
  | [], acc => .ok acc
  | e :: es, (tick, unit) => do
    let l ← e.minDuration.tickLength
    let tick ← addU32 tick l
    let u ← numeratorUnit e.minDuration
    let unit ← addU32 unit u
    totalTickUnit es (tick, unit)

/-- Checked `u32` multiplication. -/
def mulU32 (a b : Nat) : R Nat := if a * b ≤ U32_MAX then .ok (a * b) else .error .overflow

/-- src/tuple.rs:25-31: the inner loop placing the notes; `u` is the number of
units consumed so far. -/
def place (startTick totalTick totalUnit denominator : Nat) : List Note → Nat → R (List Note)
  | [], _ => .ok []
  | n :: ns, u => do
    let x ← mulU32 totalTick u
    if totalUnit = 0 then .error .divZero else do
    let tick ← addU32 startTick (x / totalUnit)
    let note := { n with baseStartTick := tick, duration := n.duration.withDenominator denominator }
    let w ← numeratorUnit note.duration
    let u ← addU32 u w
    let rest ← place startTick totalTick totalUnit denominator ns u
    pure (note :: rest)

/-- src/tuple.rs:6-40 `tuplize` (with 152-178 `sort_by_start_tick` inlined) -/
def tuplize (notes : List Note) : R (List Note) :=
  match sort notes with
  | [] => .ok []
  | first :: more => do
    let work := first :: more
    let sorted ← group work none
    let minUnit ← gcdUnits work
    match minUnit with
    | none => pure []
    | some minUnit => do
      let startTick := first.baseStartTick
      let (totalTick, totalUnit) ← totalTickUnit sorted (0, 0)
      if minUnit = 0 then .error .divZero else do
      let denominator := totalUnit / minUnit
      if denominator < 2 then pure notes else do
      let totalTick ← mulU32 (totalTick / denominator) 2
      let d ← unwrapO (Denominator.fromValue (asU8 denominator))
      place startTick totalTick totalUnit d (sorted.flatMap (·.notes)) 0

end Tuple
end Klavier
