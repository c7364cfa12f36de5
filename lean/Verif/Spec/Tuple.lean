import Verif.Spec.Values
import Verif.Model.Tuple

/-! # What a tuplet of a selection of notes should be -/
set_option autoImplicit false
namespace Klavier
namespace Spec

/-- Written length of a duration in 256ths of a whole note, dots included,
leaving aside the tuplet denominator. -/
def units (d : Duration) : Nat :=
  let w := 256 / 2 ^ ([.Whole, .Half, .Quarter, .N8th, .N16th, .N32nd, .N64th, .N128th] : List NoteValue).idxOf d.numerator
  2 * w - w / 2 ^ d.dots

/-- Written length in ticks, leaving aside the tuplet denominator. -/
def plainTicks (d : Duration) : Nat := 2 * writtenTicks d.numerator - writtenTicks d.numerator / 2 ^ d.dots

/-- The notes of a selection starting at `t`. -/
def chordAt (notes : List Note) (t : Nat) : List Note := notes.filter (fun n => n.baseStartTick = t)

/-- The shortest written length of the chord at `t`, in units. -/
def chordUnits (notes : List Note) (t : Nat) : Nat :=
  ((chordAt notes t).map (fun n => units n.duration)).min?.getD 0

/-- The shortest written length of the chord at `t`, in ticks. -/
def chordTicks (notes : List Note) (t : Nat) : Nat :=
  ((chordAt notes t).map (fun n => plainTicks n.duration)).min?.getD 0

/-- `ts` lists the start ticks of a selection, each once. -/
structure Starts (notes : List Note) (ts : List Nat) : Prop where
  nodup : ts.Nodup
  mem : ∀ t, t ∈ ts ↔ ∃ n ∈ notes, n.baseStartTick = t

/-- `g` is the greatest common divisor of the written lengths. -/
structure CommonUnit (notes : List Note) (g : Nat) : Prop where
  dvd : ∀ n ∈ notes, g ∣ units n.duration
  greatest : ∀ k, (∀ n ∈ notes, k ∣ units n.duration) → k ∣ g

/-- `l` is the selection in start order, notes starting together in the order
given. -/
structure InOrder (notes l : List Note) : Prop where
  sorted : l.Pairwise (fun a b => a.baseStartTick ≤ b.baseStartTick)
  chords : ∀ t, chordAt l t = chordAt notes t

/-- `m` is `n` except for start tick and tuplet denominator `d`. -/
def Retimed (d : Nat) (n m : Note) : Prop :=
  m = { n with baseStartTick := m.baseStartTick, duration := { n.duration with denominator := d } }

end Spec
end Klavier
