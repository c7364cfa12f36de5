import Verif.Model.Note

/-! # Vocabulary of the properties about values and notes -/
set_option autoImplicit false
namespace Klavier

namespace Spec
/-- Ticks of an undotted note value: a whole note is 960 ticks, each following
value is half as long (rounded down). -/
def writtenTicks (n : NoteValue) : Nat :=
  960 / 2 ^ ([.Whole, .Half, .Quarter, .N8th, .N16th, .N32nd, .N64th, .N128th] : List NoteValue).idxOf n

/-- A duration as the public constructors build it. -/
structure ValidDuration (d : Duration) : Prop where
  den_lo : 2 ≤ d.denominator
  den_hi : d.denominator ≤ 255
  dots : d.dots ≤ 7
end Spec
namespace Spec
/-- Slots are 16-bit and the cached total is their sum. -/
structure ValidTrimmer (t : Trimmer) : Prop where
  r0 : -32768 ≤ t.v0 ∧ t.v0 ≤ 32767
  r1 : -32768 ≤ t.v1 ∧ t.v1 ≤ 32767
  r2 : -32768 ≤ t.v2 ∧ t.v2 ≤ 32767
  r3 : -32768 ≤ t.v3 ∧ t.v3 ≤ 32767
  sum : t.sum = t.v0 + t.v1 + t.v2 + t.v3
end Spec

/-- A default-like note used in examples. -/
def exampleNote : Note :=
  ⟨100, ⟨.C, .Oct3, .Null, 60, 35⟩, ⟨.Quarter, 2, 0⟩, false, false, ⟨64⟩, .ZERO, .ONE, .ZERO, 0⟩

/-- Notes whose parts come from the public constructors. -/
structure Spec.ValidLength (n : Note) : Prop where
  duration : Spec.ValidDuration n.duration
  rate : n.durationTrimmer.sum.value ≤ 2000

namespace Spec

/-- A magnitude in units of 2^-149 that a binary32 number can have (but for its upper
limit): 24 bits and a power of two. -/
def Binary32 (w : Nat) : Prop := ∃ m t, m < 2 ^ 24 ∧ w = m * 2 ^ t

/-- The same with an even significand. -/
def EvenBinary32 (w : Nat) : Prop := ∃ m t, m < 2 ^ 24 ∧ w = m * 2 ^ t ∧ (2 ^ 23 ≤ m ∨ t = 0) ∧ m % 2 = 0

/-- How far `w * b` is from `a` -/
def off (a b w : Nat) : Nat := ((w * b : Int) - a).natAbs

/-- The letters in the order of the scale. -/
def scale : List Solfa := [.C, .D, .E, .F, .G, .A, .B]

end Spec
end Klavier
