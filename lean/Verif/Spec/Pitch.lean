import Verif.Model.Pitch

/-! # Musical specification of pitches, independent of the tables in the code -/
set_option autoImplicit false
namespace Klavier.Spec
open Klavier

/-- Staff position counted in note letters from C of octave -2 (the letters are
C D E F G A B, octaves follow each other). -/
def staff (s : Solfa) (o : Octave) : Nat :=
  7 * ([.OctM2, .OctM1, .Oct0, .Oct1, .Oct2, .Oct3, .Oct4, .Oct5, .Oct6, .Oct7, .Oct8] :
        List Octave).idxOf o
    + ([.C, .D, .E, .F, .G, .A, .B] : List Solfa).idxOf s

/-- MIDI number of the unaltered note at a staff position: the lowest C is 0 and
each letter is a whole tone above the previous one, except F above E and C
above B, which are semitones. -/
def naturalMidi : Nat → Int
  | 0 => 0
  | n + 1 => naturalMidi n + (if n % 7 = 2 ∨ n % 7 = 6 then 1 else 2)

/-- Semitones an accidental adds. -/
def alter (a : SharpFlat) : Int :=
  if a = .Sharp then 1 else if a = .DoubleSharp then 2
  else if a = .Flat then -1 else if a = .DoubleFlat then -2 else 0

/-- The MIDI number denoted by name, octave, accidental. -/
def midi (s : Solfa) (o : Octave) (a : SharpFlat) : Int := naturalMidi (staff s o) + alter a

/-- A pitch whose cached numbers are the ones denoted by its name and which is a
MIDI note. -/
structure ValidPitch (p : Pitch) : Prop where
  value : (p.value : Int) = midi p.solfa p.octave p.sharpFlat
  staff : p.scoreOffset = staff p.solfa p.octave
  low : 0 ≤ midi p.solfa p.octave p.sharpFlat
  high : midi p.solfa p.octave p.sharpFlat ≤ 127

/-- Letters altered by a key signature of `k` (positive: sharps, negative:
flats): the first `|k|` letters of the circle of fifths order. -/
def keyLetters (k : Int) : List Solfa :=
  if 0 ≤ k then ([.F, .C, .G, .D, .A, .E, .B] : List Solfa).take k.toNat
  else ([.F, .C, .G, .D, .A, .E, .B] : List Solfa).reverse.take (-k).toNat

end Klavier.Spec
