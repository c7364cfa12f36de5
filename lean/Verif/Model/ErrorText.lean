import Verif.Model.Repeat
import Verif.Model.Text

/-! # Texts of the errors

`Display` of the error types, and `Debug` where `Display` uses it: a derived `Debug`
writes the name of a variant, and for a struct variant ` { `, each field as
`name: value` with `, ` between, and ` }`; arrays are written `[a, b]`. -/
set_option autoImplicit false
namespace Klavier

/-- An integer as `Display` writes it -/
def showInt (v : Int) : List Char := if v < 0 then '-' :: decimal v.natAbs else decimal v.natAbs

/-- src/octave.rs:9-17 `Display for OctaveError` -/
def OctaveError.text : OctaveError → List Char
  | .invalidValue v => "Octave(".toList ++ (showInt v ++ (") should ".toList ++ (showInt Octave.MIN.value ++ (" <= ".toList ++
      (showInt v ++ (" <= ".toList ++ showInt Octave.MAX.value))))))

/-- src/solfa.rs:4-7 derived `Debug for Solfa` -/
def Solfa.debug : Solfa → List Char
  | .C => ['C'] | .D => ['D'] | .E => ['E'] | .F => ['F'] | .G => ['G'] | .A => ['A'] | .B => ['B']

/-- src/octave.rs:20-23 derived `Debug for Octave` -/
def Octave.debug : Octave → List Char
  | .OctM2 => "OctM2".toList | .OctM1 => "OctM1".toList | .Oct0 => "Oct0".toList | .Oct1 => "Oct1".toList
  | .Oct2 => "Oct2".toList | .Oct3 => "Oct3".toList | .Oct4 => "Oct4".toList | .Oct5 => "Oct5".toList
  | .Oct6 => "Oct6".toList | .Oct7 => "Oct7".toList | .Oct8 => "Oct8".toList

/-- src/sharp_flat.rs:2-10 derived `Debug for SharpFlat` -/
def SharpFlat.debug : SharpFlat → List Char
  | .Sharp => "Sharp".toList | .DoubleSharp => "DoubleSharp".toList | .Flat => "Flat".toList
  | .DoubleFlat => "DoubleFlat".toList | .Natural => "Natural".toList | .Null => "Null".toList

/-- src/pitch.rs:15-29 `Display for PitchError` -/
def PitchError.text : PitchError → List Char
  | .tooLow s o a v => "Pitch(".toList ++ (s.debug ++ (", ".toList ++ (o.debug ++ (", ".toList ++ (a.debug ++
      (") is too low ".toList ++ showInt v))))))
  | .tooHigh s o a v => "Pitch(".toList ++ (s.debug ++ (", ".toList ++ (o.debug ++ (", ".toList ++ (a.debug ++
      (") is too high ".toList ++ showInt v))))))
  | .invalidScoreOffset v => "Score offset error(".toList ++ (showInt v ++ [')'])

/-- src/project.rs:29-35 `Display for LocationError`, which has one variant -/
def locationErrorText : List Char := "Location overflow".toList

/-- src/project.rs:525-531 `Display for ProjectCmdErr`, which has one variant -/
def projectCmdErrText : List Char := "No Operation".toList

/-- src/bar.rs:8-11 derived `Debug for VarIndex` -/
def VarIndex.debug : VarIndex → List Char
  | .VI1 => "VI1".toList | .VI2 => "VI2".toList | .VI3 => "VI3".toList | .VI4 => "VI4".toList

namespace RenderRegionError

/-- A struct variant with one `u32` -/
def debug1 (name field : String) (t : Nat) : List Char :=
  name.toList ++ (" { ".toList ++ (field.toList ++ (": ".toList ++ (decimal t ++ " }".toList))))

/-- A struct variant with an array of two `u32` -/
def debug2 (name : String) (t0 t1 : Nat) : List Char :=
  name.toList ++ (" { tick: [".toList ++ (decimal t0 ++ (", ".toList ++ (decimal t1 ++ "] }".toList))))

/-- src/repeat.rs:332-364 `Display for RenderRegionError`, which is the derived `Debug`
(`SegnoWhildVariation` is spelled so) -/
def text : RenderRegionError → List Char
  | .duplicatedRepeatStart t => debug1 "DuplicatedRepeatStart" "tick" t
  | .duplicatedSegno a b => debug2 "DuplicatedSegno" a b
  | .duplicatedDsDc a b => debug2 "DuplicatedDsDc" a b
  | .duplicatedFine a b => debug2 "DuplicatedFine" a b
  | .orphanRepeatEnd t => debug1 "OrphanRepeatEnd" "tick" t
  | .fineWithoutDsDc t => debug1 "FineWithoutDsDc" "tick" t
  | .segnoWithoutDs t => debug1 "SegnoWithoutDs" "tick" t
  | .codaWithoutDsDc a b => debug2 "CodaWithoutDsDc" a b
  | .noRepeatEnd t => debug1 "NoRepeatEnd" "tick" t
  | .invalidRegionIndex t actual expected => "InvalidRegionIndex".toList ++ (" { tick: ".toList ++ (decimal t ++
      (", actual: ".toList ++ (actual.debug ++ (", expected: ".toList ++ (expected.debug ++ " }".toList))))))
  | .repeatInVariation t => debug1 "RepeatInVariation" "tick" t
  | .variationNotClosed t => debug1 "VariationNotClosed" "tick" t
  | .repeatOrVariationOnDc t => debug1 "RepeatOrVariationOnDc" "tick" t
  | .repeatOrVariationOnDs t => debug1 "RepeatOrVariationOnDs" "tick" t
  | .fineNotAfterSegno s f => "FineNotAfterSegno".toList ++ (" { segno_tick: ".toList ++ (decimal s ++
      (", fine_tick: ".toList ++ (decimal f ++ " }".toList))))
  | .noSegnoForDs t => debug1 "NoSegnoForDs" "ds_tick" t
  | .moreThanTwoCodas a b c => "MoreThanTwoCodas".toList ++ (" { tick: [".toList ++ (decimal a ++ (", ".toList ++
      (decimal b ++ (", ".toList ++ (decimal c ++ "] }".toList))))))
  | .onlyOneCoda t => debug1 "OnlyOneCoda" "tick" t
  | .dcDsWhileRepeat t => debug1 "DcDsWhileRepeat" "tick" t
  | .dcDsWhileVariation t => debug1 "DcDsWhileVariation" "tick" t
  | .segnoWhileVariation t => debug1 "SegnoWhildVariation" "tick" t
  | .codaAfterFine f t e => "CodaAfterFine".toList ++ (" { coda_from: ".toList ++ (decimal f ++ (", coda_to: ".toList ++
      (decimal t ++ (", fine: ".toList ++ (decimal e ++ " }".toList))))))

end RenderRegionError
end Klavier
