import Verif.Model.Text
import Verif.Model.Note
import Verif.Model.Bar

/-! # The small public functions of the value types: conversions, defaults, texts,
equality and builders -/
set_option autoImplicit false
namespace Klavier

/-! ## Conversions -/

/-- src/octave.rs:82-87 `Add for Octave` -/
def Octave.add (a b : Octave) : R Octave := do
  let s ← chkI32 (a.value + b.value)
  let r ← valueOf s
  unwrapR r

/-- src/bar.rs:56-60 `Into<VarIndex> for u8` -/
def VarIndex.ofU8 (v : Nat) : R VarIndex := unwrapR (fromValue v)

namespace Trimmer

/-- `values[i]` of a vector, with the panic of a failed bounds check. -/
def at_ {α : Type} (vs : List α) (i : Nat) : R α :=
  match vs[i]? with
  | some v => .ok v
  | none => .error .index

/-- src/trimmer.rs:51-56 `Trimmer::from_vec` (further elements are ignored) -/
def fromVec (vs : List Int) : R Trimmer := do
  let a ← at_ vs 0
  let b ← at_ vs 1
  let c ← at_ vs 2
  let d ← at_ vs 3
  fromArray a b c d

/-- src/trimmer.rs:58-60 `to_array`, 66-68 `values`, 70-72 `to_vec` -/
def toVec (t : Trimmer) : List Int := [t.v0, t.v1, t.v2, t.v3]

/-- src/trimmer.rs:62-64 `value` -/
def value (t : Trimmer) (i : Nat) : R Int := at_ t.toVec i

/-- src/trimmer.rs:105-113 `PartialEq for Trimmer` -/
def eq (t u : Trimmer) : Bool :=
  if t.sum = u.sum then decide (t.toVec = u.toVec) else false

/-- src/trimmer.rs:115-119 `Hash for Trimmer`: what is given to the hasher. -/
def hashed (t : Trimmer) : Int := t.sum

end Trimmer

namespace RateTrimmer

/-- src/trimmer.rs:173-178 `RateTrimmer::from_vec` -/
def fromVec (vs : List Percent) : R RateTrimmer := do
  let a ← Trimmer.at_ vs 0
  let b ← Trimmer.at_ vs 1
  let c ← Trimmer.at_ vs 2
  let d ← Trimmer.at_ vs 3
  pure (fromArray a b c d)

/-- src/trimmer.rs:180-182 `to_vec`, 188-190 `values` -/
def toVec (t : RateTrimmer) : List Percent := [t.v0, t.v1, t.v2, t.v3]

/-- src/trimmer.rs:184-186 `value` -/
def value (t : RateTrimmer) (i : Nat) : R Percent := Trimmer.at_ t.toVec i

/-- src/trimmer.rs:197-205 `PartialEq for RateTrimmer` (the values are compared with
src/percent.rs:66-70) -/
def eq (t u : RateTrimmer) : Bool :=
  if t.sum.value = u.sum.value then decide (t.toVec.map (·.value) = u.toVec.map (·.value)) else false

end RateTrimmer

/-! ## Defaults -/

/-- src/duration.rs:16-20, 57-61, 95-99, 140-148 `Default` of `Numerator`,
`Denominator`, `Dots`, `Duration` -/
def Duration.default : Duration := ⟨.Quarter, 2, 0⟩

/-- src/pitch.rs:69 `DEFAULT` (`Pitch::new` panics on an illegal pitch), 46-50 -/
def Pitch.default : R Pitch := unwrapR (valueOf .A .Oct4 .Null)

/-- src/velocity.rs:6-10 -/
def Velocity.default : Velocity := ⟨64⟩

/-- src/tempo.rs:14-18 -/
def TempoValue.default : TempoValue := ⟨120⟩

/-- src/tempo.rs:83-90 -/
def Tempo.default : Tempo := ⟨0, .default⟩

/-- src/grid.rs:49-53 -/
def Grid.default : Grid := ⟨60⟩

/-- src/play_iter.rs:30-34 -/
def PlayIter.default : Nat := 1

/-- src/note.rs:229-244 `Default for Note` (with src/trimmer.rs:17-21, 130-134,
src/channel.rs:19-23) -/
def Note.default : R Note := do
  let p ← Pitch.default
  pure ⟨0, p, .default, false, false, .default, .ZERO, .ONE, .ZERO, 0⟩

/-! ## Builders -/

/-- src/pitch.rs:33-44 `#[derive(Builder)] #[builder(default)]`: the generated
`PitchBuilder` has one optional value per field, each set by the method of its name. -/
structure PitchBuilder where
  solfa : Option Solfa := none
  octave : Option Octave := none
  sharpFlat : Option SharpFlat := none
  value : Option Nat := none
  scoreOffset : Option Int := none

/-- The generated `build`: fields which were not set are taken from
`Default::default()` of the struct.  The crate derive_builder is external. -/
def PitchBuilder.build (b : PitchBuilder) : R Pitch := do
  let d ← Pitch.default
  pure ⟨b.solfa.getD d.solfa, b.octave.getD d.octave, b.sharpFlat.getD d.sharpFlat,
    b.value.getD d.value, b.scoreOffset.getD d.scoreOffset⟩

/-- src/note.rs:30-43, the same for `Note`. -/
structure NoteBuilder where
  baseStartTick : Option Nat := none
  pitch : Option Pitch := none
  duration : Option Duration := none
  tie : Option Bool := none
  tied : Option Bool := none
  baseVelocity : Option Velocity := none
  startTickTrimmer : Option Trimmer := none
  durationTrimmer : Option RateTrimmer := none
  velocityTrimmer : Option Trimmer := none
  channel : Option Channel := none

/-- The generated `NoteBuilder::build`. -/
def NoteBuilder.build (b : NoteBuilder) : R Note := do
  let d ← Note.default
  pure ⟨b.baseStartTick.getD d.baseStartTick, b.pitch.getD d.pitch, b.duration.getD d.duration,
    b.tie.getD d.tie, b.tied.getD d.tied, b.baseVelocity.getD d.baseVelocity,
    b.startTickTrimmer.getD d.startTickTrimmer, b.durationTrimmer.getD d.durationTrimmer,
    b.velocityTrimmer.getD d.velocityTrimmer, b.channel.getD d.channel⟩

/-! ## Texts -/

/-- src/grid.rs:2-5 `GridError::ParseError` -/
structure GridError where
  text : List Char
  deriving DecidableEq, Repr

/-- src/grid.rs:24-31 `Grid::from_u32` with its error text -/
def Grid.fromU32Text (i : Nat) : Except GridError Grid :=
  if i = 0 then .error ⟨['0']⟩ else .ok ⟨i⟩

/-- src/grid.rs:14-22 `Grid::value_of` -/
def Grid.valueOf (s : List Char) : Except GridError Grid :=
  match parseUnsigned U32_MAX s with
  | .error _ => .error ⟨s⟩
  | .ok i => fromU32Text i

/-- src/grid.rs:55-59 `ToString for Grid` -/
def Grid.toText (g : Grid) : List Char := decimal g.value

/-- src/rhythm.rs:12-16 `Display for Numerator` -/
def Numerator.toText (n : Nat) : List Char := decimal n

/-- src/rhythm.rs:88-90 `Denominator::to_string` -/
def BarUnit.toText (d : BarUnit) : List Char := decimal d.value

/-- src/duration.rs:71-75 `ToString for Denominator` -/
def Denominator.toText (d : Nat) : List Char := decimal d

/-- src/velocity.rs:39-43 `Display for Velocity` -/
def Velocity.toText (v : Velocity) : List Char := decimal v.value

/-- src/bar.rs:78-97 `Display for Repeat` -/
def Repeat.toText : Repeat → String
  | .Start => "|:" | .End => ":|" | .Dc => "D.C." | .Fine => "Fine" | .Ds => "D.S." | .Segno => "Segno"
  | .Coda => "Coda" | .Var1 => "Var1" | .Var2 => "Var2" | .Var3 => "Var3" | .Var4 => "Var4"

/-- src/solfa.rs:67-79 `Display for Solfa` -/
def Solfa.toText : Solfa → String
  | .C => "C" | .D => "D" | .E => "E" | .F => "F" | .G => "G" | .A => "A" | .B => "B"

end Klavier
