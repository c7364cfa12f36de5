import Verif.Model.Serde
import Verif.Spec.Pitch
import Verif.Spec.Values

/-! # Vocabulary: data that fit their types -/
set_option autoImplicit false
namespace Klavier

/-- Slots of 16 bits -/
def TypedTrimmer (t : Trimmer) : Prop :=
  (-32768 ≤ t.v0 ∧ t.v0 ≤ 32767) ∧ (-32768 ≤ t.v1 ∧ t.v1 ≤ 32767) ∧
  (-32768 ≤ t.v2 ∧ t.v2 ≤ 32767) ∧ (-32768 ≤ t.v3 ∧ t.v3 ≤ 32767)

/-- Percentages of 16 bits -/
def TypedRate (t : RateTrimmer) : Prop :=
  t.v0.value ≤ 65535 ∧ t.v1.value ≤ 65535 ∧ t.v2.value ≤ 65535 ∧ t.v3.value ≤ 65535

/-- A note whose fields are of the declared integer types. -/
def TypedNote (n : Note) : Prop :=
  n.baseStartTick ≤ 4294967295 ∧ n.duration.denominator ≤ 255 ∧ n.duration.dots ≤ 255 ∧
  n.baseVelocity.value ≤ 255 ∧ TypedTrimmer n.startTickTrimmer ∧ TypedRate n.durationTrimmer ∧
  TypedTrimmer n.velocityTrimmer ∧ n.channel ≤ 255

/-- A bar whose fields are of the declared integer types. -/
def TypedBar (b : Bar) : Prop :=
  b.startTick ≤ 4294967295 ∧ (∀ r, b.rhythm = some r → r.numerator ≤ 255) ∧
  ∀ k, b.key = some k → -128 ≤ k.offset ∧ k.offset ≤ 127

/-- A tempo whose fields are of the declared integer types. -/
def TypedTempo (t : Tempo) : Prop := t.startTick ≤ 4294967295 ∧ t.value.value ≤ 65535

/-- A pedal event whose fields are of the declared integer types. -/
def TypedCtrl (c : CtrlChg) : Prop := c.startTick ≤ 4294967295 ∧ c.velocity.value ≤ 255 ∧ c.channel ≤ 255

/-- A selection whose fields are of the declared integer types. -/
def TypedModels (m : Models) : Prop :=
  (∀ n ∈ m.notes, TypedNote n) ∧ (∀ b ∈ m.bars, TypedBar b) ∧ (∀ t ∈ m.tempos, TypedTempo t) ∧
  (∀ c ∈ m.dumpers, TypedCtrl c) ∧ ∀ c ∈ m.softs, TypedCtrl c

/-- A trimmer with slots of 16 bits and the right total, whose running totals fit
16 bits, too. -/
structure SafeTrimmer (t : Trimmer) : Prop where
  v0 : -32768 ≤ t.v0 ∧ t.v0 ≤ 32767
  v1 : -32768 ≤ t.v1 ∧ t.v1 ≤ 32767
  v2 : -32768 ≤ t.v2 ∧ t.v2 ≤ 32767
  v3 : -32768 ≤ t.v3 ∧ t.v3 ≤ 32767
  two : -32768 ≤ t.v0 + t.v1 ∧ t.v0 + t.v1 ≤ 32767
  three : -32768 ≤ t.v0 + t.v1 + t.v2 ∧ t.v0 + t.v1 + t.v2 ≤ 32767
  four : -32768 ≤ t.sum ∧ t.sum ≤ 32767
  sum : t.sum = t.v0 + t.v1 + t.v2 + t.v3

/-- A rate trimmer of four 16 bit percentages whose total is the one computed from
them. -/
structure SafeRate (t : RateTrimmer) : Prop where
  v0 : t.v0.value ≤ 65535
  v1 : t.v1.value ≤ 65535
  v2 : t.v2.value ≤ 65535
  v3 : t.v3.value ≤ 65535
  sum : t = RateTrimmer.fromArray t.v0 t.v1 t.v2 t.v3

/-- A note that fits the types of its fields. -/
structure SafeNote (n : Note) : Prop where
  tick : n.baseStartTick ≤ 4294967295
  pitch : Pitch.valueOf n.pitch.solfa n.pitch.octave n.pitch.sharpFlat = .ok n.pitch
  denominator : 2 ≤ n.duration.denominator ∧ n.duration.denominator ≤ 255
  dots : n.duration.dots ≤ 255
  velocity : n.baseVelocity.value ≤ 127
  start : SafeTrimmer n.startTickTrimmer
  length : SafeRate n.durationTrimmer
  loudness : SafeTrimmer n.velocityTrimmer
  channel : n.channel ≤ 255

/-- A rhythm with a numerator of 8 bits -/
def SafeRhythm (r : Rhythm) : Prop := r.numerator ≤ 255

/-- A key of 8 bits -/
def SafeKey (k : Key) : Prop := -128 ≤ k.offset ∧ k.offset ≤ 127

/-- A bar that fits the types of its fields. -/
structure SafeBar (b : Bar) : Prop where
  tick : b.startTick ≤ 4294967295
  rhythm : ∀ r, b.rhythm = some r → SafeRhythm r
  key : ∀ k, b.key = some k → SafeKey k

/-- A tempo that fits its type, and is not 0. -/
structure SafeTempo (t : Tempo) : Prop where
  tick : t.startTick ≤ 4294967295
  value : 1 ≤ t.value.value ∧ t.value.value ≤ 999

/-- A pedal event that fits the types of its fields. -/
structure SafeCtrl (c : CtrlChg) : Prop where
  tick : c.startTick ≤ 4294967295
  velocity : c.velocity.value ≤ 127
  channel : c.channel ≤ 255

/-- A selection that fits the types of its fields. -/
structure SafeModels (m : Models) : Prop where
  notes : ∀ n ∈ m.notes, SafeNote n
  bars : ∀ b ∈ m.bars, SafeBar b
  tempos : ∀ t ∈ m.tempos, SafeTempo t
  dumpers : ∀ c ∈ m.dumpers, SafeCtrl c
  softs : ∀ c ∈ m.softs, SafeCtrl c

end Klavier
