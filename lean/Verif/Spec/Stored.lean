import Verif.Spec.Bincode

/-! # Vocabulary: what a stored selection tells -/
set_option autoImplicit false
namespace Klavier
namespace Spec

/-- A note as the constructors make it: integers of the declared types, a legal pitch, and the totals
of the ticks and of the loudness are the sums of their slots.  Denominators, loudness and rates may be
any of their types. -/
structure MadeNote (n : Note) : Prop where
  typed : TypedNote n
  pitch : ValidPitch n.pitch
  start : n.startTickTrimmer.sum = n.startTickTrimmer.v0 + n.startTickTrimmer.v1 + n.startTickTrimmer.v2 + n.startTickTrimmer.v3
  loudness : n.velocityTrimmer.sum =
    n.velocityTrimmer.v0 + n.velocityTrimmer.v1 + n.velocityTrimmer.v2 + n.velocityTrimmer.v3

/-- A selection of such notes, and of bars, tempos and pedals of the declared types -/
structure MadeModels (m : Models) : Prop where
  typed : TypedModels m
  notes : ∀ n ∈ m.notes, MadeNote n

/-- No more items than a vector can hold -/
structure Countable64 (m : Models) : Prop where
  notes : m.notes.length < 2 ^ 64
  bars : m.bars.length < 2 ^ 64
  tempos : m.tempos.length < 2 ^ 64
  dumpers : m.dumpers.length < 2 ^ 64
  softs : m.softs.length < 2 ^ 64

/-- A document of such items -/
structure MadeDocument (x : ExportedProject) : Prop where
  rhythm : SafeRhythm x.rhythm
  key : SafeKey x.key
  grid : x.grid.value ≤ 4294967295
  models : MadeModels x.models
  count : Countable64 x.models

/-- A command with such items -/
def MadeCmd : ProjectCmd → Prop
  | .setRhythm a b => SafeRhythm a ∧ SafeRhythm b
  | .setKey a b => SafeKey a ∧ SafeKey b
  | .setGrid a b => a.value ≤ 4294967295 ∧ b.value ≤ 4294967295
  | .modelChanged a r _ => (MadeModels a ∧ Countable64 a) ∧ (MadeModels r ∧ Countable64 r)

/-- A note without the total of its rates -/
def unrated (n : Note) : Note := { n with durationTrimmer := { n.durationTrimmer with sum := ⟨0⟩ } }

/-- Two selections that differ at most in the totals of the rates of notes -/
structure AlikeModels (m m' : Models) : Prop where
  notes : m.notes.map unrated = m'.notes.map unrated
  bars : m.bars = m'.bars
  tempos : m.tempos = m'.tempos
  dumpers : m.dumpers = m'.dumpers
  softs : m.softs = m'.softs

/-- Two documents that differ at most in the totals of the rates of notes -/
structure AlikeDocuments (x y : ExportedProject) : Prop where
  rhythm : x.rhythm = y.rhythm
  key : x.key = y.key
  grid : x.grid = y.grid
  models : AlikeModels x.models y.models

/-- Two commands that differ at most in the totals of the rates of notes -/
def AlikeCmds : ProjectCmd → ProjectCmd → Prop
  | .setRhythm a b, .setRhythm a' b' => a = a' ∧ b = b'
  | .setKey a b, .setKey a' b' => a = a' ∧ b = b'
  | .setGrid a b, .setGrid a' b' => a = a' ∧ b = b'
  | .modelChanged a r m, .modelChanged a' r' m' => AlikeModels a a' ∧ AlikeModels r r' ∧ m = m'
  | _, _ => False

end Spec
end Klavier
