import Verif.Spec.ClipText
import Verif.Spec.Serde

/-! # Vocabulary: which JSON values stand for which data

Each relation tells what a JSON value must look like to stand for a datum. -/
set_option autoImplicit false
namespace Klavier
namespace Spec

/-! ## Structs -/

/-- The member `name` of a struct with the members `names` is `v`: written with its name, or
at its place in an array. -/
inductive HasMember (names : List String) (name : String) : Json → Json → Prop
  | obj {ms : List (List Char × Json)} {v : Json} : (name.toList, v) ∈ ms → HasMember names name (.obj ms) v
  | arr {l : List Json} {v : Json} (i : Nat) : names[i]? = some name → l[i]? = some v → HasMember names name (.arr l) v

/-- A struct with these members: an object with none of them twice and whatever else, or an
array of as many values -/
inductive IsStruct (names : List String) : Json → Prop
  | obj {ms : List (List Char × Json)} : (∀ name ∈ names, (ms.map (·.1)).count name.toList ≤ 1) → IsStruct names (.obj ms)
  | arr {l : List Json} : l.length = names.length → IsStruct names (.arr l)

/-- A member that must be there -/
def Member {α : Type} (names : List String) (name : String) (of : Json → α → Prop) (j : Json) (a : α) : Prop :=
  ∃ v, HasMember names name j v ∧ of v a

/-- `null` or a value -/
def IsOption {α : Type} (of : Json → α → Prop) (j : Json) (o : Option α) : Prop :=
  j = .null ∧ o = none ∨ ∃ a, of j a ∧ o = some a

/-- A member that may be left out -/
def MaybeMember {α : Type} (names : List String) (name : String) (of : Json → α → Prop) (j : Json) (o : Option α) : Prop :=
  Member names name (IsOption of) j o ∨ o = none ∧ ∀ v, ¬ HasMember names name j v

/-! ## Numbers, names, lists -/

/-- A number from 0 to `max` without fraction and exponent -/
def IsNat (max : Nat) (j : Json) (n : Nat) : Prop := j = .num (.nat n) ∧ n ≤ max

/-- A number from `lo` to `hi` without fraction and exponent -/
def IsInt (lo hi : Int) (j : Json) (i : Int) : Prop :=
  ((∃ n, j = .num (.nat n) ∧ i = n) ∨ ∃ n, j = .num (.neg n) ∧ i = -(n : Int)) ∧ lo ≤ i ∧ i ≤ hi

def IsBool (j : Json) (b : Bool) : Prop := j = .bool b

/-- One of several names: a string, or an object with that name as its only member, which is
`null` -/
def IsName (name : String) (j : Json) : Prop := j = .str name.toList ∨ j = .obj [(name.toList, .null)]

/-- Item by item -/
inductive Each {α : Type} (of : Json → α → Prop) : List Json → List α → Prop
  | nil : Each of [] []
  | cons {v : Json} {a : α} {vs : List Json} {as : List α} : of v a → Each of vs as → Each of (v :: vs) (a :: as)

def IsList {α : Type} (of : Json → α → Prop) (j : Json) (l : List α) : Prop := ∃ vs, j = .arr vs ∧ Each of vs l

/-! ## Data -/

def pitchMembers : List String := ["solfa", "octave", "sharp_flat"]

/-- Letter, octave and accidental, of one of the 128 MIDI notes -/
def IsPitch (j : Json) (p : Pitch) : Prop :=
  IsStruct pitchMembers j ∧
  Member pitchMembers "solfa" (fun v s => IsName (solfaText s) v) j p.solfa ∧
  Member pitchMembers "octave" (fun v o => IsName (octaveText o) v) j p.octave ∧
  Member pitchMembers "sharp_flat" (fun v a => IsName (sharpFlatText a) v) j p.sharpFlat ∧
  ValidPitch p

def durationMembers : List String := ["numerator", "denominator", "dots"]

/-- A denominator below 2 stands for 2. -/
def IsDuration (j : Json) (d : Duration) : Prop :=
  IsStruct durationMembers j ∧
  Member durationMembers "numerator" (fun v n => IsName (noteValueText n) v) j d.numerator ∧
  Member durationMembers "denominator" (fun v n => ∃ m, IsNat 255 v m ∧ n = max m 2) j d.denominator ∧
  Member durationMembers "dots" (IsNat 255) j d.dots

/-- Four numbers of 16 bits whose sums (of two, three and four) are of 16 bits, too -/
def IsTrimmer (j : Json) (t : Trimmer) : Prop :=
  IsStruct ["values"] j ∧ Member ["values"] "values" (IsList (IsInt (-32768) 32767)) j [t.v0, t.v1, t.v2, t.v3] ∧ SafeTrimmer t

def IsPercent (j : Json) (p : Percent) : Prop :=
  IsStruct ["value"] j ∧ Member ["value"] "value" (IsNat 65535) j p.value

/-- Four percentages -/
def IsRate (j : Json) (t : RateTrimmer) : Prop :=
  IsStruct ["values"] j ∧ Member ["values"] "values" (IsList IsPercent) j [t.v0, t.v1, t.v2, t.v3] ∧ SafeRate t

/-- Velocities over 127 stand for 127. -/
def IsVelocity (j : Json) (v : Velocity) : Prop := ∃ n, IsNat 255 j n ∧ v.value = min n 127

def noteMembers : List String :=
  ["base_start_tick", "pitch", "duration", "tie", "tied", "base_velocity", "start_tick_trimmer", "duration_trimmer",
    "velocity_trimmer", "channel"]

def IsNote (j : Json) (n : Note) : Prop :=
  IsStruct noteMembers j ∧
  Member noteMembers "base_start_tick" (IsNat 4294967295) j n.baseStartTick ∧
  Member noteMembers "pitch" IsPitch j n.pitch ∧
  Member noteMembers "duration" IsDuration j n.duration ∧
  Member noteMembers "tie" IsBool j n.tie ∧
  Member noteMembers "tied" IsBool j n.tied ∧
  Member noteMembers "base_velocity" IsVelocity j n.baseVelocity ∧
  Member noteMembers "start_tick_trimmer" IsTrimmer j n.startTickTrimmer ∧
  Member noteMembers "duration_trimmer" IsRate j n.durationTrimmer ∧
  Member noteMembers "velocity_trimmer" IsTrimmer j n.velocityTrimmer ∧
  Member noteMembers "channel" (IsNat 255) j n.channel

def rhythmMembers : List String := ["numerator", "denominator"]

def IsRhythm (j : Json) (r : Rhythm) : Prop :=
  IsStruct rhythmMembers j ∧
  Member rhythmMembers "numerator" (IsNat 255) j r.numerator ∧
  Member rhythmMembers "denominator" (fun v u => IsName (barUnitText u) v) j r.denominator

def IsKey (j : Json) (k : Key) : Prop := IsInt (-128) 127 j k.offset

/-- A number of 16 bits, of which eleven tell the marks -/
def IsMarks (j : Json) (s : RepeatSet) : Prop :=
  IsStruct ["value"] j ∧
  Member ["value"] "value" (fun v s => ∃ n, IsNat 65535 v n ∧ ∀ m, s.contains m = true ↔ n / weight m % 2 = 1) j s

def barMembers : List String := ["start_tick", "rhythm", "key", "repeats"]

def IsBar (j : Json) (b : Bar) : Prop :=
  IsStruct barMembers j ∧
  Member barMembers "start_tick" (IsNat 4294967295) j b.startTick ∧
  MaybeMember barMembers "rhythm" IsRhythm j b.rhythm ∧
  MaybeMember barMembers "key" IsKey j b.key ∧
  Member barMembers "repeats" IsMarks j b.repeats

def tempoMembers : List String := ["start_tick", "value"]

/-- Tempos over 999 stand for 999, the tempo 0 stands for 1. -/
def IsTempo (j : Json) (t : Tempo) : Prop :=
  IsStruct tempoMembers j ∧
  Member tempoMembers "start_tick" (IsNat 4294967295) j t.startTick ∧
  Member tempoMembers "value" (fun v (x : TempoValue) => ∃ n, IsNat 65535 v n ∧ x.value = min (max n 1) 999) j t.value

def pedalMembers : List String := ["start_tick", "velocity", "channel"]

def IsPedal (j : Json) (c : CtrlChg) : Prop :=
  IsStruct pedalMembers j ∧
  Member pedalMembers "start_tick" (IsNat 4294967295) j c.startTick ∧
  Member pedalMembers "velocity" IsVelocity j c.velocity ∧
  Member pedalMembers "channel" (IsNat 255) j c.channel

def selectionMembers : List String := ["notes", "bars", "tempos", "dumpers", "softs"]

def IsSelection (j : Json) (m : Models) : Prop :=
  IsStruct selectionMembers j ∧
  Member selectionMembers "notes" (IsList IsNote) j m.notes ∧
  Member selectionMembers "bars" (IsList IsBar) j m.bars ∧
  Member selectionMembers "tempos" (IsList IsTempo) j m.tempos ∧
  Member selectionMembers "dumpers" (IsList IsPedal) j m.dumpers ∧
  Member selectionMembers "softs" (IsList IsPedal) j m.softs

def projectMembers : List String := ["key", "rhythm", "notes", "bars", "tempos", "dumpers", "softs"]

def IsClipProject (j : Json) (p : ClipProject) : Prop :=
  IsStruct projectMembers j ∧
  MaybeMember projectMembers "key" IsKey j p.key ∧
  MaybeMember projectMembers "rhythm" IsRhythm j p.rhythm ∧
  Member projectMembers "notes" (IsList IsNote) j p.models.notes ∧
  Member projectMembers "bars" (IsList IsBar) j p.models.bars ∧
  Member projectMembers "tempos" (IsList IsTempo) j p.models.tempos ∧
  Member projectMembers "dumpers" (IsList IsPedal) j p.models.dumpers ∧
  Member projectMembers "softs" (IsList IsPedal) j p.models.softs

end Spec
end Klavier
