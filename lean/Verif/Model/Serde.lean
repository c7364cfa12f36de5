import Verif.Model.Json
import Verif.Model.Clipboard

/-!
# The derived `Serialize` and `Deserialize` of the data types, and the clipboard

`enc…` is what the derived `Serialize` writes, `de…` what the derived (or `from`)
`Deserialize` reads.  Reading yields a value, an error, or a panic (a `From`
conversion may panic).  All errors are alike: from_clipboard_text puts only their
message into `detail`, which is not modelled.  The order in which a text is read
matters because a panic and an error may both be in it: whichever comes first wins.
-/
set_option autoImplicit false
namespace Klavier

/-- Why reading stops. -/
inductive DeErr where
  | panic (p : Panic)
  | invalid
  deriving DecidableEq, Repr

abbrev De (α : Type) := Except DeErr α

namespace De

/-- A conversion (`From`) applied to what was read -/
def lift {α : Type} : R α → De α
  | .ok a => .ok a
  | .error p => .error (.panic p)

mutual
/-- Does the text cease to be JSON within this value? (What can be skipped does not count.) -/
def broken : Json → Bool
  | .bad => true
  | .arr l => brokenElems l
  | .obj l => brokenMembers l
  | _ => false
def brokenElems : List Json → Bool
  | [] => false
  | x :: xs => broken x || brokenElems xs
def brokenMembers : List (List Char × Json) → Bool
  | [] => false
  | (_, v) :: ms => broken v || brokenMembers ms
end

/-- Reading a value of an unknown field (`IgnoredAny`) -/
def ignored (j : Json) : De Unit := if broken j then .error .invalid else .ok ()

/-- Unsigned integers of at most `max` -/
def uint (max : Nat) : Json → De Nat
  | .num (.nat n) => if n ≤ max then .ok n else .error .invalid
  | _ => .error .invalid

/-- Signed integers from `-max - 1` to `max` -/
def sint (max : Nat) : Json → De Int
  | .num (.nat n) => if n ≤ max then .ok (n : Int) else .error .invalid
  | .num (.neg n) => if n ≤ max + 1 then .ok (-(n : Int)) else .error .invalid
  | _ => .error .invalid

def bool : Json → De Bool
  | .bool b => .ok b
  | _ => .error .invalid

/-- `Option<T>`: `null` or a value -/
def option {α : Type} (de : Json → De α) : Json → De (Option α)
  | .null => .ok none
  | j => do
    let a ← de j
    pure (some a)

/-- The elements of a `Vec<T>` or array, in turn -/
def elems {α : Type} (de : Json → De α) : List Json → De (List α)
  | [] => .ok []
  | x :: xs => do
    let a ← de x
    let as ← elems de xs
    pure (a :: as)

/-- `Vec<T>` -/
def vec {α : Type} (de : Json → De α) : Json → De (List α)
  | .arr l => elems de l
  | _ => .error .invalid

/-- `[T; 4]`: the first four elements are read, and there must be no other. -/
def four {α : Type} (de : Json → De α) : Json → De (α × α × α × α)
  | .arr (a :: b :: c :: d :: r) => do
    let a ← de a
    let b ← de b
    let c ← de c
    let d ← de d
    if r.isEmpty then pure (a, b, c, d) else .error .invalid
  | .arr l => do
    let _ ← elems de l
    .error .invalid
  | _ => .error .invalid

/-- The name of the variant of an enum without data: a string, or an object with
the name as its only key and `null` as its value. -/
def variant : Json → De (List Char)
  | .str s => .ok s
  | .obj [(s, .null)] => .ok s
  | _ => .error .invalid

/-- An enum without data -/
def enum {α : Type} (name : α → List Char) (all : List α) (j : Json) : De α := do
  let s ← variant j
  match all.find? (fun a => name a = s) with
  | some a => pure a
  | none => .error .invalid

/-- A field of a struct: its name and a check of its value. -/
abbrev Field := List Char × (Json → De Unit)

/-- A field read with `de` -/
def field {α : Type} (name : String) (de : Json → De α) : Field :=
  (name.toList, fun j => do
    let _ ← de j
    pure ())

/-- The value of a known field.  One that can only be skipped fails where it ceases to be
JSON, if reading what comes before does not fail. -/
def knownField (check : Json → De Unit) : Json → De Unit
  | .skip j => do
    check j
    .error .invalid
  | j => check j

/-- `visit_map`: the members in turn; a known field may occur once, an unknown one
is ignored. -/
def members (fs : List Field) : List (List Char) → List (List Char × Json) → De Unit
  | _, [] => .ok ()
  | seen, (k, v) :: ms =>
    match fs.find? (fun f => f.1 = k) with
    | none => do
      ignored v
      members fs seen ms
    | some f =>
      if k ∈ seen then .error .invalid
      else do
        knownField f.2 v
        members fs (k :: seen) ms

/-- `visit_seq`: the fields in turn, without names -/
def positional : List Field → List Json → De Unit
  | [], [] => .ok ()
  | [], _ :: _ => .error .invalid
  | _ :: _, [] => .error .invalid
  | f :: fs, v :: vs => do
    f.2 v
    positional fs vs

/-- `deserialize_struct`: an object, or an array of as many values as there are
fields.  The result tells the value of each field present. -/
def struct (fs : List Field) : Json → De (List (List Char × Json))
  | .obj ms => do
    members fs [] ms
    pure ms
  | .arr l => do
    positional fs l
    pure ((fs.map (·.1)).zip l)
  | _ => .error .invalid

/-- The value of a required field -/
def get {α : Type} (ms : List (List Char × Json)) (name : String) (de : Json → De α) : De α :=
  match ms.lookup name.toList with
  | some v => de v
  | none => .error .invalid

/-- The value of a field of type `Option<T>`, which may be absent -/
def getOption {α : Type} (ms : List (List Char × Json)) (name : String) (de : Json → De α) : De (Option α) :=
  match ms.lookup name.toList with
  | some v => option de v
  | none => .ok none

end De

/-! ## Integers -/

/-- A signed integer as written -/
def encInt (i : Int) : Json :=
  if 0 ≤ i then .num (.nat i.toNat) else .num (.neg (-i).toNat)

def encNat (n : Nat) : Json := .num (.nat n)

def encOption {α : Type} (enc : α → Json) : Option α → Json
  | none => .null
  | some a => enc a

def encVec {α : Type} (enc : α → Json) (l : List α) : Json := .arr (l.map enc)

/-- A struct: its fields in the order of declaration -/
def encStruct (l : List (String × Json)) : Json := .obj (l.map (fun p => (p.1.toList, p.2)))

abbrev U8 : Nat := 255
abbrev U16 : Nat := 65535
abbrev U32 : Nat := 4294967295

/-! ## Enums -/

/-- src/solfa.rs:5-7, names of the variants -/
def Solfa.name : Solfa → List Char
  | C => "C".toList | D => "D".toList | E => "E".toList | F => "F".toList
  | G => "G".toList | A => "A".toList | B => "B".toList

/-- src/octave.rs:21-23, names of the variants -/
def Octave.name : Octave → List Char
  | OctM2 => "OctM2".toList | OctM1 => "OctM1".toList | Oct0 => "Oct0".toList | Oct1 => "Oct1".toList
  | Oct2 => "Oct2".toList | Oct3 => "Oct3".toList | Oct4 => "Oct4".toList | Oct5 => "Oct5".toList
  | Oct6 => "Oct6".toList | Oct7 => "Oct7".toList | Oct8 => "Oct8".toList

/-- src/sharp_flat.rs:3-10, names of the variants -/
def SharpFlat.name : SharpFlat → List Char
  | Sharp => "Sharp".toList | DoubleSharp => "DoubleSharp".toList | Flat => "Flat".toList
  | DoubleFlat => "DoubleFlat".toList | Natural => "Natural".toList | Null => "Null".toList

/-- src/sharp_flat.rs:3-10, the variants -/
def SharpFlat.ALL : List SharpFlat := [Sharp, DoubleSharp, Flat, DoubleFlat, Natural, Null]

/-- src/duration.rs:5-14, names of the variants -/
def NoteValue.name : NoteValue → List Char
  | Whole => "Whole".toList | Half => "Half".toList | Quarter => "Quarter".toList | N8th => "N8th".toList
  | N16th => "N16th".toList | N32nd => "N32nd".toList | N64th => "N64th".toList | N128th => "N128th".toList

/-- src/duration.rs:5-14, the variants -/
def NoteValue.ALL : List NoteValue := [Whole, Half, Quarter, N8th, N16th, N32nd, N64th, N128th]

/-- src/rhythm.rs:51-53, names of the variants -/
def BarUnit.name : BarUnit → List Char
  | D2 => "D2".toList | D4 => "D4".toList | D8 => "D8".toList
  | D16 => "D16".toList | D32 => "D32".toList | D64 => "D64".toList

/-- src/rhythm.rs:51-53, the variants -/
def BarUnit.ALL : List BarUnit := [D2, D4, D8, D16, D32, D64]

/-! ## Structs -/

/-- src/pitch.rs:31-44 -/
def Pitch.enc (p : Pitch) : Json :=
  encStruct [("solfa", .str p.solfa.name), ("octave", .str p.octave.name), ("sharp_flat", .str p.sharpFlat.name)]

/-- src/pitch.rs:32, 52-63: `From<PitchSerializedForm>` is `Pitch::new`, which
panics for a pitch out of range. -/
def Pitch.de (j : Json) : De Pitch := do
  let ms ← De.struct [De.field "solfa" (De.enum Solfa.name Solfa.ALL),
    De.field "octave" (De.enum Octave.name Octave.ALL),
    De.field "sharp_flat" (De.enum SharpFlat.name SharpFlat.ALL)] j
  let s ← De.get ms "solfa" (De.enum Solfa.name Solfa.ALL)
  let o ← De.get ms "octave" (De.enum Octave.name Octave.ALL)
  let a ← De.get ms "sharp_flat" (De.enum SharpFlat.name SharpFlat.ALL)
  De.lift (Pitch.new s o a)

/-- src/duration.rs:51-69 -/
def Denominator.de (j : Json) : De Nat := do
  let v ← De.uint U8 j
  pure (Denominator.ofSerialized v)

/-- src/duration.rs:132-138 (and 3-14, 51-54, 91-93) -/
def Duration.enc (d : Duration) : Json :=
  encStruct [("numerator", .str d.numerator.name), ("denominator", encNat d.denominator), ("dots", encNat d.dots)]

/-- src/duration.rs:132-138 -/
def Duration.de (j : Json) : De Duration := do
  let ms ← De.struct [De.field "numerator" (De.enum NoteValue.name NoteValue.ALL),
    De.field "denominator" Denominator.de, De.field "dots" (De.uint U8)] j
  let n ← De.get ms "numerator" (De.enum NoteValue.name NoteValue.ALL)
  let d ← De.get ms "denominator" Denominator.de
  let k ← De.get ms "dots" (De.uint U8)
  pure ⟨n, d, k⟩

/-- src/trimmer.rs:8-15 -/
def Trimmer.enc (t : Trimmer) : Json :=
  encStruct [("values", .arr [encInt t.v0, encInt t.v1, encInt t.v2, encInt t.v3])]

/-- src/trimmer.rs:9, 23-32: `From<TrimmerSerializedForm>` is `from_array` -/
def Trimmer.de (j : Json) : De Trimmer := do
  let ms ← De.struct [De.field "values" (De.four (De.sint 32767))] j
  let (a, b, c, d) ← De.get ms "values" (De.four (De.sint 32767))
  De.lift (Trimmer.fromArray a b c d)

/-- src/percent.rs:4-8 -/
def Percent.enc (p : Percent) : Json := encStruct [("value", encNat p.value)]

/-- src/percent.rs:4-8 -/
def Percent.de (j : Json) : De Percent := do
  let ms ← De.struct [De.field "value" (De.uint U16)] j
  let v ← De.get ms "value" (De.uint U16)
  pure ⟨v⟩

/-- src/trimmer.rs:121-128 -/
def RateTrimmer.enc (t : RateTrimmer) : Json :=
  encStruct [("values", .arr [t.v0.enc, t.v1.enc, t.v2.enc, t.v3.enc])]

/-- src/trimmer.rs:122, 136-145 -/
def RateTrimmer.de (j : Json) : De RateTrimmer := do
  let ms ← De.struct [De.field "values" (De.four Percent.de)] j
  let (a, b, c, d) ← De.get ms "values" (De.four Percent.de)
  pure (RateTrimmer.fromArray a b c d)

/-- src/velocity.rs:2-25 -/
def Velocity.de (j : Json) : De Velocity := do
  let v ← De.uint U8 j
  pure (Velocity.new v)

/-- src/note.rs:29-43 -/
def Note.enc (n : Note) : Json :=
  encStruct [("base_start_tick", encNat n.baseStartTick), ("pitch", n.pitch.enc), ("duration", n.duration.enc),
    ("tie", .bool n.tie), ("tied", .bool n.tied), ("base_velocity", encNat n.baseVelocity.value),
    ("start_tick_trimmer", n.startTickTrimmer.enc), ("duration_trimmer", n.durationTrimmer.enc),
    ("velocity_trimmer", n.velocityTrimmer.enc), ("channel", encNat n.channel)]

/-- src/note.rs:29-43 (channel.rs:1-3: any `u8`) -/
def Note.de (j : Json) : De Note := do
  let ms ← De.struct [De.field "base_start_tick" (De.uint U32), De.field "pitch" Pitch.de,
    De.field "duration" Duration.de, De.field "tie" De.bool, De.field "tied" De.bool,
    De.field "base_velocity" Velocity.de, De.field "start_tick_trimmer" Trimmer.de,
    De.field "duration_trimmer" RateTrimmer.de, De.field "velocity_trimmer" Trimmer.de,
    De.field "channel" (De.uint U8)] j
  let t ← De.get ms "base_start_tick" (De.uint U32)
  let p ← De.get ms "pitch" Pitch.de
  let d ← De.get ms "duration" Duration.de
  let a ← De.get ms "tie" De.bool
  let b ← De.get ms "tied" De.bool
  let v ← De.get ms "base_velocity" Velocity.de
  let st ← De.get ms "start_tick_trimmer" Trimmer.de
  let dt ← De.get ms "duration_trimmer" RateTrimmer.de
  let vt ← De.get ms "velocity_trimmer" Trimmer.de
  let c ← De.get ms "channel" (De.uint U8)
  pure ⟨t, p, d, a, b, v, st, dt, vt, c⟩

/-- src/rhythm.rs:100-105 (and 7-9, 50-53) -/
def Rhythm.enc (r : Rhythm) : Json :=
  encStruct [("numerator", encNat r.numerator), ("denominator", .str r.denominator.name)]

/-- src/rhythm.rs:100-105 -/
def Rhythm.de (j : Json) : De Rhythm := do
  let ms ← De.struct [De.field "numerator" (De.uint U8), De.field "denominator" (De.enum BarUnit.name BarUnit.ALL)] j
  let n ← De.get ms "numerator" (De.uint U8)
  let d ← De.get ms "denominator" (De.enum BarUnit.name BarUnit.ALL)
  pure ⟨n, d⟩

/-- src/key.rs:7-9 -/
def Key.enc (k : Key) : Json := encInt k.offset

/-- src/key.rs:7-9 -/
def Key.de (j : Json) : De Key := do
  let v ← De.sint 127 j
  pure ⟨v⟩

/-- The bits of an `EnumSet<Repeat>`: bit `i` for the `i`-th variant of
src/bar.rs:64-76 -/
def RepeatSet.bits (s : RepeatSet) : Nat :=
  s.start.toNat + 2 * s.end_.toNat + 4 * s.dc.toNat + 8 * s.fine.toNat + 16 * s.ds.toNat + 32 * s.segno.toNat
    + 64 * s.coda.toNat + 128 * s.var1.toNat + 256 * s.var2.toNat + 512 * s.var3.toNat + 1024 * s.var4.toNat

/-- The set with the given bits; bits without a variant are dropped (enumset
without `serialize_deny_unknown`). -/
def RepeatSet.ofBits (n : Nat) : RepeatSet where
  start := n.testBit 0
  end_ := n.testBit 1
  dc := n.testBit 2
  fine := n.testBit 3
  ds := n.testBit 4
  segno := n.testBit 5
  coda := n.testBit 6
  var1 := n.testBit 7
  var2 := n.testBit 8
  var3 := n.testBit 9
  var4 := n.testBit 10

/-- src/bar.rs:98-102; an `EnumSet` is written as its bits (crate enumset, feature
serde). -/
def RepeatSet.enc (s : RepeatSet) : Json := encStruct [("value", encNat s.bits)]

/-- src/bar.rs:98-102; the smallest integer type with a bit for each of the eleven
variants is `u16`. -/
def RepeatSet.de (j : Json) : De RepeatSet := do
  let ms ← De.struct [De.field "value" (De.uint U16)] j
  let v ← De.get ms "value" (De.uint U16)
  pure (RepeatSet.ofBits v)

/-- src/bar.rs:223-230 -/
def Bar.enc (b : Bar) : Json :=
  encStruct [("start_tick", encNat b.startTick), ("rhythm", encOption Rhythm.enc b.rhythm),
    ("key", encOption Key.enc b.key), ("repeats", b.repeats.enc)]

/-- src/bar.rs:223-230 -/
def Bar.de (j : Json) : De Bar := do
  let ms ← De.struct [De.field "start_tick" (De.uint U32), De.field "rhythm" (De.option Rhythm.de),
    De.field "key" (De.option Key.de), De.field "repeats" RepeatSet.de] j
  let t ← De.get ms "start_tick" (De.uint U32)
  let r ← De.getOption ms "rhythm" Rhythm.de
  let k ← De.getOption ms "key" Key.de
  let s ← De.get ms "repeats" RepeatSet.de
  pure ⟨t, r, k, s⟩

/-- src/tempo.rs:10-29 -/
def TempoValue.de (j : Json) : De TempoValue := do
  let v ← De.uint U16 j
  pure (TempoValue.ofSerialized v)

/-- src/tempo.rs:76-81 -/
def Tempo.enc (t : Tempo) : Json :=
  encStruct [("start_tick", encNat t.startTick), ("value", encNat t.value.value)]

/-- src/tempo.rs:76-81 -/
def Tempo.de (j : Json) : De Tempo := do
  let ms ← De.struct [De.field "start_tick" (De.uint U32), De.field "value" TempoValue.de] j
  let t ← De.get ms "start_tick" (De.uint U32)
  let v ← De.get ms "value" TempoValue.de
  pure ⟨t, v⟩

/-- src/ctrl_chg.rs:4-10 -/
def CtrlChg.enc (c : CtrlChg) : Json :=
  encStruct [("start_tick", encNat c.startTick), ("velocity", encNat c.velocity.value), ("channel", encNat c.channel)]

/-- src/ctrl_chg.rs:4-10 -/
def CtrlChg.de (j : Json) : De CtrlChg := do
  let ms ← De.struct [De.field "start_tick" (De.uint U32), De.field "velocity" Velocity.de,
    De.field "channel" (De.uint U8)] j
  let t ← De.get ms "start_tick" (De.uint U32)
  let v ← De.get ms "velocity" Velocity.de
  let c ← De.get ms "channel" (De.uint U8)
  pure ⟨t, v, c⟩

/-- src/models.rs:7-14 -/
def Models.enc (m : Models) : Json :=
  encStruct [("notes", encVec Note.enc m.notes), ("bars", encVec Bar.enc m.bars),
    ("tempos", encVec Tempo.enc m.tempos), ("dumpers", encVec CtrlChg.enc m.dumpers),
    ("softs", encVec CtrlChg.enc m.softs)]

/-- src/models.rs:7-14 -/
def Models.de (j : Json) : De Models := do
  let ms ← De.struct [De.field "notes" (De.vec Note.de), De.field "bars" (De.vec Bar.de),
    De.field "tempos" (De.vec Tempo.de), De.field "dumpers" (De.vec CtrlChg.de),
    De.field "softs" (De.vec CtrlChg.de)] j
  let n ← De.get ms "notes" (De.vec Note.de)
  let b ← De.get ms "bars" (De.vec Bar.de)
  let t ← De.get ms "tempos" (De.vec Tempo.de)
  let d ← De.get ms "dumpers" (De.vec CtrlChg.de)
  let s ← De.get ms "softs" (De.vec CtrlChg.de)
  pure ⟨n, b, t, d, s⟩

/-- src/exported_project.rs:5-14 `ExportedProject` (the one for the clipboard) -/
structure ClipProject where
  key : Option Key := none
  rhythm : Option Rhythm := none
  models : Models := {}
  deriving DecidableEq

/-- src/exported_project.rs:5-14 -/
def ClipProject.enc (p : ClipProject) : Json :=
  encStruct [("key", encOption Key.enc p.key), ("rhythm", encOption Rhythm.enc p.rhythm),
    ("notes", encVec Note.enc p.models.notes), ("bars", encVec Bar.enc p.models.bars),
    ("tempos", encVec Tempo.enc p.models.tempos), ("dumpers", encVec CtrlChg.enc p.models.dumpers),
    ("softs", encVec CtrlChg.enc p.models.softs)]

/-- src/exported_project.rs:5-14 -/
def ClipProject.de (j : Json) : De ClipProject := do
  let ms ← De.struct [De.field "key" (De.option Key.de), De.field "rhythm" (De.option Rhythm.de),
    De.field "notes" (De.vec Note.de), De.field "bars" (De.vec Bar.de),
    De.field "tempos" (De.vec Tempo.de), De.field "dumpers" (De.vec CtrlChg.de),
    De.field "softs" (De.vec CtrlChg.de)] j
  let k ← De.getOption ms "key" Key.de
  let r ← De.getOption ms "rhythm" Rhythm.de
  let n ← De.get ms "notes" (De.vec Note.de)
  let b ← De.get ms "bars" (De.vec Bar.de)
  let t ← De.get ms "tempos" (De.vec Tempo.de)
  let d ← De.get ms "dumpers" (De.vec CtrlChg.de)
  let s ← De.get ms "softs" (De.vec CtrlChg.de)
  pure ⟨k, r, ⟨n, b, t, d, s⟩⟩

/-- src/exported_project.rs:42-50 `to_models` -/
def ClipProject.toModels (p : ClipProject) : Models := p.models

/-! ## models.rs and exported_project.rs: the clipboard -/

/-- src/models.rs:16-22 `FromClipboardTextErr` (without `detail`) -/
inductive ClipErr where
  | versionErr (detected : Nat)
  | cannotParse (text : List Char)
  | emptyString
  | versionNotU64 (text : List Char)
  deriving DecidableEq, Repr

/-- `serde_json::from_slice`: one value, and nothing but white space after it -/
def fromSlice {α : Type} (over : List Char → Bool) (de : Json → De α) (s : List Char) : De α := do
  let p := Json.parse over .typed s
  let a ← de p.1
  match p.2 with
  | some r => if (Json.skipWs r).isEmpty then pure a else .error .invalid
  | none => .error .invalid

/-- src/models.rs:119-126 `to_clipboard_text` -/
def Models.toClipboardText (m : Models) : List Char := '1' :: m.enc.text

/-- `map_err` with `CannotParse` -/
def clipResult {α : Type} (text : List Char) : De α → R (Except ClipErr α)
  | .ok a => .ok (.ok a)
  | .error .invalid => .ok (.error (.cannotParse text))
  | .error (.panic p) => .error p

/-- src/models.rs:128-149 and src/exported_project.rs:17-40 `from_clipboard_text`,
which are alike but for the type read. -/
def fromClipboard {α : Type} (over : List Char → Bool) (de : Json → De α) (text : List Char) :
    R (Except ClipErr α) :=
  match Json.streamNext over text with
  | none => .ok (.error .emptyString)
  | some none => .ok (.error (.cannotParse text))
  | some (some (.num (.nat v), rest)) =>
    if v = 1 then clipResult text (fromSlice over de rest) else .ok (.error (.versionErr v))
  | some (some _) => .ok (.error (.versionNotU64 text))

/-- src/models.rs:128-149 `Models::from_clipboard_text` -/
def Models.fromClipboardText (over : List Char → Bool) (text : List Char) : R (Except ClipErr Models) :=
  fromClipboard over Models.de text

/-- src/exported_project.rs:17-40 `ExportedProject::from_clipboard_text` -/
def ClipProject.fromClipboardText (over : List Char → Bool) (text : List Char) : R (Except ClipErr ClipProject) :=
  fromClipboard over ClipProject.de text

end Klavier
