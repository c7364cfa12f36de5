import Verif.Model.Serde

/-! # Vocabulary: the text of a selection, and objects read member by member -/
set_option autoImplicit false
namespace Klavier
namespace Spec

/-! ## The text, as other programs see it -/

/-- Texts with commas between them -/
def commas : List String → String
  | [] => ""
  | [x] => x
  | x :: xs => x ++ "," ++ commas xs

/-- A list -/
def listText {α : Type} (item : α → String) (l : List α) : String := "[" ++ commas (l.map item) ++ "]"

def boolText : Bool → String
  | true => "true"
  | false => "false"

/-- A value or `null` -/
def optionText {α : Type} (item : α → String) : Option α → String
  | none => "null"
  | some a => item a

def solfaText : Solfa → String
  | .C => "C" | .D => "D" | .E => "E" | .F => "F" | .G => "G" | .A => "A" | .B => "B"

def octaveText : Octave → String
  | .OctM2 => "OctM2" | .OctM1 => "OctM1" | .Oct0 => "Oct0" | .Oct1 => "Oct1" | .Oct2 => "Oct2" | .Oct3 => "Oct3"
  | .Oct4 => "Oct4" | .Oct5 => "Oct5" | .Oct6 => "Oct6" | .Oct7 => "Oct7" | .Oct8 => "Oct8"

def sharpFlatText : SharpFlat → String
  | .Sharp => "Sharp" | .DoubleSharp => "DoubleSharp" | .Flat => "Flat" | .DoubleFlat => "DoubleFlat"
  | .Natural => "Natural" | .Null => "Null"

def noteValueText : NoteValue → String
  | .Whole => "Whole" | .Half => "Half" | .Quarter => "Quarter" | .N8th => "N8th" | .N16th => "N16th" | .N32nd => "N32nd"
  | .N64th => "N64th" | .N128th => "N128th"

def barUnitText : BarUnit → String
  | .D2 => "D2" | .D4 => "D4" | .D8 => "D8" | .D16 => "D16" | .D32 => "D32" | .D64 => "D64"

/-- A text in quotes -/
def quoted (s : String) : String := "\"" ++ s ++ "\""

def pitchText (p : Pitch) : String :=
  "{\"solfa\":" ++ quoted (solfaText p.solfa) ++ ",\"octave\":" ++ quoted (octaveText p.octave) ++ ",\"sharp_flat\":" ++
    quoted (sharpFlatText p.sharpFlat) ++ "}"

def durationText (d : Duration) : String :=
  "{\"numerator\":" ++ quoted (noteValueText d.numerator) ++ ",\"denominator\":" ++ toString d.denominator ++
    ",\"dots\":" ++ toString d.dots ++ "}"

def trimmerText (t : Trimmer) : String :=
  "{\"values\":" ++ listText (fun i : Int => toString i) [t.v0, t.v1, t.v2, t.v3] ++ "}"

def rateText (t : RateTrimmer) : String :=
  "{\"values\":" ++ listText (fun p : Percent => "{\"value\":" ++ toString p.value ++ "}") [t.v0, t.v1, t.v2, t.v3] ++ "}"

def noteText (n : Note) : String :=
  "{\"base_start_tick\":" ++ toString n.baseStartTick ++ ",\"pitch\":" ++ pitchText n.pitch ++ ",\"duration\":" ++
    durationText n.duration ++ ",\"tie\":" ++ boolText n.tie ++ ",\"tied\":" ++ boolText n.tied ++ ",\"base_velocity\":" ++
    toString n.baseVelocity.value ++ ",\"start_tick_trimmer\":" ++ trimmerText n.startTickTrimmer ++
    ",\"duration_trimmer\":" ++ rateText n.durationTrimmer ++ ",\"velocity_trimmer\":" ++ trimmerText n.velocityTrimmer ++
    ",\"channel\":" ++ toString n.channel ++ "}"

def rhythmText (r : Rhythm) : String :=
  "{\"numerator\":" ++ toString r.numerator ++ ",\"denominator\":" ++ quoted (barUnitText r.denominator) ++ "}"

/-- The weight of each mark in the number that stands for a set of marks -/
def weight : Repeat → Nat
  | .Start => 1 | .End => 2 | .Dc => 4 | .Fine => 8 | .Ds => 16 | .Segno => 32 | .Coda => 64 | .Var1 => 128 | .Var2 => 256
  | .Var3 => 512 | .Var4 => 1024

def marksText (s : RepeatSet) : String :=
  "{\"value\":" ++ toString (([.Start, .End, .Dc, .Fine, .Ds, .Segno, .Coda, .Var1, .Var2, .Var3, .Var4].filter
    (fun m => s.contains m)).map weight).sum ++ "}"

def barText (b : Bar) : String :=
  "{\"start_tick\":" ++ toString b.startTick ++ ",\"rhythm\":" ++ optionText rhythmText b.rhythm ++ ",\"key\":" ++
    optionText (fun k : Key => toString k.offset) b.key ++ ",\"repeats\":" ++ marksText b.repeats ++ "}"

def tempoText (t : Tempo) : String :=
  "{\"start_tick\":" ++ toString t.startTick ++ ",\"value\":" ++ toString t.value.value ++ "}"

def pedalText (c : CtrlChg) : String :=
  "{\"start_tick\":" ++ toString c.startTick ++ ",\"velocity\":" ++ toString c.velocity.value ++ ",\"channel\":" ++
    toString c.channel ++ "}"

/-- The text of a selection on the clipboard, after the version number -/
def selectionText (m : Models) : String :=
  "{\"notes\":" ++ listText noteText m.notes ++ ",\"bars\":" ++ listText barText m.bars ++ ",\"tempos\":" ++
    listText tempoText m.tempos ++ ",\"dumpers\":" ++ listText pedalText m.dumpers ++ ",\"softs\":" ++
    listText pedalText m.softs ++ "}"

/-! ## Reading objects -/

/-- A value that is JSON to its end, but for members that can be skipped -/
inductive Intact : Json → Prop
  | null : Intact .null
  | bool (b : Bool) : Intact (.bool b)
  | num (n : JsonNum) : Intact (.num n)
  | str (s : List Char) : Intact (.str s)
  | arr {l : List Json} (h : ∀ x ∈ l, Intact x) : Intact (.arr l)
  | obj {l : List (List Char × Json)} (h : ∀ m ∈ l, Intact m.2) : Intact (.obj l)
  | skip (j : Json) : Intact (.skip j)

/-- Neither an object nor an array -/
def Scalar : Json → Prop
  | .obj _ => False
  | .arr _ => False
  | _ => True

/-- A type read from an object with these members: all but those in `optional` are
required, none may come twice, their order does not matter, others are ignored (even if
they can only be skipped); or from an array of the values in this order. -/
structure AnObject {α : Type} (de : Json → De α) (names optional : List String) : Prop where
  order : ∀ ms ms' a, ms.Perm ms' → de (.obj ms) = .ok a → de (.obj ms') = .ok a
  unknown : ∀ (k : String) v ms ms', k ∉ names → Intact v → de (.obj (ms ++ (k.toList, v) :: ms')) = de (.obj (ms ++ ms'))
  unreadable : ∀ (k : String) j ms ms' a, k ∈ names → de (.obj (ms ++ (k.toList, .skip j) :: ms')) ≠ .ok a
  repeated : ∀ (k : String) v v' l l' l'' a, k ∈ names →
    de (.obj (l ++ (k.toList, v) :: l' ++ (k.toList, v') :: l'')) ≠ .ok a
  missing : ∀ (k : String) ms a, k ∈ names → k ∉ optional → k.toList ∉ ms.map (·.1) → de (.obj ms) ≠ .ok a
  absent : ∀ (k : String) ms a, k ∈ names → k ∈ optional → k.toList ∉ ms.map (·.1) →
    (de (.obj ms) = .ok a ↔ de (.obj ((k.toList, .null) :: ms)) = .ok a)
  array : ∀ vs, vs.length = names.length → (∀ v ∈ vs, ∀ j, v ≠ .skip j) → de (.arr vs) = de (.obj ((names.map String.toList).zip vs))
  tooFew : ∀ vs a, vs.length ≠ names.length → de (.arr vs) ≠ .ok a
  scalar : ∀ j a, Scalar j → de j ≠ .ok a

/-! ## Strings within the text -/

/-- A hexadecimal digit of either case -/
def Hex (c : Char) (d : Nat) : Prop := "0123456789abcdef".toList[d]? = some c ∨ "0123456789ABCDEF".toList[d]? = some c

/-- `\uXXXX` -/
inductive Unit16 : List Char → Nat → Prop
  | mk {a b c d : Char} {w x y z : Nat} : Hex a w → Hex b x → Hex c y → Hex d z →
    Unit16 ['\\', 'u', a, b, c, d] (4096 * w + 256 * x + 16 * y + z)

/-- The ways to write a character within a JSON string (RFC 8259, section 7) -/
inductive Spelling : List Char → Char → Prop
  | plain {c : Char} : c ≠ '"' → c ≠ '\\' → 32 ≤ c.toNat → Spelling [c] c
  | short {x c : Char} : (x, c) ∈ [('"', '"'), ('\\', '\\'), ('/', '/'), ('b', Char.ofNat 8), ('f', Char.ofNat 12),
      ('n', Char.ofNat 10), ('r', Char.ofNat 13), ('t', Char.ofNat 9)] → Spelling ['\\', x] c
  | unit {w : List Char} {c : Char} : Unit16 w c.toNat → Spelling w c
  | pair {v w : List Char} {c : Char} {hi lo : Nat} : Unit16 v hi → Unit16 w lo → 0xD800 ≤ hi → hi < 0xDC00 →
    0xDC00 ≤ lo → lo < 0xE000 → c.toNat = 0x10000 + 0x400 * (hi - 0xD800) + (lo - 0xDC00) → Spelling (v ++ w) c

/-- A string written character by character -/
inductive Spelled : List Char → List Char → Prop
  | nil : Spelled [] []
  | cons {w t s : List Char} {c : Char} : Spelling w c → Spelled t s → Spelled (w ++ t) (c :: s)

/-- What can be skipped as a string: any `\uXXXX` will do. -/
inductive Skipped : List Char → Prop
  | nil : Skipped []
  | plain {c : Char} {t : List Char} : c ≠ '"' → c ≠ '\\' → 32 ≤ c.toNat → Skipped t → Skipped (c :: t)
  | short {x : Char} {t : List Char} : x ∈ ['"', '\\', '/', 'b', 'f', 'n', 'r', 't'] → Skipped t → Skipped ('\\' :: x :: t)
  | unit {w t : List Char} {n : Nat} : Unit16 w n → Skipped t → Skipped (w ++ t)

end Spec
end Klavier
