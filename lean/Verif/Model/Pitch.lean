import Verif.Model.Basic

/-! # solfa.rs, octave.rs, sharp_flat.rs, key.rs, pitch.rs -/
set_option autoImplicit false
namespace Klavier

/-- src/solfa.rs:5-7 `Solfa` -/
inductive Solfa where
  | C | D | E | F | G | A | B
  deriving DecidableEq, Repr

namespace Solfa

/-- src/solfa.rs:30 `Solfa::ALL` -/
def ALL : List Solfa := [C, D, E, F, G, A, B]

/-- src/solfa.rs:32-42 `Solfa::score_offset` -/
def scoreOffset : Solfa → Int
  | C => 0 | D => 1 | E => 2 | F => 3 | G => 4 | A => 5 | B => 6

/-- src/solfa.rs:44-54 `Solfa::pitch_offset` -/
def pitchOffset : Solfa → Int
  | C => 0 | D => 2 | E => 4 | F => 5 | G => 7 | A => 9 | B => 11

/-- src/solfa.rs:56-64 `Solfa::from_score_offset`; the index is in bounds
because of the two guards, indexing is still modelled as partial. -/
def fromScoreOffset (offset : Int) : R Solfa :=
  if offset < C.scoreOffset then .ok C
  else if offset > B.scoreOffset then .ok B
  else match ALL[offset.toNat]? with
    | some s => .ok s
    | none => .error .index

/-- src/solfa.rs:9-17 `AddAssign<i32> for Solfa` -/
def addAssign (s : Solfa) (rhs : Int) : R Solfa := do
  let so ← chkI32 (s.scoreOffset + rhs)
  if B.scoreOffset < so then .error .explicit else fromScoreOffset so

/-- src/solfa.rs:19-27 `SubAssign<i32> for Solfa` -/
def subAssign (s : Solfa) (rhs : Int) : R Solfa := do
  let so ← chkI32 (s.scoreOffset - rhs)
  if so < C.scoreOffset then .error .explicit else fromScoreOffset so

end Solfa

/-- src/octave.rs:21-23 `Octave` -/
inductive Octave where
  | OctM2 | OctM1 | Oct0 | Oct1 | Oct2 | Oct3 | Oct4 | Oct5 | Oct6 | Oct7 | Oct8
  deriving DecidableEq, Repr

/-- src/octave.rs:4-7 `OctaveError` -/
inductive OctaveError where
  | invalidValue (v : Int)
  deriving DecidableEq, Repr

namespace Octave

/-- src/octave.rs:29-32 `Octave::ALL` -/
def ALL : List Octave :=
  [OctM2, OctM1, Oct0, Oct1, Oct2, Oct3, Oct4, Oct5, Oct6, Oct7, Oct8]

/-- src/octave.rs:35 `Octave::BIAS_VALUE` -/
abbrev BIAS_VALUE : Int := 2

/-- src/octave.rs:53-67 `Octave::value` -/
def value : Octave → Int
  | OctM2 => -2 | OctM1 => -1 | Oct0 => 0 | Oct1 => 1 | Oct2 => 2 | Oct3 => 3
  | Oct4 => 4 | Oct5 => 5 | Oct6 => 6 | Oct7 => 7 | Oct8 => 8

/-- src/octave.rs:49-51 `Octave::offset` -/
def offset (o : Octave) : Int := o.value + BIAS_VALUE

/-- src/octave.rs:41-47 `Octave::from_score_offset`.  The guard is
`ALL.len() < idx`, so `idx = 11` passes it and the indexing panics. -/
def fromScoreOffset (idx : Int) : R (Except OctaveError Octave) :=
  if idx < 0 ∨ (ALL.length : Int) < idx then .ok (.error (.invalidValue idx))
  else match ALL[idx.toNat]? with
    | some o => .ok (.ok o)
    | none => .error .index

/-- src/octave.rs:37-39 `Octave::value_of`; `value + 2` is an `i32` addition. -/
def valueOf (v : Int) : R (Except OctaveError Octave) := do
  let idx ← chkI32 (v + BIAS_VALUE)
  fromScoreOffset idx

/-- src/octave.rs:70-74 `AddAssign<i32> for Octave` -/
def addAssign (o : Octave) (rhs : Int) : R Octave := do
  let s ← chkI32 (o.value + rhs)
  let r ← valueOf s
  unwrapR r

/-- src/octave.rs:76-80 `SubAssign<i32> for Octave` -/
def subAssign (o : Octave) (rhs : Int) : R Octave := do
  let s ← chkI32 (o.value - rhs)
  let r ← valueOf s
  unwrapR r

/-- src/octave.rs:25 `octave::MAX` -/
def MAX : Octave := Oct8
/-- src/octave.rs:26 `octave::MIN` -/
def MIN : Octave := OctM2

end Octave

/-- src/sharp_flat.rs:3-10 `SharpFlat` -/
inductive SharpFlat where
  | Sharp | DoubleSharp | Flat | DoubleFlat | Natural | Null
  deriving DecidableEq, Repr

/-- src/sharp_flat.rs:13-22 `SharpFlat::offset` -/
def SharpFlat.offset : SharpFlat → Int
  | Sharp => 1 | DoubleSharp => 2 | Flat => -1 | DoubleFlat => -2
  | Natural => 0 | Null => 0

/-- src/key.rs:7-9 `Key(i8)`; any `i8` can be deserialised. -/
structure Key where
  offset : Int
  deriving DecidableEq, Repr

namespace Key

/-- src/key.rs:12 `Key::NONE` -/
def NONE : Key := ⟨0⟩

/-- src/key.rs:56-58 `Key::is_flat` -/
def isFlat (k : Key) : Bool := decide (k.offset < 0)

/-- src/key.rs:60-62 `Key::is_sharp` -/
def isSharp (k : Key) : Bool := decide (0 < k.offset)

open Solfa in
/-- src/key.rs:32-50 `Key::SOLFAS` looked up with `get`; the hash sets are
modelled as lists used only through membership. -/
def solfas (k : Key) : Option (List Solfa) :=
  if k.offset = 0 then some []
  else if k.offset = 1 then some [F]
  else if k.offset = 2 then some [F, C]
  else if k.offset = 3 then some [F, C, G]
  else if k.offset = 4 then some [F, C, G, D]
  else if k.offset = 5 then some [F, C, G, D, A]
  else if k.offset = 6 then some [F, C, G, D, A, E]
  else if k.offset = 7 then some [F, C, G, D, A, E, B]
  else if k.offset = -1 then some [B]
  else if k.offset = -2 then some [B, E]
  else if k.offset = -3 then some [B, E, A]
  else if k.offset = -4 then some [B, E, A, D]
  else if k.offset = -5 then some [B, E, A, D, G]
  else if k.offset = -6 then some [B, E, A, D, G, C]
  else if k.offset = -7 then some [B, E, A, D, G, C, F]
  else none

end Key

/-- src/pitch.rs:9-13 `PitchError` -/
inductive PitchError where
  | tooLow (s : Solfa) (o : Octave) (a : SharpFlat) (v : Int)
  | tooHigh (s : Solfa) (o : Octave) (a : SharpFlat) (v : Int)
  | invalidScoreOffset (v : Int)
  deriving DecidableEq, Repr

/-- src/pitch.rs:35-44 `Pitch` (all fields private; built by `value_of`, and by
the derived `PitchBuilder`, see Parts.lean). -/
structure Pitch where
  solfa : Solfa
  octave : Octave
  sharpFlat : SharpFlat
  value : Nat
  scoreOffset : Int
  deriving DecidableEq, Repr

namespace Pitch

/-- src/pitch.rs:72 -/
abbrev MIN_SCORE_OFFSET : Int := 0
/-- src/pitch.rs:73 -/
abbrev MAX_SCORE_OFFSET : Int := 74
/-- src/pitch.rs:66 -/
abbrev MIN_VALUE : Int := 0
/-- src/pitch.rs:65 -/
abbrev MAX_VALUE : Int := 127

/-- src/pitch.rs:100-102 `Pitch::to_value` -/
def toValue (s : Solfa) (o : Octave) (a : SharpFlat) : Int :=
  s.pitchOffset + (o.value + Octave.BIAS_VALUE) * 12 + a.offset

/-- src/pitch.rs:104-122 `Pitch::value_of`.  The casts `v as u8` and `so as i8`
are exact because `0 ≤ v ≤ 127` and `0 ≤ so ≤ 76`. -/
def valueOf (s : Solfa) (o : Octave) (a : SharpFlat) : Except PitchError Pitch :=
  let v := toValue s o a
  if v < MIN_VALUE then .error (.tooLow s o a v)
  else if MAX_VALUE < v then .error (.tooHigh s o a v)
  else
    let so := s.scoreOffset + 7 * o.offset
    .ok { solfa := s, octave := o, sharpFlat := a, value := v.toNat, scoreOffset := so }

/-- src/pitch.rs:76-81 `Pitch::new`; also `From<PitchSerializedForm>` (52-56),
i.e. deserialisation. -/
def new (s : Solfa) (o : Octave) (a : SharpFlat) : R Pitch :=
  match valueOf s o a with
  | .error _ => .error .explicit
  | .ok p => .ok p

/-- src/pitch.rs:83-98 `Pitch::apply_key` -/
def applyKey (p : Pitch) (key : Key) : Except PitchError Pitch :=
  if p.sharpFlat = .Null then
    match key.solfas with
    | some solfas =>
      if p.solfa ∈ solfas then
        valueOf p.solfa p.octave (if key.isFlat then .Flat else .Sharp)
      else .ok p
    | none => .ok p
  else .ok p

/-- src/pitch.rs:124-131 `Pitch::toggle_sharp` -/
def toggleSharp (p : Pitch) : Except PitchError Pitch :=
  let a := match p.sharpFlat with
    | .Sharp => SharpFlat.DoubleSharp
    | .DoubleSharp => .Null
    | _ => .Sharp
  valueOf p.solfa p.octave a

/-- src/pitch.rs:133-140 `Pitch::toggle_flat` -/
def toggleFlat (p : Pitch) : Except PitchError Pitch :=
  let a := match p.sharpFlat with
    | .Flat => SharpFlat.DoubleFlat
    | .DoubleFlat => .Null
    | _ => .Flat
  valueOf p.solfa p.octave a

/-- src/pitch.rs:142-148 `Pitch::toggle_natural` -/
def toggleNatural (p : Pitch) : Except PitchError Pitch :=
  let a := match p.sharpFlat with
    | .Natural => SharpFlat.Null
    | _ => .Natural
  valueOf p.solfa p.octave a

/-- src/pitch.rs:174-180 `Pitch::score_offset_to_solfa_octave`; Rust `/` on
`i32` truncates towards zero. -/
def scoreOffsetToSolfaOctave (so : Int) : R (Solfa × Octave) := do
  let octaveOffset := so.tdiv 7
  let solfaOffset := so - octaveOffset * 7
  let s ← Solfa.fromScoreOffset solfaOffset
  let r ← Octave.fromScoreOffset octaveOffset
  let o ← unwrapR r
  pure (s, o)

/-- src/pitch.rs:150-162 `Pitch::from_score_offset` -/
def fromScoreOffset (so : Int) : R Pitch := do
  let so :=
    if so < MIN_SCORE_OFFSET then MIN_SCORE_OFFSET
    else if MAX_SCORE_OFFSET < so then MAX_SCORE_OFFSET
    else so
  let (s, o) ← scoreOffsetToSolfaOctave so
  unwrapR (valueOf s o .Null)

/-- src/pitch.rs:164-172 `Pitch::with_score_offset_delta`; the addition is an
`i32` addition. -/
def withScoreOffsetDelta (p : Pitch) (delta : Int) : R (Except PitchError Pitch) := do
  let so ← chkI32 (p.scoreOffset + delta)
  if so < MIN_SCORE_OFFSET ∨ MAX_SCORE_OFFSET < so then
    pure (.error (.invalidScoreOffset so))
  else do
    let (s, o) ← scoreOffsetToSolfaOctave so
    pure (valueOf s o p.sharpFlat)

/-- src/pitch.rs:190-205 `Pitch::up` -/
def up (p : Pitch) : R (Except PitchError Pitch) :=
  if p.solfa = .B then
    if p.octave ≠ Octave.MAX then do
      let o ← p.octave.addAssign 1
      pure (valueOf .C o p.sharpFlat)
    else pure (.error (.tooHigh p.solfa p.octave p.sharpFlat (-1)))
  else do
    let s ← p.solfa.addAssign 1
    pure (valueOf s p.octave p.sharpFlat)

/-- src/pitch.rs:207-222 `Pitch::down` -/
def down (p : Pitch) : R (Except PitchError Pitch) :=
  if p.solfa = .C then
    if p.octave ≠ Octave.MIN then do
      let o ← p.octave.subAssign 1
      pure (valueOf .B o p.sharpFlat)
    else pure (.error (.tooLow p.solfa p.octave p.sharpFlat (-1)))
  else do
    let s ← p.solfa.subAssign 1
    pure (valueOf s p.octave p.sharpFlat)

end Pitch
end Klavier
