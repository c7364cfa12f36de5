import Verif.Model.Project

/-! # text_input.rs, location.rs (text), fly_weight.rs -/
set_option autoImplicit false
namespace Klavier

/-! ## Parsing of integers (`core::num`, external: `FromStr` for integers) -/

/-- `core::num::IntErrorKind` of a `ParseIntError` -/
inductive ParseIntError where
  | empty | invalidDigit | posOverflow | negOverflow
  deriving DecidableEq, Repr

/-- `char::to_digit(10)` -/
def toDigit (c : Char) : Option Nat :=
  if 48 ≤ c.toNat ∧ c.toNat ≤ 57 then some (c.toNat - 48) else none

/-- The digit loop: checked `acc * 10 + digit`, at most `max`; the digit is
checked before the overflow. -/
def parseDigits (max : Nat) (over : ParseIntError) : List Char → Nat → Except ParseIntError Nat
  | [], acc => .ok acc
  | c :: cs, acc =>
    match toDigit c with
    | none => .error .invalidDigit
    | some d => if acc * 10 + d ≤ max then parseDigits max over cs (acc * 10 + d) else .error over

/-- `str::parse::<uN>()`: an optional `+`, then digits. -/
def parseUnsigned (max : Nat) : List Char → Except ParseIntError Nat
  | [] => .error .empty
  | '+' :: [] => .error .invalidDigit
  | '-' :: [] => .error .invalidDigit
  | '+' :: cs => parseDigits max .posOverflow cs 0
  | cs => parseDigits max .posOverflow cs 0

/-- `str::parse::<i16>()` -/
def parseI16 : List Char → Except ParseIntError Int
  | [] => .error .empty
  | '+' :: [] => .error .invalidDigit
  | '-' :: [] => .error .invalidDigit
  | '+' :: cs => (parseDigits 32767 .posOverflow cs 0).map (fun n : Nat => (n : Int))
  | '-' :: cs => (parseDigits 32768 .negOverflow cs 0).map (fun n : Nat => -(n : Int))
  | cs => (parseDigits 32767 .posOverflow cs 0).map (fun n : Nat => (n : Int))

/-! ## location.rs -/

/-- Decimal digits of a number, as `Display` for integers writes them. -/
def decimal (n : Nat) : List Char :=
  if n < 10 then [Char.ofNat (48 + n)] else decimal (n / 10) ++ [Char.ofNat (48 + n % 10)]

/-- src/location.rs:21-25 `Display for Location` -/
def Location.toText (l : Location) : List Char := decimal l.barNo ++ ':' :: decimal l.offset

/-- src/location.rs:28-36 `parse_location`.  `nd` is the class `\d` of the crate
regex: the decimal digits of Unicode, a superset of 0-9 without the colon.  The
pattern `^(\d+):(\d+)$` has at most one match: the text splits at its first
character outside the class.  Both numbers go through `parse().unwrap()`. -/
def parseLocation (nd : Char → Bool) (s : List Char) : R (Option Location) :=
  let a := s.takeWhile nd
  match s.dropWhile nd with
  | ':' :: b =>
    if a ≠ [] ∧ b ≠ [] ∧ b.all nd then do
      let barNo ← unwrapR (parseUnsigned USIZE_MAX a)
      let offset ← unwrapR (parseUnsigned USIZE_MAX b)
      pure (some ⟨barNo, offset⟩)
    else .ok none
  | _ => .ok none

/-! ## text_input.rs: the fields.  `none` inside is the empty field. -/

/-- src/text_input.rs:52-65 `Validated<Option<Location>>` (the error carries no
information) -/
def fieldLocation (nd : Char → Bool) (s : List Char) : R (Except Unit (Option Location)) :=
  if s = [] then .ok (.ok none)
  else do
    match ← parseLocation nd s with
    | some l => pure (.ok (some l))
    | none => pure (.error ())

/-- src/text_input.rs:67-77 `Validated<Option<i16>>` -/
def fieldI16 (s : List Char) : R (Except ParseIntError (Option Int)) :=
  if s = [] then .ok (.ok none) else .ok ((parseI16 s).map some)

/-- src/text_input.rs:79-89 `Validated<Option<TempoValue>>` -/
def fieldTempo (s : List Char) : R (Except ParseIntError (Option TempoValue)) :=
  if s = [] then .ok (.ok none)
  else match parseUnsigned 65535 s with
    | .ok u => do
      let t ← TempoValue.new u
      pure (.ok (some t))
    | .error e => .ok (.error e)

/-- src/text_input.rs:91-101 `Validated<Option<Velocity>>` -/
def fieldVelocity (s : List Char) : R (Except ParseIntError (Option Velocity)) :=
  if s = [] then .ok (.ok none) else .ok ((parseUnsigned 255 s).map (fun u => some (Velocity.new u)))

/-- src/rhythm.rs:18-22 `NumeratorError` -/
inductive NumeratorError where
  | invalidValue (v : Nat)
  | cannotParse (s : List Char)
  deriving DecidableEq, Repr

/-- src/rhythm.rs:25-31 `Numerator::from_value` -/
def Numerator.fromValue (v : Nat) : Except NumeratorError Nat :=
  if v < 1 ∨ 99 < v then .error (.invalidValue v) else .ok v

/-- src/rhythm.rs:38-47 `FromStr for Numerator` -/
def Numerator.fromStr (s : List Char) : Except NumeratorError Nat :=
  match parseUnsigned 255 s with
  | .ok v => Numerator.fromValue v
  | .error _ => .error (.cannotParse s)

/-- src/text_input.rs:103-113 `Validated<Option<rhythm::Numerator>>` -/
def fieldNumerator (s : List Char) : R (Except NumeratorError (Option Nat)) :=
  if s = [] then .ok (.ok none) else .ok ((Numerator.fromStr s).map some)

/-- src/text_input.rs:115-119 `DurationDenominatorError` -/
inductive DurationDenominatorError where
  | parseIntError | invalidValue
  deriving DecidableEq, Repr

/-- src/text_input.rs:121-137 `Validated<Option<duration::Denominator>>` -/
def fieldDenominator (s : List Char) : R (Except DurationDenominatorError (Option Nat)) :=
  if s = [] then .ok (.ok none)
  else match parseUnsigned 255 s with
    | .ok u => match Denominator.fromValue u with
      | some d => .ok (.ok (some d))
      | none => .ok (.error .invalidValue)
    | .error _ => .ok (.error .parseIntError)

/-- src/text_input.rs:139-152 `Validated<Option<PercentU16>>`; `parse` stands for
`str::parse::<f32>()` (external), whatever it returns. -/
def fieldPercent {ε : Type} (parse : List Char → Except ε F32) (s : List Char) : R (Except ε (Option Percent)) :=
  if s = [] then .ok (.ok none)
  else match parse s with
    | .ok x => .ok (.ok (some (Percent.ofF32 x)))
    | .error e => .ok (.error e)

/-! ## text_input.rs: the input -/

/-- src/text_input.rs:15-19 `TextInput`; `V` is the whole `Result`. -/
structure TextInput (V : Type) where
  validated : V
  buffer : List Char

namespace TextInput
variable {V : Type}

/-- src/text_input.rs:24-27 `from_string`; `validate` is `from_str`, which may
panic. -/
def fromString (validate : List Char → R V) (s : List Char) : R (TextInput V) := do
  let v ← validate s
  pure ⟨v, s⟩

/-- src/text_input.rs:29-35 `mutate`; the mutator returns the new buffer. -/
def mutate (validate : List Char → R V) (t : TextInput V) (f : List Char → List Char) : R (TextInput V) := do
  let b := f t.buffer
  let v ← validate b
  pure ⟨v, b⟩

/-- src/text_input.rs:37-40 -/
def input (t : TextInput V) : List Char := t.buffer
/-- src/text_input.rs:42-45 -/
def validate (t : TextInput V) : V := t.validated

end TextInput

/-! ## fly_weight.rs -/

/-- A reference `&'a T`: where it points and what is there. -/
structure Ref (T : Type) where
  addr : Nat
  val : T
  deriving DecidableEq

/-- src/fly_weight.rs:4-6 `FlyWeight`: a `HashMap` from references, compared by
value (`Eq for &T`), to references; external, as an association list. -/
structure FlyWeight (T : Type) where
  pool : List (Ref T × Ref T)

namespace FlyWeight
variable {T : Type} [DecidableEq T]

/-- src/fly_weight.rs:11-15 `new` -/
def new : FlyWeight T := ⟨[]⟩

/-- `HashMap::get` with the key compared by value. -/
def lookup (pool : List (Ref T × Ref T)) (k : Ref T) : Option (Ref T) :=
  match pool with
  | [] => none
  | (k', v) :: pool => if k'.val = k.val then some v else lookup pool k

/-- src/fly_weight.rs:17-19 `intern`: `entry(instance).or_insert(instance)` -/
def intern (f : FlyWeight T) (x : Ref T) : FlyWeight T × Ref T :=
  match lookup f.pool x with
  | some v => (f, v)
  | none => (⟨(x, x) :: f.pool⟩, x)

/-- A sequence of calls and what they return. -/
def internAll (f : FlyWeight T) : List (Ref T) → FlyWeight T × List (Ref T)
  | [] => (f, [])
  | x :: xs =>
    let (f, r) := f.intern x
    let (f, rs) := internAll f xs
    (f, r :: rs)

end FlyWeight
end Klavier
