import Verif.Model.Text

/-!
# Percentages as text

`percent.rs:43-47` shows a rate with `f32::to_string` and `text_input.rs:139-152` reads
it with `str::parse::<f32>`.  Both are functions of the standard library (external); they
are modelled here after their documentation.  (Simplified: exponents are exact; the
library stops counting at 65536, which matters only for texts of that many digits.)
-/
set_option autoImplicit false
namespace Klavier
namespace F32

/-- `± m * 10^e` rounded to the nearest number -/
def ofDecimal (neg : Bool) (m : Nat) (e : Int) : F32 :=
  if 0 ≤ e then ofUnits neg (roundUnits (m * 10 ^ e.toNat * ONE) 1)
  else ofUnits neg (roundUnits (m * ONE) (10 ^ (-e).toNat))

/-! ## Reading (`core::num::dec2flt`) -/

/-- `ParseFloatError` -/
inductive ParseError where
  | empty | invalid
  deriving DecidableEq, Repr

/-- `u8::is_ascii_digit` -/
def isDigit (c : Char) : Bool := (toDigit c).isSome

/-- The number written by a run of digits -/
def digits (ds : List Char) : Nat := ds.foldl (fun a c => a * 10 + (c.toNat - 48)) 0

/-- A run of digits to the end of the text, at least one (the end of the exponent) -/
def allDigits (s : List Char) : Option Nat := if s ≠ [] ∧ s.all isDigit then some (digits s) else none

/-- `parse_scientific` up to the end of the text: after `e` or `E` an optional sign and digits -/
def parseExp : List Char → Option Int
  | '-' :: s => (allDigits s).map (fun n : Nat => -(n : Int))
  | '+' :: s => (allDigits s).map (fun n : Nat => (n : Int))
  | s => (allDigits s).map (fun n : Nat => (n : Int))

/-- The digits after the point, if there is one, and what follows -/
def fractionOf : List Char → List Char × List Char
  | '.' :: s => (s.takeWhile isDigit, s.dropWhile isDigit)
  | s => ([], s)

/-- `parse_number` -/
def parseDecimal (neg : Bool) (s : List Char) : Option F32 :=
  let ds := s.takeWhile isDigit
  let fs := fractionOf (s.dropWhile isDigit)
  if ds = [] ∧ fs.1 = [] then none
  else match fs.2 with
    | [] => some (ofDecimal neg (digits (ds ++ fs.1)) (-(fs.1.length : Int)))
    | c :: r =>
      if c = 'e' ∨ c = 'E' then (parseExp r).map (fun x => ofDecimal neg (digits (ds ++ fs.1)) (x - fs.1.length))
      else none

/-- A letter without its case, as far as `inf`, `infinity` and `nan` are concerned -/
def lower (c : Char) : Char := if 65 ≤ c.toNat ∧ c.toNat ≤ 90 then Char.ofNat (c.toNat + 32) else c

/-- `parse_inf_nan` -/
def parseSpecial (neg : Bool) (s : List Char) : Option F32 :=
  if s.map lower = "nan".toList then some .nan
  else if s.map lower = "inf".toList ∨ s.map lower = "infinity".toList then some (.inf neg)
  else none

/-- After the sign: a number or a special word -/
def parseBody (neg : Bool) (s : List Char) : Except ParseError F32 :=
  match parseDecimal neg s with
  | some x => .ok x
  | none => match parseSpecial neg s with
    | some x => .ok x
    | none => .error .invalid

/-- `str::parse::<f32>()` -/
def parse : List Char → Except ParseError F32
  | [] => .error .empty
  | '-' :: s => parseBody true s
  | '+' :: s => parseBody false s
  | s => parseBody false s

/-! ## Showing (`Display for f32`) -/

/-- Of the multiples of `10^e` next to `n` units, the one that is read back as `n`; if both
are, the nearer one (simplified: of two equally near ones the lower). -/
def candidate (n : Nat) (e : Int) : Option Nat :=
  let a := if 0 ≤ e then n else n * 10 ^ (-e).toNat
  let b := if 0 ≤ e then ONE * 10 ^ e.toNat else ONE
  let lo := a / b
  let low := decide (ofDecimal false lo e = .fin false n)
  let high := decide (ofDecimal false (lo + 1) e = .fin false n)
  if low && (!high || decide (2 * (a % b) ≤ b)) then some lo
  else if high then some (lo + 1)
  else none

/-- The shortest digits that are read back as `n` units: exponents are tried from the
greatest down (`k` is the exponent plus 149).  With 149 decimals every number is exact. -/
def shortest (n : Nat) : Nat → Nat × Int
  | 0 => (n * 5 ^ 149, -149)
  | k + 1 =>
    match candidate n ((k + 1 : Nat) - 149 : Int) with
    | some m => (m, (k + 1 : Nat) - 149)
    | none => shortest n k

/-- The last `k` decimal digits of `m` -/
def lastDigits (m : Nat) : Nat → List Char
  | 0 => []
  | k + 1 => lastDigits (m / 10) k ++ [Char.ofNat (48 + m % 10)]

/-- `m * 10^e` written without exponent -/
def positional (m : Nat) (e : Int) : List Char :=
  if 0 ≤ e then decimal (m * 10 ^ e.toNat)
  else decimal (m / 10 ^ (-e).toNat) ++ '.' :: lastDigits m (-e).toNat

/-- `f32::to_string` -/
def toText : F32 → List Char
  | .nan => "NaN".toList
  | .inf neg => (if neg then ['-'] else []) ++ "inf".toList
  | .fin neg n => (if neg then ['-'] else []) ++
    if n = 0 then ['0'] else positional (shortest n 187).1 (shortest n 187).2

end F32

/-- src/percent.rs:43-47 `ToString for PercentU16` -/
def Percent.toText (p : Percent) : List Char := p.toF32.toText

end Klavier
