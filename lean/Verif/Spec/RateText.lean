import Verif.Spec.Values
import Verif.Spec.Text
import Verif.Model.RateText

/-! # Vocabulary: decimal fractions and the numbers nearest to them -/
set_option autoImplicit false
namespace Klavier
namespace Spec

/-- Of the binary32 magnitudes, `w` units of 2^-149 are nearest to `a / b` units; of two
that are equally near it is the one with an even significand. -/
structure Nearest (a b w : Nat) : Prop where
  binary : Binary32 w
  least : ∀ v, Binary32 v → off a b w ≤ off a b v
  even : ∀ v, Binary32 v → v ≠ w → off a b v = off a b w → EvenBinary32 w

/-- `x` is the number nearest to `± m * 10^e`, infinite if that is 2^128 or more. -/
def Rounded (neg : Bool) (m : Nat) (e : Int) (x : F32) : Prop :=
  ∃ w, Nearest (m * 10 ^ e.toNat * 2 ^ 149) (10 ^ (-e).toNat) w ∧ x = if w < 2 ^ 277 then .fin neg w else .inf neg

/-- An optional sign -/
inductive Sign : List Char → Bool → Prop
  | none : Sign [] false
  | plus : Sign ['+'] false
  | minus : Sign ['-'] true

/-- Nothing, or a point and digits -/
inductive Fraction : List Char → List Char → Prop
  | none : Fraction [] []
  | point {fs : List Char} : (∀ c ∈ fs, IsDigit c) → Fraction ('.' :: fs) fs

/-- Nothing, or `e`, an optional sign and a numeral -/
inductive Exponent : List Char → Int → Prop
  | none : Exponent [] 0
  | some {c : Char} {sg ds : List Char} {neg : Bool} : c = 'e' ∨ c = 'E' → Sign sg neg → IsNumeral ds →
    Exponent (c :: (sg ++ ds)) (if neg then -(numeralValue ds : Int) else numeralValue ds)

/-- `s` writes the decimal number `± m * 10^e`. -/
inductive WritesDecimal : List Char → Bool → Nat → Int → Prop
  | mk {sg ds f fs x : List Char} {neg : Bool} {e : Int} : Sign sg neg → (∀ c ∈ ds, IsDigit c) → Fraction f fs → ds ++ fs ≠ [] →
    Exponent x e → WritesDecimal (sg ++ (ds ++ (f ++ x))) neg (numeralValue (ds ++ fs)) (e - fs.length)

/-- Equal but for upper and lower case -/
def SameLetters (s : List Char) (word : String) : Prop :=
  s.length = word.toList.length ∧ ∀ p ∈ s.zip word.toList, p.1 = p.2 ∨ p.1.toNat + 32 = p.2.toNat

/-- A rate in thousandths as it is written: without needless zeros -/
def fractionText (v : Nat) : String :=
  toString (v / 1000) ++
    (if v % 1000 = 0 then ""
    else if v % 100 = 0 then "." ++ toString (v / 100 % 10)
    else if v % 10 = 0 then "." ++ toString (v / 100 % 10) ++ toString (v / 10 % 10)
    else "." ++ toString (v / 100 % 10) ++ toString (v / 10 % 10) ++ toString (v % 10))

end Spec
end Klavier
