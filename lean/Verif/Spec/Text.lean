import Verif.Model.Text

/-! # Written numbers -/
set_option autoImplicit false
namespace Klavier
namespace Spec

/-- The characters 0 to 9. -/
def IsDigit (c : Char) : Prop := '0'.toNat ≤ c.toNat ∧ c.toNat ≤ '9'.toNat

/-- One or more digits. -/
def IsNumeral (s : List Char) : Prop := s ≠ [] ∧ ∀ c ∈ s, IsDigit c

/-- What a numeral denotes. -/
def numeralValue : List Char → Nat
  | [] => 0
  | c :: cs => (c.toNat - '0'.toNat) * 10 ^ cs.length + numeralValue cs

/-- `s` writes the natural number `v`, possibly with a plus sign. -/
def WritesNat (s : List Char) (v : Nat) : Prop :=
  ∃ ds, (s = ds ∨ s = '+' :: ds) ∧ IsNumeral ds ∧ v = numeralValue ds

/-- `s` writes the integer `v`, possibly with a sign. -/
def WritesInt (s : List Char) (v : Int) : Prop :=
  (∃ n, WritesNat s n ∧ v = n) ∨ ∃ ds, s = '-' :: ds ∧ IsNumeral ds ∧ v = -(numeralValue ds : Int)

/-- `s` begins with digits that write a number larger than `max`. -/
def BeginsAbove (max : Nat) (s : List Char) : Prop :=
  ∃ a r, s = a ++ r ∧ (∀ c ∈ a, IsDigit c) ∧ max < numeralValue a

/-- What is known of the class `\d`: it contains 0-9 and neither the colon nor
the plus sign. -/
structure DigitClass (nd : Char → Bool) : Prop where
  ascii : ∀ c, IsDigit c → nd c = true
  colon : nd ':' = false
  plus : nd '+' = false

/-- `s` is `a:b` with `a`, `b` one or more characters of the class. -/
def LocationShape (nd : Char → Bool) (s a b : List Char) : Prop :=
  s = a ++ ':' :: b ∧ a ≠ [] ∧ b ≠ [] ∧ (∀ c ∈ a, nd c = true) ∧ ∀ c ∈ b, nd c = true

end Spec
end Klavier
