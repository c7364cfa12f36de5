import Verif.Spec.Text
import Verif.Model.Json

/-! # Vocabulary: JSON texts -/
set_option autoImplicit false
namespace Klavier
namespace Spec

/-- The white space of JSON. -/
def IsBlank (c : Char) : Prop := c = ' ' ∨ c = '\n' ∨ c = '\t' ∨ c = '\r'

/-- `s` is the JSON way to write the natural number `n`: digits, of which the first
is 0 only when it is the only one. -/
def WritesJsonNat (s : List Char) (n : Nat) : Prop :=
  IsNumeral s ∧ numeralValue s = n ∧ (s.head? = some '0' → s.length = 1)

/-- What may come after a number: the end, white space, or one of the characters
`"`, `[`, `]`, `{`, `}`, `,`, `:`. -/
def Delimited (s : List Char) : Prop :=
  s = [] ∨ ∃ c r, s = c :: r ∧ (IsBlank c ∨ c = '"' ∨ c = '[' ∨ c = ']' ∨ c = '{' ∨ c = '}' ∨ c = ',' ∨ c = ':')

/-- `text` begins, after white space, with the version number `v` and goes on with
`rest`. -/
def BeginsWithVersion (text : List Char) (v : Nat) (rest : List Char) : Prop :=
  ∃ ws ds, text = ws ++ ds ++ rest ∧ (∀ c ∈ ws, IsBlank c) ∧ WritesJsonNat ds v ∧ Delimited rest

/-- Characters that are written as they are in a string. -/
def PlainChar (c : Char) : Prop := c ≠ '"' ∧ c ≠ '\\' ∧ 32 ≤ c.toNat

open Json in
mutual
/-- A tree that is written and read again without loss: plain strings, integers of
64 bits, and fewer than `d` levels of arrays and objects. -/
def Writable : Nat → Json → Prop
  | _, .null => True
  | _, .bool _ => True
  | _, .num (.nat n) => n ≤ 18446744073709551615
  | _, .num (.neg n) => 1 ≤ n ∧ n ≤ 9223372036854775808
  | _, .num .float => False
  | _, .str s => ∀ c ∈ s, PlainChar c
  | d, .arr l => 1 < d ∧ WritableElems (d - 1) l
  | d, .obj l => 1 < d ∧ WritableMembers (d - 1) l
  | _, .bad => False
  | _, .skip _ => False
def WritableElems : Nat → List Json → Prop
  | _, [] => True
  | d, x :: xs => Writable d x ∧ WritableElems d xs
def WritableMembers : Nat → List (List Char × Json) → Prop
  | _, [] => True
  | d, (k, v) :: ms => (∀ c ∈ k, PlainChar c) ∧ Writable d v ∧ WritableMembers d ms
end

end Spec
end Klavier
