/-!
# Machine level conventions of the model

Rust integers are modelled by `Nat` and `Int`.  A Rust panic is an explicit
error value, so that "panics" can never be confused with "returns something".
-/
set_option autoImplicit false
namespace Klavier

/-- The ways a modelled Rust function can panic. -/
inductive Panic where
  /-- arithmetic overflow (overflow checks on), also shifts by too much -/
  | overflow
  /-- index out of bounds -/
  | index
  /-- `unwrap` on `None` or `Err` -/
  | unwrap
  /-- an explicit `panic!` -/
  | explicit
  /-- division by zero -/
  | divZero
  /-- not a panic: the code loops for ever (until memory is exhausted) -/
  | diverge
  deriving DecidableEq, Repr

deriving instance DecidableEq for Except

/-- Result of a Rust function that may panic. -/
abbrev R (α : Type) := Except Panic α

/-- `u32::MAX` -/
abbrev U32_MAX : Nat := 4294967295
/-- `i32::MAX` -/
abbrev I32_MAX : Int := 2147483647
/-- `i32::MIN` -/
abbrev I32_MIN : Int := -2147483648
/-- `i16::MAX` -/
abbrev I16_MAX : Int := 32767
/-- `i16::MIN` -/
abbrev I16_MIN : Int := -32768
/-- `i64::MAX` -/
abbrev I64_MAX : Int := 9223372036854775807
/-- `i64::MIN` -/
abbrev I64_MIN : Int := -9223372036854775808
/-- `usize::MAX` on a 64 bit target -/
abbrev USIZE_MAX : Nat := 18446744073709551615

/-- `x as u32` for a signed `x` (truncation modulo 2^32). -/
def asU32 (x : Int) : Nat := (x % 4294967296).toNat
/-- `x as u16` for a signed `x`. -/
def asU16 (x : Int) : Nat := (x % 65536).toNat
/-- `x as u8` for a signed `x`. -/
def asU8 (x : Int) : Nat := (x % 256).toNat

/-- Checked `u32` addition. -/
def addU32 (a b : Nat) : R Nat :=
  if a + b ≤ U32_MAX then .ok (a + b) else .error .overflow

/-- Checked `u32` (or `usize`) subtraction. -/
def subU32 (a b : Nat) : R Nat :=
  if b ≤ a then .ok (a - b) else .error .overflow

/-- Checked `usize` addition (64 bit). -/
def addUsize (a b : Nat) : R Nat :=
  if a + b ≤ USIZE_MAX then .ok (a + b) else .error .overflow

/-- Checked `usize` multiplication (64 bit). -/
def mulUsize (a b : Nat) : R Nat :=
  if a * b ≤ USIZE_MAX then .ok (a * b) else .error .overflow

/-- Check that an exact `i32` result fits. -/
def chkI32 (x : Int) : R Int :=
  if I32_MIN ≤ x ∧ x ≤ I32_MAX then .ok x else .error .overflow

/-- Check that an exact `i16` result fits. -/
def chkI16 (x : Int) : R Int :=
  if I16_MIN ≤ x ∧ x ≤ I16_MAX then .ok x else .error .overflow

/-- Check that an exact `i64` result fits. -/
def chkI64 (x : Int) : R Int :=
  if I64_MIN ≤ x ∧ x ≤ I64_MAX then .ok x else .error .overflow

/-- `Result::unwrap` -/
def unwrapR {ε α : Type} : Except ε α → R α
  | .ok a => .ok a
  | .error _ => .error .unwrap

/-- `Option::unwrap` -/
def unwrapO {α : Type} : Option α → R α
  | some a => .ok a
  | none => .error .unwrap

end Klavier
