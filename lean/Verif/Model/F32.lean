import Verif.Model.Basic

/-!
# IEEE 754 binary32 arithmetic

`percent.rs` and `trimmer.rs` compute rates in `f32`.  Every finite binary32
number is an integer multiple of 2^-149, so a finite number is modelled by its
sign and the natural number `n` with value `n * 2^-149`.  The sign of zero is
kept but never observable here.
-/
set_option autoImplicit false
namespace Klavier

/-- binary32 values; `fin neg n` is `± n * 2^-149`. -/
inductive F32 where
  | nan
  | inf (neg : Bool)
  | fin (neg : Bool) (n : Nat)
  deriving DecidableEq, Repr

namespace F32

/-- Nearest integer to `a / b`, ties to even (IEEE 754 roundTiesToEven). -/
def roundDiv (a b : Nat) : Nat :=
  let q := a / b
  let r := a % b
  if 2 * r < b then q
  else if b < 2 * r then q + 1
  else if q % 2 = 0 then q else q + 1

/-- The multiple of 2^-149, expressed in that unit, to which the exact magnitude
`a / b` (same unit) rounds: 24 significant bits are kept.  This is IEEE 754
rounding (also for subnormals) before the overflow check. -/
def roundUnits (a b : Nat) : Nat :=
  let t := (a / b).log2 - 23
  roundDiv a (b * 2 ^ t) * 2 ^ t

/-- Magnitudes of `2^128` and above overflow to infinity. -/
def ofUnits (neg : Bool) (n : Nat) : F32 :=
  if n < 2 ^ 277 then .fin neg n else .inf neg

/-- One, in units. -/
abbrev ONE : Nat := 2 ^ 149

/-- `u as f32` for a `u16` (exact: fewer than 24 bits). -/
def ofU16 (u : Nat) : F32 := .fin false (u * ONE)

/-- `x / c` for a positive integer constant `c`. -/
def divConst (x : F32) (c : Nat) : F32 :=
  match x with
  | .nan => .nan
  | .inf s => .inf s
  | .fin s n => ofUnits s (roundUnits n c)

/-- `x * y` -/
def mul (x y : F32) : F32 :=
  match x, y with
  | .nan, _ => .nan
  | _, .nan => .nan
  | .inf s, .inf s' => .inf (s != s')
  | .inf s, .fin s' n => if n = 0 then .nan else .inf (s != s')
  | .fin s n, .inf s' => if n = 0 then .nan else .inf (s != s')
  | .fin s n, .fin s' n' => ofUnits (s != s') (roundUnits (n * n') ONE)

/-- `x.is_nan()` -/
def isNan : F32 → Bool
  | .nan => true
  | _ => false

/-- `x < 0.0` -/
def ltZero : F32 → Bool
  | .nan => false
  | .inf s => s
  | .fin s n => s && decide (0 < n)

/-- `c < x` for a non-negative integer constant `c` -/
def gtConst (c : Nat) : F32 → Bool
  | .nan => false
  | .inf s => !s
  | .fin s n => !s && decide (c * ONE < n)

/-- `x as i32`: truncation towards zero, saturating, NaN to 0. -/
def asI32 : F32 → Int
  | .nan => 0
  | .inf true => I32_MIN
  | .inf false => I32_MAX
  | .fin false n => min I32_MAX ((n / ONE : Nat) : Int)
  | .fin true n => max I32_MIN (-((n / ONE : Nat) : Int))

end F32
end Klavier
