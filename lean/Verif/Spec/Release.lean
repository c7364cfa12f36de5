import Verif.Model.Repeat

/-! # Two builds of one function -/
set_option autoImplicit false
namespace Klavier

/-- Unless the checked build stops at an overflow, the other build does the same: it
returns the same value, or panics in the same way. -/
def Agrees {α : Type} (checked release : R α) : Prop :=
  checked ≠ .error .overflow → release = checked

/-- The same for functions that can also report an error. -/
def AgreesRR {α : Type} (checked release : RR α) : Prop :=
  checked ≠ .error (.panic .overflow) → release = checked

/-- Where a D.C. without Segno goes back to in the build without checks if the first bar,
of `first` ticks, has 2^31 ticks or more; a full bar has `full`. -/
def Spec.wrappedReturn (full first : Nat) : Nat := if first = full ∨ 2 * first = 2 ^ 32 + full then 0 else first

end Klavier
