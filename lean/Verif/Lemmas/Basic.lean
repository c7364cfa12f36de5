import Verif.Model.Basic
import Verif.Model.F32

/-! # Helper lemmas: casts, checks, rounding -/
set_option autoImplicit false
namespace Klavier

theorem asU32_of_range {x : Int} (h0 : 0 ≤ x) (h1 : x ≤ U32_MAX) : (asU32 x : Int) = x := by
  simp only [U32_MAX] at h1
  simp only [asU32]
  omega

theorem asU32_lt (x : Int) : asU32 x ≤ U32_MAX := by
  simp only [asU32, U32_MAX]
  omega

theorem asU16_of_range {x : Int} (h0 : 0 ≤ x) (h1 : x ≤ 65535) : (asU16 x : Int) = x := by
  simp only [asU16]
  omega

theorem chkI32_ok {x : Int} (h0 : I32_MIN ≤ x) (h1 : x ≤ I32_MAX) : chkI32 x = .ok x := by
  simp only [chkI32, if_pos (And.intro h0 h1)]

theorem chkI64_ok {x : Int} (h0 : I64_MIN ≤ x) (h1 : x ≤ I64_MAX) : chkI64 x = .ok x := by
  simp only [chkI64, if_pos (And.intro h0 h1)]

@[simp] theorem R_bind_ok {α β : Type} (a : α) (f : α → R β) : (Except.ok a >>= f) = f a := rfl
@[simp] theorem R_bind_error {α β : Type} (e : Panic) (f : α → R β) :
    ((Except.error e : R α) >>= f) = .error e := rfl
@[simp] theorem R_pure {α : Type} (a : α) : (pure a : R α) = .ok a := rfl

/-- Inversion of a successful sequencing. -/
theorem R_bind_eq_ok {α β : Type} {x : R α} {f : α → R β} {b : β} :
    (x >>= f) = .ok b ↔ ∃ a, x = .ok a ∧ f a = .ok b := by
  cases x <;> simp

theorem roundDiv_le {a b m : Nat} (hb : 0 < b) (h : a ≤ b * m) : F32.roundDiv a b ≤ m := by
  have hq : a / b ≤ m := Nat.div_le_of_le_mul h
  have hdm := Nat.div_add_mod a b
  have hr := Nat.mod_lt a hb
  simp only [F32.roundDiv]
  by_cases hqm : a / b = m
  · have hr0 : a % b = 0 := by
      rw [hqm] at hdm
      omega
    rw [hr0, if_pos (by omega)]
    omega
  · split
    · omega
    · split
      · omega
      · split <;> omega

/-- Rounding never passes a representable bound `c * 2^k` (`c < 2^24`). -/
theorem roundUnits_le {a b c k : Nat} (hb : 0 < b) (hc : c < 2 ^ 24) (h : a ≤ b * (c * 2 ^ k)) :
    F32.roundUnits a b ≤ c * 2 ^ k := by
  simp only [F32.roundUnits]
  generalize ht : (a / b).log2 - 23 = t
  have hq : a / b ≤ c * 2 ^ k := Nat.div_le_of_le_mul h
  have htk : t ≤ k := by
    by_cases h0 : a / b = 0
    · rw [h0] at ht
      have : Nat.log2 0 = 0 := by decide
      rw [this] at ht
      omega
    · have h1 : a / b < 2 ^ (24 + k) := by
        rw [Nat.pow_add]
        exact Nat.lt_of_le_of_lt hq (Nat.mul_lt_mul_of_pos_right hc (Nat.two_pow_pos k))
      have := (Nat.log2_lt h0).2 h1
      omega
  have hk : c * 2 ^ k = (c * 2 ^ (k - t)) * 2 ^ t := by
    rw [Nat.mul_assoc, ← Nat.pow_add]
    congr 2
    omega
  rw [hk]
  refine Nat.mul_le_mul_right _ (roundDiv_le (Nat.mul_pos hb (Nat.two_pow_pos t)) ?_)
  rw [hk] at h
  calc a ≤ b * (c * 2 ^ (k - t) * 2 ^ t) := h
    _ = b * 2 ^ t * (c * 2 ^ (k - t)) := by
      rw [Nat.mul_assoc b, Nat.mul_comm (2 ^ t)]

end Klavier
