import Verif.Lemmas.Rates
import Verif.Lemmas.Text
import Verif.Spec.RateText

/-! # Decimal fractions of rates -/
set_option autoImplicit false
namespace Klavier
open Spec
namespace F32

theorem roundDiv_scale (a b c : Nat) (hc : 0 < c) : roundDiv (a * c) (b * c) = roundDiv a b := by
  simp only [roundDiv, Nat.mul_div_mul_right _ _ hc, Nat.mul_mod_mul_right]
  have e1 : 2 * (a % b * c) < b * c ↔ 2 * (a % b) < b := by
    rw [← Nat.mul_assoc]; exact Nat.mul_lt_mul_right hc
  have e2 : b * c < 2 * (a % b * c) ↔ b < 2 * (a % b) := by
    rw [← Nat.mul_assoc]; exact Nat.mul_lt_mul_right hc
  simp only [e1, e2]

/-- Only the quotient matters. -/
theorem roundUnits_scale (a b c : Nat) (hc : 0 < c) : roundUnits (a * c) (b * c) = roundUnits a b := by
  simp only [roundUnits, Nat.mul_div_mul_right _ _ hc]
  rw [show b * c * 2 ^ ((a / b).log2 - 23) = b * 2 ^ ((a / b).log2 - 23) * c by ac_rfl, roundDiv_scale _ _ _ hc]

/-- Thousandths -/
theorem roundUnits_thousandths {M : Nat} (h : 0 < M) :
    (2 ^ 24 - 1) * (M * ONE) ≤ roundUnits (M * ONE) 1000 * 1000 * 2 ^ 24 ∧
      roundUnits (M * ONE) 1000 * 1000 * 2 ^ 24 ≤ (2 ^ 24 + 1) * (M * ONE) := by
  refine roundUnits_near _ _ (by decide) ?_
  refine Nat.le_trans ?_ (Nat.mul_le_mul_right ONE h)
  decide +kernel

/-- A rate is the only multiple of a thousandth that rounds to its number. -/
theorem thousandths_inj {M v : Nat} (hv : 0 < v) (hv' : v ≤ 65535) (h : roundUnits (M * ONE) 1000 = roundUnits (v * ONE) 1000) : M = v := by
  obtain ⟨b1, b2⟩ := roundUnits_thousandths hv
  rcases Nat.eq_zero_or_pos M with rfl | hM
  · rw [Nat.zero_mul, roundUnits_zero] at h
    rw [← h] at b1
    have : 0 < (2 ^ 24 - 1) * (v * ONE) := Nat.mul_pos (by decide) (Nat.mul_pos hv (Nat.two_pow_pos _))
    omega
  · obtain ⟨a1, a2⟩ := roundUnits_thousandths hM
    rw [h] at a1 a2
    have ho : 0 < ONE := Nat.two_pow_pos _
    have k1 : (2 ^ 24 - 1) * M ≤ (2 ^ 24 + 1) * v := by
      refine Nat.le_of_mul_le_mul_right (c := ONE) ?_ ho
      rw [Nat.mul_assoc, Nat.mul_assoc]
      exact Nat.le_trans a1 b2
    have k2 : (2 ^ 24 - 1) * v ≤ (2 ^ 24 + 1) * M := by
      refine Nat.le_of_mul_le_mul_right (c := ONE) ?_ ho
      rw [Nat.mul_assoc, Nat.mul_assoc]
      exact Nat.le_trans b1 a2
    omega

theorem thousandths_fin {v : Nat} (hv : v ≤ 65535) : roundUnits (v * ONE) 1000 < 2 ^ 277 := by
  obtain ⟨u, h1, h2⟩ := toF32_near v hv
  simp only [Percent.toF32, ofU16, divConst, ofUnits] at h1
  split at h1
  · assumption
  · cases h1

/-- A decimal number with at most three decimals, as thousandths -/
theorem ofDecimal_thousandths (neg : Bool) (m : Nat) (j : Nat) :
    ofDecimal neg m ((j : Int) - 3) = ofUnits neg (roundUnits (m * 10 ^ j * ONE) 1000) := by
  unfold ofDecimal
  split
  · next h =>
    obtain ⟨i, rfl⟩ : ∃ i, j = i + 3 := ⟨j - 3, by omega⟩
    rw [show ((i + 3 : Nat) - 3 : Int).toNat = i by omega]
    rw [show m * 10 ^ (i + 3) * ONE = m * 10 ^ i * ONE * 1000 by rw [Nat.pow_add]; generalize ONE = o; rw [show (10:Nat) ^ 3 = 1000 from rfl]; ac_rfl]
    have := roundUnits_scale (m * 10 ^ i * ONE) 1 1000 (by decide)
    rw [Nat.one_mul] at this
    rw [this]
  · next h =>
    rw [show (-((j : Int) - 3)).toNat = 3 - j by omega]
    rw [show m * 10 ^ j * ONE = m * ONE * 10 ^ j by generalize ONE = o; ac_rfl]
    have := roundUnits_scale (m * ONE) (10 ^ (3 - j)) (10 ^ j) (Nat.pow_pos (by decide))
    rw [← Nat.pow_add, show 3 - j + j = 3 by omega] at this
    rw [← this]

/-- Which decimals with at most three places are read as a given rate -/
theorem ofDecimal_iff {v : Nat} (hv : 0 < v) (hv' : v ≤ 65535) (m j : Nat) :
    ofDecimal false m ((j : Int) - 3) = .fin false (roundUnits (v * ONE) 1000) ↔ m * 10 ^ j = v := by
  rw [ofDecimal_thousandths]
  constructor
  · intro h
    simp only [ofUnits] at h
    split at h
    · exact thousandths_inj hv hv' (F32.fin.inj h).2
    · cases h
  · rintro rfl
    simp only [ofUnits]
    rw [if_pos (thousandths_fin hv')]

theorem candidate_eq {v : Nat} (hv : 0 < v) (hv' : v ≤ 65535) (j : Nat) :
    candidate (roundUnits (v * ONE) 1000) ((j : Int) - 3) = if v % 10 ^ j = 0 then some (v / 10 ^ j) else none := by
  have ho : 0 < ONE := Nat.two_pow_pos _
  have hp : 0 < 10 ^ j := Nat.pow_pos (by decide)
  obtain ⟨b1, b2⟩ := roundUnits_thousandths hv
  simp only [candidate, ofDecimal_iff hv hv']
  generalize hn : roundUnits (v * ONE) 1000 = n at *
  generalize ha : (if (0 : Int) ≤ (j : Int) - 3 then n else n * 10 ^ (-((j : Int) - 3)).toNat) = a
  generalize hb : (if (0 : Int) ≤ (j : Int) - 3 then ONE * 10 ^ ((j : Int) - 3).toNat else ONE) = b
  have hb0 : 0 < b := by
    subst hb
    split
    · exact Nat.mul_pos ho (Nat.pow_pos (by decide))
    · exact ho
  have hab : a * (ONE * 10 ^ j) = n * 1000 * b := by
    subst ha hb
    split
    · obtain ⟨i, rfl⟩ : ∃ i, j = i + 3 := ⟨j - 3, by omega⟩
      rw [show ((i + 3 : Nat) - 3 : Int).toNat = i by omega, Nat.pow_add, show (10:Nat) ^ 3 = 1000 from rfl]
      generalize ONE = o
      ac_rfl
    · rw [show (-((j : Int) - 3)).toNat = 3 - j by omega]
      have : 10 ^ (3 - j) * 10 ^ j = 1000 := by rw [← Nat.pow_add, show 3 - j + j = 3 by omega]
      rw [← this]
      generalize ONE = o
      ac_rfl
  have key : v % 10 ^ j = 0 → a / b = v / 10 ^ j ∨ a / b + 1 = v / 10 ^ j := by
    intro hm
    have hd : v / 10 ^ j * 10 ^ j = v := by have := Nat.div_add_mod v (10 ^ j); rw [Nat.mul_comm] at this; omega
    generalize hc : v / 10 ^ j = c at *
    -- bounds on a / b
    have u1 : a < (c + 1) * b := by
      refine Nat.lt_of_mul_lt_mul_right (a := ONE * 10 ^ j * 2 ^ 24) ?_
      calc a * (ONE * 10 ^ j * 2 ^ 24) = n * 1000 * 2 ^ 24 * b := by rw [← Nat.mul_assoc, hab]; generalize (2:Nat) ^ 24 = t; ac_rfl
        _ ≤ (2 ^ 24 + 1) * (v * ONE) * b := Nat.mul_le_mul_right _ b2
        _ = (2 ^ 24 + 1) * v * (ONE * b) := by generalize (2:Nat) ^ 24 + 1 = t; generalize ONE = o; ac_rfl
        _ < 2 ^ 24 * (v + 10 ^ j) * (ONE * b) := Nat.mul_lt_mul_of_pos_right (by omega) (Nat.mul_pos ho hb0)
        _ = (c + 1) * b * (ONE * 10 ^ j * 2 ^ 24) := by
          rw [show v + 10 ^ j = (c + 1) * 10 ^ j by rw [Nat.succ_mul, hd]]
          generalize (2:Nat) ^ 24 = t; generalize ONE = o; ac_rfl
    have u2 : c * b < a + b := by
      refine Nat.lt_of_mul_lt_mul_right (a := ONE * 10 ^ j * 2 ^ 24) ?_
      have e1 : (a + b) * (ONE * 10 ^ j * 2 ^ 24) = n * 1000 * 2 ^ 24 * b + 2 ^ 24 * 10 ^ j * (ONE * b) := by
        rw [Nat.add_mul, show a * (ONE * 10 ^ j * 2 ^ 24) = a * (ONE * 10 ^ j) * 2 ^ 24 by rw [← Nat.mul_assoc], hab]
        generalize (2:Nat) ^ 24 = t; generalize ONE = o; ac_rfl
      rw [e1]
      calc c * b * (ONE * 10 ^ j * 2 ^ 24) = 2 ^ 24 * v * (ONE * b) := by
            rw [← hd]; generalize (2:Nat) ^ 24 = t; generalize ONE = o; ac_rfl
        _ < ((2 ^ 24 - 1) * v + 2 ^ 24 * 10 ^ j) * (ONE * b) := Nat.mul_lt_mul_of_pos_right (by omega) (Nat.mul_pos ho hb0)
        _ = (2 ^ 24 - 1) * (v * ONE) * b + 2 ^ 24 * 10 ^ j * (ONE * b) := by
            rw [Nat.add_mul]; congr 1; generalize (2:Nat) ^ 24 - 1 = t; generalize ONE = o; ac_rfl
        _ ≤ _ := Nat.add_le_add_right (Nat.mul_le_mul_right _ b1) _
    have w1 : a / b < c + 1 := (Nat.div_lt_iff_lt_mul hb0).2 u1
    have w2 : c < a / b + 2 := by
      have : c * b < (a / b + 2) * b := by
        have := Nat.lt_div_mul_add (a := a) hb0
        have e : (a / b + 2) * b = a / b * b + b + b := by rw [Nat.add_mul]; omega
        omega
      exact Nat.lt_of_mul_lt_mul_right this
    omega
  clear hab b1 b2 ha hb
  generalize a / b = q at *
  by_cases hm : v % 10 ^ j = 0
  · rw [if_pos hm]
    have hd : v / 10 ^ j * 10 ^ j = v := by have := Nat.div_add_mod v (10 ^ j); rw [Nat.mul_comm] at this; omega
    rcases key hm with k | k
    · subst k
      have : ¬ (v / 10 ^ j + 1) * 10 ^ j = v := by rw [Nat.succ_mul]; omega
      simp [hd, this]
    · have h2 : (q + 1) * 10 ^ j = v := by rw [k]; exact hd
      have h1 : ¬ q * 10 ^ j = v := by rw [Nat.succ_mul] at h2; omega
      simp [h1, k, hd]
  · rw [if_neg hm]
    have no : ∀ x, ¬ x * 10 ^ j = v := by
      intro x hx
      apply hm
      rw [← hx]
      exact Nat.mul_mod_left _ _
    simp [no]

private theorem shortest_of {v n : Nat}
    (hc : ∀ j : Nat, candidate n ((j : Int) - 3) = if v % 10 ^ j = 0 then some (v / 10 ^ j) else none) (k : Nat) :
    ∃ j, j ≤ k ∧ v % 10 ^ j = 0 ∧ (∀ i, j < i → i ≤ k → v % 10 ^ i ≠ 0) ∧ shortest n (145 + k + 1) = (v / 10 ^ j, (j : Int) - 3) := by
  have step : ∀ k : Nat, shortest n (145 + k + 1) = if v % 10 ^ k = 0 then (v / 10 ^ k, (k : Int) - 3) else shortest n (145 + k) := by
    intro k
    rw [shortest]
    have e : ((145 + k + 1 : Nat) - 149 : Int) = (k : Int) - 3 := by omega
    rw [e, hc]
    split
    · next h =>
      split at h
      · next h' => rw [if_pos h']; cases h; rfl
      · cases h
    · next h =>
      split at h
      · cases h
      · next h' => rw [if_neg h']
  induction k with
  | zero =>
    refine ⟨0, Nat.le_refl _, Nat.mod_one _, fun i h1 h2 => by omega, ?_⟩
    rw [step 0, if_pos (Nat.mod_one _)]
  | succ k ih =>
    rw [step]
    by_cases h : v % 10 ^ (k + 1) = 0
    · exact ⟨k + 1, Nat.le_refl _, h, fun i h1 h2 => by omega, if_pos h⟩
    · obtain ⟨j, j1, j2, j3, j4⟩ := ih
      refine ⟨j, by omega, j2, ?_, ?_⟩
      · intro i h1 h2
        rcases Nat.lt_or_ge k i with h3 | h3
        · rw [show i = k + 1 by omega]; exact h
        · exact j3 i h1 h3
      · rw [if_neg h]
        exact j4

/-- The digits of a rate: without needless zeros -/
theorem shortest_eq {v : Nat} (hv : 0 < v) (hv' : v ≤ 65535) :
    ∃ j : Nat, v % 10 ^ j = 0 ∧ (∀ i, j < i → i ≤ 41 → v % 10 ^ i ≠ 0) ∧
      shortest (roundUnits (v * ONE) 1000) 187 = (v / 10 ^ j, (j : Int) - 3) := by
  obtain ⟨j, -, h⟩ := shortest_of (candidate_eq hv hv') 41
  exact ⟨j, h⟩

end F32
end Klavier
