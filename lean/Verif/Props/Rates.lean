import Verif.Lemmas.Rates
import Verif.Props.Values

/-! # C58, C59: the total of a rate trimmer; saving and reloading it -/
set_option autoImplicit false
namespace Klavier

/-- C58: the cached total of a rate trimmer is the product of its four rates, cut
off at 200 % and rounded down to thousandths; the floating point errors move it by
less than one part in two million before the rounding down. Rates beyond 200 %, which
only `from_value` and deserialisation let through, are covered. -/
theorem C58_product (p q r s : Nat) (hp : p ≤ 65535) (hq : q ≤ 65535) (hr : r ≤ 65535) (hs : s ≤ 65535) :
    let total := (RateTrimmer.fromArray ⟨p⟩ ⟨q⟩ ⟨r⟩ ⟨s⟩).sum.value
    2000000 * (10 ^ 9 * total) ≤ 2000001 * (p * q * r * s) ∧
      (total = 2000 ∨ 1999999 * (p * q * r * s) < 2000000 * (10 ^ 9 * (total + 1))) := by
  obtain ⟨a, ha, na⟩ := toF32_near p (by omega)
  obtain ⟨b, hb, nb⟩ := toF32_near q (by omega)
  obtain ⟨c, hc, nc⟩ := toF32_near r (by omega)
  obtain ⟨d, hd, nd⟩ := toF32_near s (by omega)
  have b2 : p * q ≤ 65535 * 65535 := Nat.mul_le_mul hp hq
  have b3 : p * q * r ≤ 65535 * 65535 * 65535 := Nat.mul_le_mul b2 hr
  have b4 : p * q * r * s ≤ 65535 * 65535 * 65535 * 65535 := Nat.mul_le_mul b3 hs
  obtain ⟨x, hx, nx⟩ := F32.mul_near na nb (by omega) (by decide) (by decide) (by decide) (by omega)
  obtain ⟨y, hy, ny⟩ := F32.mul_near nx nc (by omega) (by decide) (by decide) (by decide) (by omega)
  obtain ⟨z, hz, nz⟩ := F32.mul_near ny nd (by omega) (by decide) (by decide) (by decide) (by omega)
  simp only [RateTrimmer.fromArray, ha, hb, hc, hd, hx, hy, hz]
  exact ofF32_near z _ nz

example : (RateTrimmer.fromArray ⟨1500⟩ ⟨1500⟩ ⟨65535⟩ ⟨1⟩).sum.value = 147 := by decide +kernel

/-- C58: so the total is exactly the product rounded down (at most 200 %), unless the
product is within a thousandth of a thousandth of a whole number of thousandths. -/
theorem C58_exact (p q r s : Nat) (hp : p ≤ 65535) (hq : q ≤ 65535) (hr : r ≤ 65535) (hs : s ≤ 65535)
    (h1 : 10 ^ 6 < (p * q * r * s) % 10 ^ 9) (h2 : (p * q * r * s) % 10 ^ 9 < 10 ^ 9 - 10 ^ 6) :
    (RateTrimmer.fromArray ⟨p⟩ ⟨q⟩ ⟨r⟩ ⟨s⟩).sum.value = min 2000 (p * q * r * s / 10 ^ 9) := by
  obtain ⟨k1, k2⟩ := C58_product p q r s hp hq hr hs
  have k3 : (RateTrimmer.fromArray ⟨p⟩ ⟨q⟩ ⟨r⟩ ⟨s⟩).sum.value ≤ 2000 := ofF32_le _
  generalize (RateTrimmer.fromArray ⟨p⟩ ⟨q⟩ ⟨r⟩ ⟨s⟩).sum.value = t at *
  generalize p * q * r * s = X at *
  omega

/-- C58: with three rates of 100 % the total is the fourth rate, whichever slot it is
in, but for ten rates for which it is a thousandth less. -/
theorem C58_single (p : Nat) (hp : p ≤ 2000) :
    ∀ t ∈ [RateTrimmer.fromArray ⟨p⟩ .HUNDRED .HUNDRED .HUNDRED, RateTrimmer.fromArray .HUNDRED ⟨p⟩ .HUNDRED .HUNDRED,
      RateTrimmer.fromArray .HUNDRED .HUNDRED ⟨p⟩ .HUNDRED, RateTrimmer.fromArray .HUNDRED .HUNDRED .HUNDRED ⟨p⟩],
      t.sum = ⟨if p ∈ [251, 253, 502, 506, 511, 1004, 1009, 1012, 1017, 1022] then p - 1 else p⟩ := by
  have h : ∀ p : Fin 2001, (Percent.toF32 ⟨p.val⟩).mul (Percent.toF32 .HUNDRED) = Percent.toF32 ⟨p.val⟩ ∧
      (Percent.toF32 .HUNDRED).mul (Percent.toF32 ⟨p.val⟩) = Percent.toF32 ⟨p.val⟩ := by decide +kernel
  have h1 : (Percent.toF32 .HUNDRED).mul (Percent.toF32 .HUNDRED) = Percent.toF32 .HUNDRED := (h ⟨1000, by omega⟩).1
  obtain ⟨h2, h3⟩ := h ⟨p, by omega⟩
  simp only at h2 h3
  have h4 : Percent.ofF32 (Percent.toF32 ⟨p⟩) =
      ⟨if p ∈ [251, 253, 502, 506, 511, 1004, 1009, 1012, 1017, 1022] then p - 1 else p⟩ := by
    split
    · next h => exact (C46_rate_partial p hp).2 h
    · next h => exact (C46_rate_partial p hp).1 h
  intro t ht
  rw [← h4]
  simp only [List.mem_cons, List.not_mem_nil, or_false] at ht
  rcases ht with rfl | rfl | rfl | rfl <;> simp only [RateTrimmer.fromArray, h1, h2, h3]

example : (RateTrimmer.fromArray .HUNDRED .HUNDRED ⟨333⟩ .HUNDRED).sum = ⟨333⟩ := C58_single 333 (by decide) _ (by simp)

/-- C58: four rates of 100 % are the neutral trimmer. -/
theorem C58_one : RateTrimmer.fromArray .HUNDRED .HUNDRED .HUNDRED .HUNDRED = .ONE ∧ ∀ v ≤ U32_MAX, RateTrimmer.ONE.apply v = v := by
  refine ⟨by decide +kernel, fun v hv => ?_⟩
  simp only [U32_MAX] at hv
  simp only [RateTrimmer.apply, RateTrimmer.ONE, Percent.apply, Percent.HUNDRED]
  omega

example : (RateTrimmer.fromArray ⟨900⟩ ⟨1500⟩ ⟨1101⟩ ⟨1007⟩).sum.value = 1496 :=
  C58_exact 900 1500 1101 1007 (by decide) (by decide) (by decide) (by decide) (by decide) (by decide)

/-! ## C59: saving and reloading a rate trimmer -/

/-- C59 (partial: false for other rates, see `C59_reload_false`): a rate trimmer made
of stored rates, none of the ten of C58, holds these rates and is the one reloaded
from them. -/
theorem C59_reload_partial (p q r s : Nat) (hp : p ≤ 2000) (hq : q ≤ 2000) (hr : r ≤ 2000) (hs : s ≤ 2000)
    (h : ∀ x ∈ [p, q, r, s], x ∉ [251, 253, 502, 506, 511, 1004, 1009, 1012, 1017, 1022]) :
    let t := RateTrimmer.new (Percent.toF32 ⟨p⟩) (Percent.toF32 ⟨q⟩) (Percent.toF32 ⟨r⟩) (Percent.toF32 ⟨s⟩)
    (t.v0, t.v1, t.v2, t.v3) = (⟨p⟩, ⟨q⟩, ⟨r⟩, ⟨s⟩) ∧ RateTrimmer.fromArray t.v0 t.v1 t.v2 t.v3 = t := by
  have key : ∀ x, x ≤ 2000 → x ∈ [p, q, r, s] → Percent.ofF32 (Percent.toF32 ⟨x⟩) = ⟨x⟩ :=
    fun x hx hm => (C46_rate_partial x hx).1 (h x hm)
  have h1 := key p hp (by simp)
  have h2 := key q hq (by simp)
  have h3 := key r hr (by simp)
  have h4 := key s hs (by simp)
  simp only [RateTrimmer.new, RateTrimmer.fromArray, h1, h2, h3, h4, and_self]

example : (RateTrimmer.new (Percent.toF32 ⟨333⟩) (Percent.toF32 ⟨1111⟩) (Percent.toF32 ⟨2000⟩) (Percent.toF32 ⟨1⟩)).v1 = ⟨1111⟩ := by decide +kernel

/-- C59, negation: the rates 0.25 and 3 are stored as 25 % and 200 % with a total of
75 %; reloaded, the total is 50 %, so the trimmer is another one. Also the stored rate
1.004 turns into 1.003. -/
theorem C59_reload_false :
    (∃ a b : F32, let t := RateTrimmer.new a b (.fin false F32.ONE) (.fin false F32.ONE)
      t.sum = ⟨750⟩ ∧ (RateTrimmer.fromArray t.v0 t.v1 t.v2 t.v3).sum = ⟨500⟩ ∧ RateTrimmer.fromArray t.v0 t.v1 t.v2 t.v3 ≠ t) ∧
    (RateTrimmer.new (Percent.toF32 ⟨1004⟩) (.fin false F32.ONE) (.fin false F32.ONE) (.fin false F32.ONE)).v0 = ⟨1003⟩ :=
  ⟨⟨.fin false (2 ^ 147), .fin false (3 * 2 ^ 149), by decide +kernel⟩, by decide +kernel⟩

private theorem reload_again (p q r s : Percent) : let t := RateTrimmer.fromArray p q r s
    RateTrimmer.fromArray t.v0 t.v1 t.v2 t.v3 = t := rfl

/-- C59: of any trimmer, one reload keeps the four stored rates, and what was
reloaded once comes back unchanged, total included, from every further reload. -/
theorem C59_stable (t : RateTrimmer) (n : Nat) :
    let reload := fun u : RateTrimmer => RateTrimmer.fromArray u.v0 u.v1 u.v2 u.v3
    ((reload t).v0 = t.v0 ∧ (reload t).v1 = t.v1 ∧ (reload t).v2 = t.v2 ∧ (reload t).v3 = t.v3) ∧
    Nat.repeat reload n (reload t) = reload t := by
  intro reload
  obtain ⟨a, b, c, d, total⟩ := t
  refine ⟨⟨rfl, rfl, rfl, rfl⟩, ?_⟩
  have again : reload (reload ⟨a, b, c, d, total⟩) = reload ⟨a, b, c, d, total⟩ := reload_again a b c d
  generalize reload ⟨a, b, c, d, total⟩ = x at again
  induction n with
  | zero => rfl
  | succ n ih => exact (congrArg reload ih).trans again

example : let t := RateTrimmer.new (.fin false (2 ^ 147)) (.fin false (3 * 2 ^ 149)) (.fin false F32.ONE) (.fin false F32.ONE)
    let u := RateTrimmer.fromArray t.v0 t.v1 t.v2 t.v3
    u ≠ t ∧ RateTrimmer.fromArray u.v0 u.v1 u.v2 u.v3 = u ∧ u.v0 = ⟨250⟩ ∧ u.v1 = ⟨2000⟩ := by decide +kernel

/-! ## C46: the arithmetic of rates -/

open Spec

private theorem tie_even {a b : Nat} (hb : 0 < b) (h : 2 * off a b (F32.roundDiv a b) = b) : F32.roundDiv a b % 2 = 0 := by
  have h0 := Nat.div_add_mod a b
  rw [Nat.mul_comm] at h0
  have hr := Nat.mod_lt a hb
  have e : (a / b + 1) * b = a / b * b + b := Nat.succ_mul _ _
  simp only [F32.roundDiv, off] at *
  have e' : ((a / b : Nat) + 1 : Int) * (b : Int) = ((a / b * b : Nat) : Int) + b := by rw [Int.add_mul]; simp
  have e2 : ((a / b : Nat) : Int) * (b : Int) = ((a / b * b : Nat) : Int) := by simp
  split
  · next h1 =>
    rw [if_pos h1, e2] at h
    omega
  · next h1 =>
    rw [if_neg h1] at h
    split
    · next h2 =>
      rw [if_pos h2] at h
      rw [Int.natCast_add, Int.natCast_one, e'] at h
      omega
    · split
      · assumption
      · omega

/-- Division and multiplication of rates round to the nearest binary32 number, to the
even one if two are equally near. -/
theorem C46_nearest (a b : Nat) (hb : 0 < b) :
    Binary32 (F32.roundUnits a b) ∧ (∀ w, Binary32 w → off a b (F32.roundUnits a b) ≤ off a b w) ∧
    ∀ w, Binary32 w → w ≠ F32.roundUnits a b → off a b w = off a b (F32.roundUnits a b) → EvenBinary32 (F32.roundUnits a b) := by
  simp only [F32.roundUnits]
  generalize ht : (a / b).log2 - 23 = t
  have hD : 0 < b * 2 ^ t := Nat.mul_pos hb (Nat.two_pow_pos t)
  have hn := F32.roundDiv_near a (b * 2 ^ t) hD
  have htie := tie_even (a := a) hD
  have hoff : ∀ j, off a b (j * 2 ^ t) = off a (b * 2 ^ t) j := by
    intro j
    simp only [off]
    rw [show ((j * 2 ^ t : Nat) : Int) * b = (j : Int) * ((b * 2 ^ t : Nat) : Int) by push_cast; ac_rfl]
  -- where the quotient lies
  have hq : a < b * 2 ^ t * 2 ^ 24 := by
    have h1 : a / b < 2 ^ (t + 24) := by
      have := Nat.lt_log2_self (n := a / b)
      exact Nat.lt_of_lt_of_le this (Nat.pow_le_pow_right (by decide) (by omega))
    have := Nat.lt_mul_of_div_lt h1 hb
    rwa [Nat.pow_add, show 2 ^ t * 2 ^ 24 * b = b * 2 ^ t * 2 ^ 24 by ac_rfl] at this
  have hq' : 0 < t → b * 2 ^ t * 2 ^ 23 ≤ a := by
    intro h0
    have hne : a / b ≠ 0 := by
      intro e
      rw [e] at ht
      simp at ht
      omega
    have := Nat.log2_self_le hne
    rw [show (a / b).log2 = t + 23 by omega] at this
    rw [Nat.mul_assoc, ← Nat.pow_add]
    exact Nat.le_trans (Nat.mul_le_mul_left b this) (Nat.mul_div_le a b)
  generalize hk : F32.roundDiv a (b * 2 ^ t) = k at *
  have hdist : ∀ j, off a (b * 2 ^ t) j = ((j * (b * 2 ^ t) : Nat) - (a : Int)).natAbs := by intro j; simp [off]
  -- multiples of the spacing
  have hstep : ∀ j, j ≠ k → j * (b * 2 ^ t) + (b * 2 ^ t) ≤ k * (b * 2 ^ t) ∨ k * (b * 2 ^ t) + (b * 2 ^ t) ≤ j * (b * 2 ^ t) := by
    intro j hj
    rcases Nat.lt_or_gt_of_ne hj with h | h
    · left; rw [← Nat.succ_mul]; exact Nat.mul_le_mul_right _ h
    · right; rw [← Nat.succ_mul]; exact Nat.mul_le_mul_right _ h
  have hmul : ∀ j, off a (b * 2 ^ t) k ≤ off a (b * 2 ^ t) j := by
    intro j
    by_cases hj : j = k
    · rw [hj]; exact Nat.le_refl _
    · have := hstep j hj
      rw [hdist, hdist]
      generalize j * (b * 2 ^ t) = x at *
      generalize k * (b * 2 ^ t) = y at *
      generalize b * 2 ^ t = D at *
      omega
  have hk24 : k ≤ 2 ^ 24 := by
    apply Classical.byContradiction
    intro hc
    have h1 : (2 ^ 24 + 1) * (b * 2 ^ t) ≤ k * (b * 2 ^ t) := Nat.mul_le_mul_right _ (by omega)
    rw [Nat.succ_mul] at h1
    rw [Nat.mul_comm] at hq
    omega
  have hk23 : 0 < t → 2 ^ 23 ≤ k := by
    intro h0
    apply Classical.byContradiction
    intro hc
    have h1 : (k + 1) * (b * 2 ^ t) ≤ 2 ^ 23 * (b * 2 ^ t) := Nat.mul_le_mul_right _ (by omega)
    rw [Nat.succ_mul] at h1
    have := hq' h0
    rw [Nat.mul_comm] at this
    omega
  -- the others
  have hcases : ∀ w, Binary32 w → (∃ j, w = j * 2 ^ t) ∨ (0 < t ∧ w * b < 2 ^ 23 * (b * 2 ^ t)) := by
    rintro w ⟨m, s, hm, rfl⟩
    by_cases hs : t ≤ s
    · left
      refine ⟨m * 2 ^ (s - t), ?_⟩
      rw [Nat.mul_assoc, ← Nat.pow_add, show s - t + t = s by omega]
    · right
      refine ⟨by omega, ?_⟩
      have h1 : m * 2 ^ s < 2 ^ 24 * 2 ^ s := Nat.mul_lt_mul_of_pos_right hm (Nat.two_pow_pos s)
      have h2 : 2 ^ 24 * 2 ^ s ≤ 2 ^ 23 * 2 ^ t := by
        rw [← Nat.pow_add, ← Nat.pow_add]
        exact Nat.pow_le_pow_right (by decide) (by omega)
      have h3 : m * 2 ^ s * b < 2 ^ 23 * 2 ^ t * b := Nat.mul_lt_mul_of_pos_right (Nat.lt_of_lt_of_le h1 h2) hb
      rwa [show 2 ^ 23 * 2 ^ t * b = 2 ^ 23 * (b * 2 ^ t) by ac_rfl] at h3
  have hother : ∀ w, 0 < t → w * b < 2 ^ 23 * (b * 2 ^ t) → off a (b * 2 ^ t) k < off a b w := by
    intro w h0 hw
    have h1 := hmul (2 ^ 23)
    have h2 := hq' h0
    rw [Nat.mul_comm] at h2
    refine Nat.lt_of_le_of_lt h1 ?_
    rw [hdist, off]
    rw [← Int.natCast_mul]
    generalize 2 ^ 23 * (b * 2 ^ t) = x at *
    generalize w * b = y at *
    omega
  rw [hoff]
  refine ⟨?_, ?_, ?_⟩
  · rcases Nat.lt_or_ge k (2 ^ 24) with h | h
    · exact ⟨k, t, h, rfl⟩
    · refine ⟨2 ^ 23, t + 1, by decide, ?_⟩
      rw [show k = 2 ^ 24 by omega, Nat.pow_succ 2 t]
      omega
  · intro w hw
    rcases hcases w hw with ⟨j, rfl⟩ | ⟨h0, hlt⟩
    · rw [hoff]; exact hmul j
    · exact Nat.le_of_lt (hother w h0 hlt)
  · intro w hw hne he
    rcases hcases w hw with ⟨j, rfl⟩ | ⟨h0, hlt⟩
    · have hj : j ≠ k := fun e => hne (by rw [e])
      rw [hoff] at he
      have h2 : 2 * off a (b * 2 ^ t) k = b * 2 ^ t := by
        have := hstep j hj
        rw [hdist, hdist] at he
        rw [hdist]
        generalize j * (b * 2 ^ t) = x at *
        generalize k * (b * 2 ^ t) = y at *
        generalize b * 2 ^ t = D at *
        omega
      have hev := htie h2
      rcases Nat.lt_or_ge k (2 ^ 24) with h | h
      · refine ⟨k, t, h, rfl, ?_, hev⟩
        rcases Nat.eq_zero_or_pos t with h0 | h0
        · exact .inr h0
        · exact .inl (hk23 h0)
      · refine ⟨2 ^ 23, t + 1, by decide, ?_, .inl (Nat.le_refl _), by decide⟩
        rw [show k = 2 ^ 24 by omega, Nat.pow_succ 2 t]
        omega
    · have := hother w h0 hlt
      omega

example : F32.roundUnits (2 ^ 25 + 3) 2 = 2 ^ 24 + 2 ∧ F32.roundUnits 10 3 = 3 := by decide +kernel

/-- Conversion to an integer drops the fraction and stays within 32 bits. -/
theorem C46_truncates (neg : Bool) (n : Nat) :
    (n < 2 ^ 31 * F32.ONE → (F32.fin neg n).asI32.natAbs * F32.ONE ≤ n ∧ n < ((F32.fin neg n).asI32.natAbs + 1) * F32.ONE ∧
      (neg = true → (F32.fin neg n).asI32 ≤ 0) ∧ (neg = false → 0 ≤ (F32.fin neg n).asI32)) ∧
    (2 ^ 31 * F32.ONE ≤ n → (F32.fin neg n).asI32 = if neg then -2147483648 else 2147483647) ∧
    (F32.inf neg).asI32 = (if neg then -2147483648 else 2147483647) ∧ F32.nan.asI32 = 0 := by
  have h1 := Nat.div_mul_le_self n F32.ONE
  have h2 : n < (n / F32.ONE + 1) * F32.ONE := by
    have := Nat.lt_div_mul_add (a := n) (b := F32.ONE) (by decide)
    rw [Nat.succ_mul]
    exact this
  have h3 : n < 2 ^ 31 * F32.ONE → n / F32.ONE < 2 ^ 31 := fun h => (Nat.div_lt_iff_lt_mul (by decide)).2 h
  have h4 : 2 ^ 31 * F32.ONE ≤ n → 2 ^ 31 ≤ n / F32.ONE := fun h => (Nat.le_div_iff_mul_le (by decide)).2 h
  generalize hq : n / F32.ONE = q at *
  refine ⟨fun h => ?_, fun h => ?_, by cases neg <;> rfl, rfl⟩
  · have hl := h3 h
    have e : (F32.fin neg n).asI32 = if neg then -(q : Int) else q := by
      cases neg
      · simp only [F32.asI32, I32_MAX, hq]
        show min 2147483647 (q : Int) = (q : Int)
        omega
      · simp only [F32.asI32, I32_MIN, hq]
        show max (-2147483648) (-(q : Int)) = -(q : Int)
        omega
    have e2 : (F32.fin neg n).asI32.natAbs = q := by rw [e]; cases neg <;> simp
    rw [e2]
    refine ⟨h1, h2, ?_, ?_⟩
    · rintro rfl; rw [e]; simp
    · rintro rfl; rw [e]; simp
  · have hl := h4 h
    cases neg
    · simp only [F32.asI32, I32_MAX, hq]
      show min 2147483647 (q : Int) = 2147483647
      omega
    · simp only [F32.asI32, I32_MIN, hq]
      show max (-2147483648) (-(q : Int)) = -2147483648
      omega

/-! ## C59: one rate -/

private theorem roundUnits_one {n : Nat} (h : Binary32 n) : F32.roundUnits (n * F32.ONE) F32.ONE = n := by
  have h1 := (C46_nearest (n * F32.ONE) F32.ONE (by decide)).2.1 n h
  have h2 : off (n * F32.ONE) F32.ONE n = 0 := by
    simp only [off]
    rw [show ((n * F32.ONE : Nat) : Int) = (n : Int) * (F32.ONE : Nat) by rw [Int.natCast_mul]]
    omega
  generalize F32.roundUnits (n * F32.ONE) F32.ONE = m at *
  rw [h2] at h1
  simp only [off] at h1
  have h3 : (m : Int) * (F32.ONE : Nat) = (n : Int) * (F32.ONE : Nat) := by
    rw [← Int.natCast_mul n]
    omega
  have h4 := Int.eq_of_mul_eq_mul_right (by decide) h3
  omega

private theorem mul_one_both {a : F32} (h : ∀ s n, a = .fin s n → Binary32 n ∧ n < 2 ^ 277) :
    a.mul (.fin false F32.ONE) = a ∧ (F32.fin false F32.ONE).mul a = a := by
  have h0 : ¬ F32.ONE = 0 := by decide
  cases a with
  | nan => exact ⟨rfl, rfl⟩
  | inf s => simp only [F32.mul, if_neg h0]; cases s <;> exact ⟨rfl, rfl⟩
  | fin s n =>
    obtain ⟨h1, h2⟩ := h s n rfl
    simp only [F32.mul]
    rw [Nat.mul_comm F32.ONE n, roundUnits_one h1]
    simp only [F32.ofUnits, if_pos h2]
    cases s <;> exact ⟨rfl, rfl⟩

/-- C59, exactly, for a trimmer with one rate other than 100 %, whatever binary32 number
it is (infinite, negative and not a number included) and whichever slot it is in: it
comes back the same exactly if the rate stored is none of the ten of C58. -/
theorem C59_single_iff (a : F32) (h : ∀ s n, a = .fin s n → Binary32 n ∧ n < 2 ^ 277) :
    let one := F32.fin false F32.ONE
    ∀ t ∈ [RateTrimmer.new a one one one, RateTrimmer.new one a one one, RateTrimmer.new one one a one, RateTrimmer.new one one one a],
      RateTrimmer.fromArray t.v0 t.v1 t.v2 t.v3 = t ↔
        (Percent.ofF32 a).value ∉ [251, 253, 502, 506, 511, 1004, 1009, 1012, 1017, 1022] := by
  intro one t ht
  have e1 : a.mul one = a := (mul_one_both h).1
  have e2 : one.mul a = a := (mul_one_both h).2
  have e3 : one.mul one = one := (mul_one_both (a := one) (by
    intro s n e
    obtain ⟨-, rfl⟩ := F32.fin.inj e
    exact ⟨⟨1, 149, by decide, by decide⟩, by decide⟩)).1
  have e4 : Percent.ofF32 one = .HUNDRED := by decide +kernel
  have hs := C58_single (Percent.ofF32 a).value (ofF32_le a)
  have fin : ∀ u : RateTrimmer, u ∈ [RateTrimmer.fromArray ⟨(Percent.ofF32 a).value⟩ .HUNDRED .HUNDRED .HUNDRED,
      RateTrimmer.fromArray .HUNDRED ⟨(Percent.ofF32 a).value⟩ .HUNDRED .HUNDRED,
      RateTrimmer.fromArray .HUNDRED .HUNDRED ⟨(Percent.ofF32 a).value⟩ .HUNDRED,
      RateTrimmer.fromArray .HUNDRED .HUNDRED .HUNDRED ⟨(Percent.ofF32 a).value⟩] →
      (u.sum = Percent.ofF32 a ↔ (Percent.ofF32 a).value ∉ [251, 253, 502, 506, 511, 1004, 1009, 1012, 1017, 1022]) := by
    intro u hu
    rw [hs u hu]
    generalize Percent.ofF32 a = p
    obtain ⟨p⟩ := p
    simp only [Percent.mk.injEq]
    split
    · next hm =>
      have : p - 1 ≠ p := by
        intro e
        have : p = 0 := by omega
        subst this
        exact absurd hm (by decide)
      exact ⟨fun e => absurd e this, fun k => absurd hm k⟩
    · next hm => exact ⟨fun _ => hm, fun _ => rfl⟩
  simp only [List.mem_cons, List.not_mem_nil, or_false] at ht
  have same : ∀ (p q r w total : Percent), RateTrimmer.fromArray p q r w = ⟨p, q, r, w, total⟩ ↔
      (RateTrimmer.fromArray p q r w).sum = total := by
    intro p q r w total
    simp only [RateTrimmer.fromArray, RateTrimmer.mk.injEq, true_and]
  rcases ht with rfl | rfl | rfl | rfl <;>
    simp only [RateTrimmer.new, e1, e2, e3, e4] <;> refine (same _ _ _ _ _).trans (fin _ ?_) <;> simp

/-- A rate of a third, not a number of thousandths, and 1.009, one of the ten -/
example : (∀ t ∈ [RateTrimmer.new (F32.divConst (.ofU16 1) 3) (.fin false F32.ONE) (.fin false F32.ONE) (.fin false F32.ONE)],
      t.v0 = ⟨333⟩ ∧ RateTrimmer.fromArray t.v0 t.v1 t.v2 t.v3 = t) ∧
    (∀ t ∈ [RateTrimmer.new (.fin false (8464106 * 2 ^ 126)) (.fin false F32.ONE) (.fin false F32.ONE) (.fin false F32.ONE)],
      t.v0 = ⟨1009⟩ ∧ RateTrimmer.fromArray t.v0 t.v1 t.v2 t.v3 ≠ t) ∧ Binary32 (8464106 * 2 ^ 126) := by
  refine ⟨?_, ?_, ⟨8464106, 126, by decide, rfl⟩⟩ <;> decide +kernel

/-! A tie: 2^24 + 1 and 2^24 + 3 lie halfway between two binary32 numbers. -/

example : F32.roundUnits (2 ^ 24 + 1) 1 = 2 ^ 24 ∧ F32.roundUnits (2 ^ 24 + 3) 1 = 2 ^ 24 + 4 := by decide +kernel

example : (F32.fin true (5 * 2 ^ 148)).asI32 = -2 := by decide +kernel

end Klavier
