import Verif.Lemmas.Values

/-! # How far floating point products are from the exact ones -/
set_option autoImplicit false
namespace Klavier
namespace F32

theorem roundDiv_near (a b : Nat) (hb : 0 < b) :
    2 * (roundDiv a b * b) ≤ 2 * a + b ∧ 2 * a ≤ 2 * (roundDiv a b * b) + b := by
  have h := Nat.div_add_mod a b
  have hr := Nat.mod_lt a hb
  simp only [roundDiv]
  rw [Nat.mul_comm] at h
  have e : (a / b + 1) * b = a / b * b + b := Nat.succ_mul _ _
  split
  · omega
  · split
    · rw [e]; omega
    · split
      · omega
      · rw [e]; omega

/-- A normal result is off by at most one part in 2^24. -/
theorem roundUnits_near (a b : Nat) (hb : 0 < b) (h : 2 ^ 23 * b ≤ a) :
    (2 ^ 24 - 1) * a ≤ roundUnits a b * b * 2 ^ 24 ∧ roundUnits a b * b * 2 ^ 24 ≤ (2 ^ 24 + 1) * a := by
  have hq : 2 ^ 23 ≤ a / b := (Nat.le_div_iff_mul_le hb).2 h
  have hne : a / b ≠ 0 := by omega
  have hl : 23 ≤ (a / b).log2 := (Nat.le_log2 hne).2 hq
  simp only [roundUnits]
  generalize ht : (a / b).log2 - 23 = t
  have hlt : 2 ^ (t + 23) ≤ a / b := by
    have := Nat.log2_self_le hne
    rwa [show (a / b).log2 = t + 23 by omega] at this
  have hD : b * 2 ^ t * 2 ^ 23 ≤ a := by
    rw [Nat.mul_assoc, ← Nat.pow_add]
    exact Nat.le_trans (Nat.mul_le_mul_left b hlt) (Nat.mul_div_le a b)
  have hpos : 0 < b * 2 ^ t := Nat.mul_pos hb (Nat.two_pow_pos t)
  obtain ⟨h1, h2⟩ := roundDiv_near a (b * 2 ^ t) hpos
  have e : roundDiv a (b * 2 ^ t) * 2 ^ t * b = roundDiv a (b * 2 ^ t) * (b * 2 ^ t) := by ac_rfl
  rw [e]
  generalize roundDiv a (b * 2 ^ t) * (b * 2 ^ t) = x at *
  generalize b * 2 ^ t = D at *
  omega

theorem roundUnits_zero (b : Nat) : roundUnits 0 b = 0 := by
  simp [roundUnits, roundDiv]

/-- `n` units are `A / B` up to `k` roundings. -/
def Near (k n A B : Nat) : Prop :=
  (2 ^ 24 - 1) ^ k * A * ONE ≤ n * B * (2 ^ 24) ^ k ∧ n * B * (2 ^ 24) ^ k ≤ (2 ^ 24 + 1) ^ k * A * ONE

private theorem mul_up {H hi O u n m A B C D hk hl Hk Hl : Nat} (h : u * O * H ≤ hi * (n * m)) (h1 : n * B * Hk ≤ hk * A * O)
    (h2 : m * D * Hl ≤ hl * C * O) (ho : 0 < O) : u * (B * D) * (Hk * Hl * H) ≤ hk * hl * hi * (A * C) * O := by
  refine Nat.le_of_mul_le_mul_right ?_ ho
  calc u * (B * D) * (Hk * Hl * H) * O = u * O * H * (B * D * Hk * Hl) := by ac_rfl
    _ ≤ hi * (n * m) * (B * D * Hk * Hl) := Nat.mul_le_mul_right _ h
    _ = hi * ((n * B * Hk) * (m * D * Hl)) := by ac_rfl
    _ ≤ hi * ((hk * A * O) * (hl * C * O)) := Nat.mul_le_mul_left _ (Nat.mul_le_mul h1 h2)
    _ = hk * hl * hi * (A * C) * O * O := by ac_rfl

private theorem mul_lo {H hi O u n m A B C D hk hl Hk Hl : Nat} (h : hi * (n * m) ≤ u * O * H) (h1 : hk * A * O ≤ n * B * Hk)
    (h2 : hl * C * O ≤ m * D * Hl) (ho : 0 < O) : hk * hl * hi * (A * C) * O ≤ u * (B * D) * (Hk * Hl * H) := by
  refine Nat.le_of_mul_le_mul_right ?_ ho
  calc hk * hl * hi * (A * C) * O * O = hi * ((hk * A * O) * (hl * C * O)) := by ac_rfl
    _ ≤ hi * ((n * B * Hk) * (m * D * Hl)) := Nat.mul_le_mul_left _ (Nat.mul_le_mul h1 h2)
    _ = hi * (n * m) * (B * D * Hk * Hl) := by ac_rfl
    _ ≤ u * O * H * (B * D * Hk * Hl) := Nat.mul_le_mul_right _ h
    _ = u * (B * D) * (Hk * Hl * H) * O := by ac_rfl

theorem Near.mul {k l n m A B C D : Nat} (h1 : Near k n A B) (h2 : Near l m C D)
    (h : n * m = 0 ∨ 2 ^ 23 * ONE ≤ n * m) : Near (k + l + 1) (roundUnits (n * m) ONE) (A * C) (B * D) := by
  have ho : 0 < ONE := Nat.two_pow_pos _
  have hr : (2 ^ 24 - 1) * (n * m) ≤ roundUnits (n * m) ONE * ONE * 2 ^ 24 ∧
      roundUnits (n * m) ONE * ONE * 2 ^ 24 ≤ (2 ^ 24 + 1) * (n * m) := by
    rcases h with h | h
    · rw [h, roundUnits_zero]; simp
    · exact roundUnits_near _ _ ho h
  unfold Near at *
  generalize roundUnits (n * m) ONE = u at hr ⊢
  generalize hlo : (2 ^ 24 - 1 : Nat) = lo at *
  generalize hhi : (2 ^ 24 + 1 : Nat) = hi at *
  generalize hH : (2 ^ 24 : Nat) = H at *
  generalize hO : (ONE : Nat) = O at *
  rw [Nat.pow_succ, Nat.pow_add, Nat.pow_succ, Nat.pow_add, Nat.pow_succ, Nat.pow_add]
  exact ⟨mul_lo hr.1 h1.1 h2.1 ho, mul_up hr.2 h1.2 h2.2 ho⟩

/-- For few roundings and moderate magnitudes: bounds on the units. -/
theorem Near.bounds {k n A B : Nat} (h : Near k n A B) (hk : k ≤ 8) (hB : 0 < B) :
    n ≤ 2 * A * ONE ∧ A * ONE ≤ 2 * B * n ∧ (n = 0 ↔ A = 0) := by
  have ho : 0 < ONE := Nat.two_pow_pos _
  have hH : 0 < (2 ^ 24) ^ k := Nat.pow_pos (by decide)
  have hu : (2 ^ 24 + 1) ^ k ≤ 2 * (2 ^ 24) ^ k ∧ (2 ^ 24) ^ k ≤ 2 * (2 ^ 24 - 1) ^ k := by
    have : ∀ k : Fin 9, (2 ^ 24 + 1) ^ k.val ≤ 2 * (2 ^ 24) ^ k.val ∧ (2 ^ 24) ^ k.val ≤ 2 * (2 ^ 24 - 1) ^ k.val := by
      decide +kernel
    exact this ⟨k, by omega⟩
  have h1 : n ≤ 2 * A * ONE := by
    refine Nat.le_of_mul_le_mul_right (c := (2 ^ 24) ^ k) ?_ hH
    calc n * (2 ^ 24) ^ k ≤ n * B * (2 ^ 24) ^ k := Nat.mul_le_mul_right _ (Nat.le_mul_of_pos_right _ hB)
      _ ≤ (2 ^ 24 + 1) ^ k * A * ONE := h.2
      _ ≤ 2 * (2 ^ 24) ^ k * A * ONE := Nat.mul_le_mul_right _ (Nat.mul_le_mul_right _ hu.1)
      _ = 2 * A * ONE * (2 ^ 24) ^ k := by ac_rfl
  have h2 : A * ONE ≤ 2 * B * n := by
    refine Nat.le_of_mul_le_mul_right (c := (2 ^ 24) ^ k) ?_ hH
    calc A * ONE * (2 ^ 24) ^ k ≤ A * ONE * (2 * (2 ^ 24 - 1) ^ k) := Nat.mul_le_mul_left _ hu.2
      _ = 2 * ((2 ^ 24 - 1) ^ k * A * ONE) := by ac_rfl
      _ ≤ 2 * (n * B * (2 ^ 24) ^ k) := Nat.mul_le_mul_left _ h.1
      _ = 2 * B * n * (2 ^ 24) ^ k := by ac_rfl
  refine ⟨h1, h2, ?_, ?_⟩
  · rintro rfl
    have : A * ONE = 0 := by omega
    rcases Nat.mul_eq_zero.1 this with h | h
    · exact h
    · omega
  · rintro rfl
    omega

/-- Products of such numbers are normal, finite and near the exact product. -/
theorem mul_near {k l n m A B C D : Nat} (h1 : Near k n A B) (h2 : Near l m C D) (hk : k + l + 1 ≤ 8) (hB : 0 < B) (hD : 0 < D)
    (hBD : B * D ≤ 10 ^ 12) (hAC : A * C ≤ 2 ^ 64) :
    ∃ u, F32.mul (.fin false n) (.fin false m) = .fin false u ∧ Near (k + l + 1) u (A * C) (B * D) := by
  obtain ⟨-, a2, a3⟩ := h1.bounds (by omega) hB
  obtain ⟨-, b2, b3⟩ := h2.bounds (by omega) hD
  have hn : n * m = 0 ∨ 2 ^ 23 * ONE ≤ n * m := by
    rcases Nat.eq_zero_or_pos (n * m) with h | h
    · exact .inl h
    · right
      have hA : 0 < A := by
        rcases Nat.eq_zero_or_pos A with hA | hA
        · rw [a3.2 hA] at h; simp at h
        · exact hA
      have hC : 0 < C := by
        rcases Nat.eq_zero_or_pos C with hC | hC
        · rw [b3.2 hC] at h; simp at h
        · exact hC
      have c1 : ONE * ONE ≤ 4 * 10 ^ 12 * (n * m) := by
        calc ONE * ONE ≤ (A * ONE) * (C * ONE) :=
              Nat.mul_le_mul (Nat.le_mul_of_pos_left _ hA) (Nat.le_mul_of_pos_left _ hC)
          _ ≤ (2 * B * n) * (2 * D * m) := Nat.mul_le_mul a2 b2
          _ = 4 * (B * D) * (n * m) := by
              rw [show (4 : Nat) = 2 * 2 from rfl]; ac_rfl
          _ ≤ 4 * 10 ^ 12 * (n * m) := Nat.mul_le_mul_right _ (Nat.mul_le_mul_left _ hBD)
      have c2 : 4 * 10 ^ 12 * (2 ^ 23 * ONE) ≤ ONE * ONE := by decide +kernel
      exact Nat.le_of_mul_le_mul_left (Nat.le_trans c2 c1) (by decide)
  have hu := h1.mul h2 hn
  obtain ⟨c1, -, -⟩ := hu.bounds hk (Nat.mul_pos hB hD)
  refine ⟨roundUnits (n * m) ONE, ?_, hu⟩
  simp only [F32.mul, ofUnits]
  rw [if_pos, bne_self_eq_false]
  refine Nat.lt_of_le_of_lt c1 ?_
  refine Nat.lt_of_le_of_lt (Nat.mul_le_mul_right _ (Nat.mul_le_mul_left _ hAC)) ?_
  decide +kernel

end F32

open F32

/-- A stored rate as a floating point number. -/
theorem toF32_near (p : Nat) (hp : p ≤ 65535) : ∃ u, Percent.toF32 ⟨p⟩ = .fin false u ∧ Near 1 u p 1000 := by
  have ho : 0 < ONE := Nat.two_pow_pos _
  have hr : (2 ^ 24 - 1) * (p * ONE) ≤ roundUnits (p * ONE) 1000 * 1000 * 2 ^ 24 ∧
      roundUnits (p * ONE) 1000 * 1000 * 2 ^ 24 ≤ (2 ^ 24 + 1) * (p * ONE) := by
    rcases Nat.eq_zero_or_pos p with rfl | h
    · rw [Nat.zero_mul, roundUnits_zero]; simp
    · refine roundUnits_near _ _ (by decide) ?_
      refine Nat.le_trans ?_ (Nat.mul_le_mul_right ONE h)
      decide +kernel
  have hn : Near 1 (roundUnits (p * ONE) 1000) p 1000 := by
    unfold Near
    generalize roundUnits (p * ONE) 1000 = u at hr ⊢
    generalize hlo : (2 ^ 24 - 1 : Nat) = lo at *
    generalize hhi : (2 ^ 24 + 1 : Nat) = hi at *
    generalize hH : (2 ^ 24 : Nat) = H at *
    generalize hO : (ONE : Nat) = O at *
    simp only [Nat.pow_one, Nat.mul_assoc lo, Nat.mul_assoc hi]
    exact hr
  refine ⟨_, ?_, hn⟩
  obtain ⟨c1, -, -⟩ := hn.bounds (by omega) (by decide)
  simp only [Percent.toF32, ofU16, divConst, ofUnits]
  rw [if_pos]
  refine Nat.lt_of_le_of_lt c1 ?_
  refine Nat.lt_of_le_of_lt (Nat.mul_le_mul_right _ (Nat.mul_le_mul_left 2 hp)) ?_
  decide +kernel

/-- Storing a rate that is the fraction `X / 10^12` up to seven roundings. -/
theorem ofF32_near (n X : Nat) (h : Near 7 n X (10 ^ 12)) :
    let total := (Percent.ofF32 (.fin false n)).value
    2000000 * (10 ^ 9 * total) ≤ 2000001 * X ∧
      (total = 2000 ∨ 1999999 * X < 2000000 * (10 ^ 9 * (total + 1))) := by
  have ho : 0 < ONE := Nat.two_pow_pos _
  have hH : 0 < (2 ^ 24) ^ 8 := by decide
  simp only [Percent.ofF32, isNan, ltZero, gtConst, Bool.false_and, Bool.false_eq_true, if_false, Bool.not_false, Bool.true_and,
    decide_eq_true_eq]
  split
  · next hn =>
    refine ⟨?_, .inl rfl⟩
    have h1 : 2 * 10 ^ 12 * (2 ^ 24) ^ 7 ≤ (2 ^ 24 + 1) ^ 7 * X := by
      refine Nat.le_of_mul_le_mul_right (c := ONE) ?_ ho
      calc 2 * 10 ^ 12 * (2 ^ 24) ^ 7 * ONE = 2 * ONE * 10 ^ 12 * (2 ^ 24) ^ 7 := by
            generalize (2 ^ 24) ^ 7 = a; generalize (10 : Nat) ^ 12 = b; ac_rfl
        _ ≤ n * 10 ^ 12 * (2 ^ 24) ^ 7 := Nat.mul_le_mul_right _ (Nat.mul_le_mul_right _ (Nat.le_of_lt hn))
        _ ≤ (2 ^ 24 + 1) ^ 7 * X * ONE := h.2
    have h2 : 2000000 * (2 ^ 24 + 1) ^ 7 ≤ 2000001 * (2 ^ 24) ^ 7 := by decide
    show 2000000 * (10 ^ 9 * 2000) ≤ 2000001 * X
    omega
  · next hn =>
    have hX : X ≤ 2 ^ 44 := by
      have hb := (h.bounds (by omega) (by decide)).2.1
      have : X ≤ 4 * 10 ^ 12 := by
        refine Nat.le_of_mul_le_mul_right (c := ONE) (Nat.le_trans hb ?_) ho
        calc 2 * 10 ^ 12 * n ≤ 2 * 10 ^ 12 * (2 * ONE) := Nat.mul_le_mul_left _ (Nat.le_of_not_lt hn)
          _ = 4 * 10 ^ 12 * ONE := by rw [← Nat.mul_assoc]
      omega
    have hc : Near 0 (1000 * ONE) 1000 1 := by simp [Near]
    obtain ⟨u, hu, hne⟩ := mul_near h hc (by omega) (by decide) (by decide) (by decide) (by omega)
    rw [hu]
    have e1 := Nat.div_mul_le_self u ONE
    have e2 := Nat.lt_div_mul_add (a := u) ho
    obtain ⟨n1, n2⟩ := hne
    simp only [asI32, asU16, I32_MAX]
    generalize u / ONE = w at *
    have k1 : w * 10 ^ 12 * (2 ^ 24) ^ 8 ≤ (2 ^ 24 + 1) ^ 8 * (X * 1000) := by
      refine Nat.le_of_mul_le_mul_right (c := ONE) ?_ ho
      refine Nat.le_trans ?_ n2
      calc w * 10 ^ 12 * (2 ^ 24) ^ 8 * ONE = w * ONE * 10 ^ 12 * (2 ^ 24) ^ 8 := by
            generalize (2 ^ 24) ^ 8 = a; generalize (10 : Nat) ^ 12 = b; ac_rfl
        _ ≤ u * 10 ^ 12 * (2 ^ 24) ^ 8 := Nat.mul_le_mul_right _ (Nat.mul_le_mul_right _ e1)
    have k2 : (2 ^ 24 - 1) ^ 8 * (X * 1000) < (w + 1) * 10 ^ 12 * (2 ^ 24) ^ 8 := by
      refine Nat.lt_of_mul_lt_mul_right (a := ONE) ?_
      refine Nat.lt_of_le_of_lt n1 ?_
      calc u * 10 ^ 12 * (2 ^ 24) ^ 8 < (w * ONE + ONE) * 10 ^ 12 * (2 ^ 24) ^ 8 :=
            Nat.mul_lt_mul_of_pos_right (Nat.mul_lt_mul_of_pos_right e2 (by decide)) hH
        _ = (w + 1) * 10 ^ 12 * (2 ^ 24) ^ 8 * ONE := by
            rw [← Nat.succ_mul]
            generalize (2 ^ 24) ^ 8 = a; generalize (10 : Nat) ^ 12 = b
            rw [Nat.succ_eq_add_one]
            ac_rfl
    have c1 : 2000000 * (2 ^ 24 + 1) ^ 8 ≤ 2000001 * (2 ^ 24) ^ 8 := by decide
    have c2 : 1999999 * (2 ^ 24) ^ 8 ≤ 2000000 * (2 ^ 24 - 1) ^ 8 := by decide
    clear e1 e2 n1 n2 hu
    have hw : w ≤ 60000 := by omega
    have hv : (min (2147483647 : Int) (w : Int) % 65536).toNat = w := by omega
    rw [hv]
    omega

end Klavier
