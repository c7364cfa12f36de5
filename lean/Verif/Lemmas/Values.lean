import Verif.Lemmas.Basic
import Verif.Lemmas.Pitch
import Verif.Model.Note
import Verif.Model.Bar
import Verif.Spec.Values

set_option autoImplicit false
namespace Klavier

/-- Every rate the constructors can produce is at most 200.0 %. -/
theorem ofF32_le (x : F32) : (Percent.ofF32 x).value ≤ 2000 := by
  simp only [Percent.ofF32]
  split
  · simp
  · split
    · simp
    · split
      · simp
      · next h1 h2 h3 =>
        cases x with
        | nan => simp [F32.isNan] at h1
        | inf s =>
          cases s
          · simp [F32.gtConst] at h3
          · simp [F32.ltZero] at h2
        | fin s n =>
          simp only [F32.mul, F32.ofUnits]
          have hn : n ≤ 2 * F32.ONE := by
            cases s
            · simpa [F32.gtConst] using h3
            · have : n = 0 := by simpa [F32.ltZero] using h2
              omega
          have hr : F32.roundUnits (n * (1000 * F32.ONE)) F32.ONE ≤ 125 * 2 ^ 153 := by
            refine roundUnits_le (Nat.two_pow_pos _) (by decide) ?_
            have : n * (1000 * F32.ONE) ≤ 2 * F32.ONE * (1000 * F32.ONE) := Nat.mul_le_mul_right _ hn
            refine Nat.le_trans this ?_
            decide
          have h0 : n = 0 → F32.roundUnits (n * (1000 * F32.ONE)) F32.ONE = 0 := by
            rintro rfl
            rw [Nat.zero_mul]
            decide
          generalize F32.roundUnits (n * (1000 * F32.ONE)) F32.ONE = u at hr h0
          have h277 : (125 * 2 ^ 153 : Nat) < 2 ^ 277 := by decide +kernel
          rw [if_pos (Nat.lt_of_le_of_lt hr h277)]
          have hu : u / F32.ONE ≤ 2000 := by
            refine Nat.div_le_of_le_mul (Nat.le_trans hr ?_)
            decide
          cases s
          · simp only [bne_self_eq_false, F32.asI32, asU16, I32_MAX]
            generalize u / F32.ONE = w at hu
            rw [Int.min_eq_right (by omega)]
            omega
          · have hn0 : n = 0 := by simpa [F32.ltZero] using h2
            have : (true != false) = true := rfl
            simp only [this, F32.asI32, asU16, I32_MIN, h0 hn0]
            decide

open Spec

theorem baseLen_eq (n : NoteValue) : Duration.baseLen n = writtenTicks n := by
  cases n <;> decide

theorem writtenTicks_le (n : NoteValue) : 7 ≤ writtenTicks n ∧ writtenTicks n ≤ 960 := by
  cases n <;> decide

theorem addSlot_ok {v tick : Int} (h1 : I32_MIN ≤ v + tick) (h2 : v + tick ≤ I32_MAX) :
    Trimmer.addSlot v tick =
      .ok (if 32767 < v + tick then (32767, some (v + tick - 32767))
        else if v + tick < -32768 then (-32768, some (v + tick + 32768)) else (v + tick, none)) := by
  simp only [Trimmer.addSlot, chkI32_ok h1 h2, R_bind_ok, I16_MAX, I16_MIN, R_pure]
  split
  · rfl
  · split
    · simp
    · rfl

/-- Generic statement of the carry loop. -/
theorem addSlots_spec : ∀ (vs : List Int) (tick : Int),
    (∀ v ∈ vs, -32768 ≤ v ∧ v ≤ 32767) →
    (∀ v ∈ vs.head?, I32_MIN ≤ v + tick ∧ v + tick ≤ I32_MAX) →
    ∃ vs', Trimmer.addSlots vs tick = .ok vs' ∧ vs'.length = vs.length ∧
      (∀ v ∈ vs', -32768 ≤ v ∧ v ≤ 32767) ∧
      (vs'.sum = max (-32768 * (vs.length : Int)) (min (32767 * (vs.length : Int)) (vs.sum + tick))) := by
  intro vs
  induction vs with
  | nil => intro tick _ _; exact ⟨[], rfl, rfl, by simp, by simp; omega⟩
  | cons v vs ih =>
    intro tick hr hh
    have hv := hr v (by simp)
    have hvt := hh v (by simp)
    have hlen : (0:Int) ≤ vs.length := by omega
    have hsum : ∀ l : List Int, (∀ v ∈ l, -32768 ≤ v ∧ v ≤ 32767) →
        -32768 * (l.length : Int) ≤ l.sum ∧ l.sum ≤ 32767 * l.length := by
      intro l
      induction l with
      | nil => simp
      | cons a l ih =>
        intro h
        have := ih (fun v hv => h v (by simp [hv]))
        have := h a (by simp)
        simp only [List.sum_cons, List.length_cons]
        omega
    have hs := hsum vs (fun v hv => hr v (by simp [hv]))
    simp only [Trimmer.addSlots, addSlot_ok hvt.1 hvt.2, R_bind_ok]
    simp only [I32_MIN, I32_MAX] at hvt
    have rest : ∀ (v' c : Int), -32768 ≤ v' → v' ≤ 32767 → I32_MIN + 32768 ≤ c → c ≤ I32_MAX - 32767 →
        max (-32768 * (vs.length : Int)) (min (32767 * (vs.length : Int)) (vs.sum + c)) + v' =
          max (-32768 * ((vs.length : Int) + 1)) (min (32767 * ((vs.length : Int) + 1)) (v + vs.sum + tick)) →
        ∃ vs', (do let vs' ← Trimmer.addSlots vs c; (pure (v' :: vs') : R (List Int))) = .ok vs' ∧
          vs'.length = (v :: vs).length ∧ (∀ v ∈ vs', -32768 ≤ v ∧ v ≤ 32767) ∧
          vs'.sum = max (-32768 * ((v :: vs).length : Int))
            (min (32767 * ((v :: vs).length : Int)) ((v :: vs).sum + tick)) := by
      intro v' c l1 l2 c1 c2 hc
      obtain ⟨vs', e1, e2, e3, e4⟩ := ih c (fun v hv => hr v (by simp [hv])) (by
        intro w hw
        have := hr w (by simp [List.mem_of_mem_head? hw])
        simp only [I32_MIN, I32_MAX] at *
        omega)
      refine ⟨v' :: vs', by simp [e1], by simp [e2], ?_, ?_⟩
      · intro w hw
        rcases List.mem_cons.1 hw with rfl | hw
        · exact ⟨l1, l2⟩
        · exact e3 w hw
      · simp only [List.sum_cons, List.length_cons, e4]
        omega
    by_cases c1 : 32767 < v + tick
    · simp only [if_pos c1]
      exact rest 32767 _ (by omega) (by omega) (by simp only [I32_MIN]; omega) (by simp only [I32_MAX]; omega)
        (by omega)
    · by_cases c2 : v + tick < -32768
      · simp only [if_neg c1, if_pos c2]
        exact rest (-32768) _ (by omega) (by omega) (by simp only [I32_MIN]; omega)
          (by simp only [I32_MAX]; omega) (by omega)
      · simp only [if_neg c1, if_neg c2]
        refine ⟨_, rfl, by simp, ?_, ?_⟩
        · intro w hw
          rcases List.mem_cons.1 hw with rfl | hw
          · omega
          · exact hr w (by simp [hw])
        · simp only [List.sum_cons, List.length_cons]
          omega

theorem snap_eq {g : Nat} {t a : Int} (h : Grid.snap ⟨g⟩ t = .ok a) :
    0 < g ∧ a = if t < 0 then -((g : Int) * ((-t + (g : Int) / 2) / g)) else (g : Int) * ((t + (g : Int) / 2) / g) := by
  have e2 : (g : Int).tdiv 2 = (g : Int) / 2 := Int.tdiv_eq_ediv_of_nonneg (by omega)
  simp only [Grid.snap, e2] at h
  by_cases hneg : t < 0
  · rw [if_pos hneg, R_bind_eq_ok] at h
    obtain ⟨s, hs, h⟩ := h
    have hs' : s = t - (g : Int) / 2 := by
      unfold chkI64 at hs; split at hs <;> cases hs; rfl
    by_cases hz : (g : Int) = 0
    · rw [if_pos hz] at h; cases h
    · rw [if_neg hz] at h
      have ha : a = (g : Int) * s.tdiv g := by
        unfold chkI64 at h; split at h <;> cases h; rfl
      refine ⟨by omega, ?_⟩
      rw [if_pos hneg, ha, hs', show t - (g : Int) / 2 = -(-t + (g : Int) / 2) by omega, Int.neg_tdiv,
        Int.tdiv_eq_ediv_of_nonneg (by omega), Int.mul_neg]
  · rw [if_neg hneg, R_bind_eq_ok] at h
    obtain ⟨s, hs, h⟩ := h
    have hs' : s = t + (g : Int) / 2 := by
      unfold chkI64 at hs; split at hs <;> cases hs; rfl
    by_cases hz : (g : Int) = 0
    · rw [if_pos hz] at h; cases h
    · rw [if_neg hz] at h
      have ha : a = (g : Int) * s.tdiv g := by
        unfold chkI64 at h; split at h <;> cases h; rfl
      refine ⟨by omega, ?_⟩
      rw [if_neg hneg, ha, hs', Int.tdiv_eq_ediv_of_nonneg (by omega)]

end Klavier
