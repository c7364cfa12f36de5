import Verif.Spec.BarByBar
import Verif.Props.Stretch
import Verif.Lemmas.Moments

/-! # Playing bar by bar -/
set_option autoImplicit false
namespace Klavier
open Spec

theorem barLine_isTick (bars : List Bar) (i : Nat) : IsTick bars (barLine bars i) := by
  cases i with
  | zero => exact .inl rfl
  | succ i =>
    rw [barLine]
    cases h : bars[i]? with
    | none => exact .inr (.inl rfl)
    | some x => exact .inr (.inr ⟨x, List.mem_of_getElem? h, rfl⟩)

theorem isTick_barLine {bars : List Bar} {t : Nat} (h : IsTick bars t) : ∃ i, i ≤ bars.length + 1 ∧ barLine bars i = t := by
  rcases h with rfl | rfl | ⟨x, hx, rfl⟩
  · exact ⟨0, by omega, rfl⟩
  · refine ⟨bars.length + 1, Nat.le_refl _, ?_⟩
    rw [barLine, List.getElem?_eq_none (Nat.le_refl _)]
  · obtain ⟨i, hi⟩ := List.mem_iff_getElem?.1 hx
    refine ⟨i + 1, ?_, by rw [barLine, hi]⟩
    have := (List.getElem?_eq_some_iff.1 hi).1
    omega

theorem barLine_step {bars : List Bar} (hb : BarsOk bars) (i : Nat) : barLine bars i ≤ barLine bars (i + 1) := by
  cases i with
  | zero => exact Nat.zero_le _
  | succ i =>
    rw [barLine, barLine]
    cases h : bars[i]? with
    | none =>
      rw [List.getElem?_eq_none (by have := List.getElem?_eq_none_iff.1 h; omega)]
      exact Nat.le_refl _
    | some x =>
      cases h' : bars[i + 1]? with
      | none => exact Nat.le_of_lt (hb.2 x (List.mem_of_getElem? h))
      | some y =>
        obtain ⟨l1, e1⟩ := List.getElem?_eq_some_iff.1 h
        obtain ⟨l2, e2⟩ := List.getElem?_eq_some_iff.1 h'
        have := List.pairwise_iff_getElem.1 hb.1 i (i + 1) l1 l2 (by omega)
        rw [e1, e2] at this
        exact Nat.le_of_lt this

theorem mono_of_step {L : Nat → Nat} (h : ∀ i, L i ≤ L (i + 1)) {i j : Nat} (hij : i ≤ j) : L i ≤ L j := by
  obtain ⟨d, rfl⟩ := Nat.exists_eq_add_of_le hij
  clear hij
  induction d with
  | zero => exact Nat.le_refl _
  | succ d ih => exact Nat.le_trans ih (h _)

theorem span_lines {L : Nat → Nat} (h : ∀ i, L i ≤ L (i + 1)) (i d : Nat) :
    span (L i) (L (i + d)) = (List.range' i d).flatMap (fun m => span (L m) (L (m + 1))) := by
  induction d with
  | zero => simp [span]
  | succ d ih =>
    rw [List.range'_concat, List.flatMap_append, ← ih]
    simp only [List.flatMap_cons, List.flatMap_nil, List.append_nil, Nat.one_mul]
    exact span_append (mono_of_step h (by omega)) (h _)

theorem moved_barLine {φ : Nat → Nat} {bars bars' : List Bar} (hφ : KeepsOrder φ bars) (hm : Moved φ bars bars') (i : Nat) :
    barLine bars' i = φ (barLine bars i) := by
  have gen : ∀ {a b : List Bar}, Moved φ a b → ∀ i : Nat, b[i]?.map (·.startTick) = a[i]?.map (fun x => φ x.startTick) := by
    intro a b h
    induction h with
    | nil => intro i; simp
    | cons x y xs ys t _ _ ih =>
      intro i
      cases i with
      | zero => simp [t]
      | succ i => simpa using ih i
  cases i with
  | zero => exact hφ.first.symm
  | succ i =>
    have := gen hm i
    rw [barLine, barLine]
    cases ha : bars[i]? with
    | none =>
      rw [ha] at this
      cases hb : bars'[i]? with
      | none => exact hφ.last.symm
      | some y => rw [hb] at this; simp at this
    | some x =>
      rw [ha] at this
      cases hb : bars'[i]? with
      | none => rw [hb] at this; simp at this
      | some y => rw [hb] at this; simpa using this

theorem keeps_le {φ : Nat → Nat} {bars : List Bar} (hφ : KeepsOrder φ bars) {a b : Nat} (ha : IsTick bars a) (hb : IsTick bars b)
    (h : a ≤ b) : φ a ≤ φ b := by
  have := hφ.order b a hb ha
  omega

/-- Chunks between bar lines are bars, the same ones wherever the bar lines are. -/
theorem chunks_bars {bars : List Bar} (hb : BarsOk bars) (cs : List Chunk)
    (h : ∀ c ∈ cs, (IsTick bars c.startTick ∧ IsTick bars c.endTick) ∧ c.startTick ≤ c.endTick) :
    ∃ order : List Nat, (∀ i ∈ order, i ≤ bars.length) ∧ ∀ φ, KeepsOrder φ bars →
      played (cs.map (chunkAt φ)) = order.flatMap (fun i => span (φ (barLine bars i)) (φ (barLine bars (i + 1)))) := by
  induction cs with
  | nil => exact ⟨[], by simp, fun _ _ => rfl⟩
  | cons c cs ih =>
    obtain ⟨order, o1, o2⟩ := ih (fun x hx => h x (by simp [hx]))
    obtain ⟨⟨hs, he⟩, hle⟩ := h c (by simp)
    by_cases heq : c.startTick = c.endTick
    · refine ⟨order, o1, fun φ hφ => ?_⟩
      rw [List.map_cons, played_cons, o2 φ hφ, chunkAt, heq]
      simp [span]
    · obtain ⟨i, i1, i2⟩ := isTick_barLine hs
      obtain ⟨j, j1, j2⟩ := isTick_barLine he
      have hij : i < j := by
        rcases Nat.lt_or_ge i j with hl | hg
        · exact hl
        · have := mono_of_step (barLine_step hb) hg
          omega
      refine ⟨List.range' i (j - i) ++ order, ?_, fun φ hφ => ?_⟩
      · intro m hm
        rcases List.mem_append.1 hm with hm | hm
        · rw [List.mem_range'_1] at hm
          omega
        · exact o1 m hm
      · rw [List.map_cons, played_cons, o2 φ hφ, List.flatMap_append]
        congr 1
        rw [chunkAt, ← i2, ← j2]
        have step : ∀ m, φ (barLine bars m) ≤ φ (barLine bars (m + 1)) := fun m =>
          keeps_le hφ (barLine_isTick _ _) (barLine_isTick _ _) (barLine_step hb m)
        have := span_lines (L := fun m => φ (barLine bars m)) step i (j - i)
        rw [Nat.add_sub_cancel' (Nat.le_of_lt hij)] at this
        exact this

theorem barsPlayed_length (bars : List Bar) (order : List Nat) : (barsPlayed bars order).length = barsLength bars order := by
  induction order with
  | nil => rfl
  | cons i order ih =>
    have e : barsPlayed bars (i :: order) = span (barLine bars i) (barLine bars (i + 1)) ++ barsPlayed bars order := rfl
    rw [e, List.length_append, ih, span_length]
    simp [barsLength]

theorem barsPlayed_append (bars : List Bar) (a b : List Nat) : barsPlayed bars (a ++ b) = barsPlayed bars a ++ barsPlayed bars b := by
  simp [barsPlayed]

theorem barsPlayed_count {bars : List Bar} (hb : BarsOk bars) {i t : Nat} (h : barLine bars i ≤ t ∧ t < barLine bars (i + 1))
    (order : List Nat) : (barsPlayed bars order).count t = order.count i := by
  induction order with
  | nil => rfl
  | cons m order ih =>
    have e : barsPlayed bars (m :: order) = span (barLine bars m) (barLine bars (m + 1)) ++ barsPlayed bars order := rfl
    rw [e, List.count_append, ih, count_span, List.count_cons, Nat.add_comm]
    congr 1
    by_cases hm : m = i
    · subst hm
      rw [if_pos h]
      simp
    · rw [if_neg, if_neg (by simpa using hm)]
      intro hc
      rcases Nat.lt_or_ge m i with hl | hg
      · have := mono_of_step (barLine_step hb) (i := m + 1) (j := i) (by omega)
        omega
      · have := mono_of_step (barLine_step hb) (i := i + 1) (j := m) (by omega)
        omega

theorem barsPlayed_occurrence {bars : List Bar} (hb : BarsOk bars) {order : List Nat} {i k j d : Nat}
    (ho : IsOccurrence order i k j) (hd : barLine bars i + d < barLine bars (i + 1)) :
    IsOccurrence (barsPlayed bars order) (barLine bars i + d) k (barsLength bars (order.take j) + d) := by
  obtain ⟨hj, hk⟩ := ho
  obtain ⟨hlt, he⟩ := List.getElem?_eq_some_iff.1 hj
  have hs : order = order.take j ++ i :: order.drop (j + 1) := by
    rw [← he, ← List.drop_eq_getElem_cons hlt, List.take_append_drop]
  have hin : barLine bars i ≤ barLine bars i + d ∧ barLine bars i + d < barLine bars (i + 1) := ⟨by omega, hd⟩
  have e : barsPlayed bars order = barsPlayed bars (order.take j) ++ (span (barLine bars i) (barLine bars (i + 1)) ++
      barsPlayed bars (order.drop (j + 1))) := by
    conv => lhs; rw [hs]
    rw [barsPlayed_append]
    rfl
  have hg := span_get hin
  have hz := count_span_take hin
  rw [Nat.add_sub_cancel_left] at hg hz
  have hl : d ≤ (span (barLine bars i) (barLine bars (i + 1))).length := by rw [span_length]; omega
  refine ⟨?_, ?_⟩
  · rw [e, List.getElem?_append_right (by rw [barsPlayed_length]; omega), barsPlayed_length, Nat.add_sub_cancel_left,
      List.getElem?_append_left (by rw [span_length]; omega)]
    exact hg
  · rw [e, ← barsPlayed_length, List.take_length_add_append, List.take_append_of_le_length hl, List.count_append, hz,
      barsPlayed_count hb hin]
    exact hk

end Klavier
