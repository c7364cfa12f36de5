import Verif.Spec.Repeat
import Verif.Lemmas.Basic

/-! # Helper lemmas: ticks and interval sets -/
set_option autoImplicit false
namespace Klavier
open Spec

/-! ## Lists of ticks -/

theorem mem_span {a b t : Nat} : t ∈ span a b ↔ a ≤ t ∧ t < b := by
  simp only [span, List.mem_range'_1]
  omega

theorem span_sorted (a b : Nat) : (span a b).Pairwise (· < ·) := by
  simp only [span]
  exact List.pairwise_lt_range'

theorem span_empty {a b : Nat} (h : b ≤ a) : span a b = [] := by
  simp only [span, Nat.sub_eq_zero_of_le h, List.range'_zero]

/-- Two strictly increasing lists with the same members are equal. -/
theorem sorted_ext : ∀ {l m : List Nat}, l.Pairwise (· < ·) → m.Pairwise (· < ·) → (∀ t, t ∈ l ↔ t ∈ m) → l = m
  | [], [], _, _, _ => rfl
  | [], b :: m, _, _, h => absurd ((h b).2 (by simp)) (by simp)
  | a :: l, [], _, _, h => absurd ((h a).1 (by simp)) (by simp)
  | a :: l, b :: m, hl, hm, h => by
    rw [List.pairwise_cons] at hl hm
    have hab : a = b := by
      rcases List.mem_cons.1 ((h a).1 (by simp)) with e | e
      · exact e
      · rcases List.mem_cons.1 ((h b).2 (by simp)) with e' | e'
        · exact e'.symm
        · have h1 := hl.1 b e'
          have h2 := hm.1 a e
          omega
    subst hab
    refine congrArg (a :: ·) (sorted_ext hl.2 hm.2 ?_)
    intro t
    constructor
    · intro ht
      rcases List.mem_cons.1 ((h t).1 (by simp [ht])) with e | e
      · have := hl.1 t ht; omega
      · exact e
    · intro ht
      rcases List.mem_cons.1 ((h t).2 (by simp [ht])) with e | e
      · have := hm.1 t ht; omega
      · exact e

theorem span_append {a m b : Nat} (h1 : a ≤ m) (h2 : m ≤ b) : span a b = span a m ++ span m b := by
  refine sorted_ext (span_sorted _ _) (List.pairwise_append.2 ⟨span_sorted _ _, span_sorted _ _, ?_⟩) ?_
  · intro x hx y hy
    rw [mem_span] at hx hy
    omega
  · intro t
    rw [List.mem_append, mem_span, mem_span, mem_span]
    omega

theorem span_length (a b : Nat) : (span a b).length = b - a := by simp [span]

/-! ## Interval sets -/

namespace IntervalSet

/-- Increasing, not touching, not empty. -/
def Normal (s : IntervalSet) : Prop :=
  s.Pairwise (fun i j => i.2 + 1 < j.1) ∧ ∀ i ∈ s, i.1 ≤ i.2

theorem has_iff {s : IntervalSet} {t : Nat} : s.has t = true ↔ ∃ i ∈ s, i.1 ≤ t ∧ t ≤ i.2 := by
  simp [has]

theorem has_insert {lo hi : Nat} (h : lo ≤ hi) {s : IntervalSet} (hs : ∀ i ∈ s, i.1 ≤ i.2) (t : Nat) :
    (insert lo hi s).has t = true ↔ (lo ≤ t ∧ t ≤ hi) ∨ s.has t = true := by
  induction s generalizing lo hi with
  | nil => simp [insert, has]
  | cons i s ih =>
    obtain ⟨a, b⟩ := i
    have hab : a ≤ b := hs (a, b) (by simp)
    have hs' : ∀ i ∈ s, i.1 ≤ i.2 := fun i hi => hs i (by simp [hi])
    simp only [insert]
    by_cases h1 : hi + 1 < a
    · rw [if_pos h1]; simp [has]
    · rw [if_neg h1]
      by_cases h2 : b + 1 < lo
      · rw [if_pos h2]
        have := ih h hs'
        simp only [has, List.any_cons, Bool.or_eq_true, decide_eq_true_eq] at this ⊢
        rw [this]
        generalize ((s.any fun i => decide (i.1 ≤ t ∧ t ≤ i.2)) = true) = q
        by_cases hq : q <;> simp only [hq, or_true, or_false]
        omega
      · rw [if_neg h2]
        have := ih (lo := min lo a) (hi := max hi b) (by omega) hs'
        rw [this]
        simp only [has, List.any_cons, Bool.or_eq_true, decide_eq_true_eq]
        generalize ((s.any fun i => decide (i.1 ≤ t ∧ t ≤ i.2)) = true) = q
        by_cases hq : q <;> simp only [hq, or_true, or_false]
        omega

theorem normal_insert {lo hi : Nat} (h : lo ≤ hi) {s : IntervalSet} (hs : Normal s) : Normal (insert lo hi s) := by
  have gen : ∀ (s : IntervalSet) (lo hi : Nat), lo ≤ hi → Normal s →
      Normal (insert lo hi s) ∧ ∀ m, (∀ i ∈ s, m < i.1) → m < lo → ∀ i ∈ insert lo hi s, m < i.1 := by
    intro s
    induction s with
    | nil =>
      intro lo hi h _
      refine ⟨⟨by simp [insert], by simpa [insert] using h⟩, ?_⟩
      intro m _ hm i hi'
      simp only [insert, List.mem_singleton] at hi'
      rw [hi']; exact hm
    | cons i s ih =>
      obtain ⟨a, b⟩ := i
      intro lo hi h hn
      obtain ⟨hp, hne⟩ := hn
      rw [List.pairwise_cons] at hp
      have hab : a ≤ b := hne (a, b) (by simp)
      have hns : Normal s := ⟨hp.2, fun i hi => hne i (by simp [hi])⟩
      simp only [insert]
      by_cases h1 : hi + 1 < a
      · rw [if_pos h1]
        refine ⟨⟨?_, ?_⟩, ?_⟩
        · rw [List.pairwise_cons]
          refine ⟨?_, List.pairwise_cons.2 hp⟩
          intro j hj
          rcases List.mem_cons.1 hj with rfl | hj
          · exact h1
          · have := hp.1 j hj
            simp only at this ⊢
            omega
        · intro j hj
          rcases List.mem_cons.1 hj with rfl | hj
          · exact h
          · exact hne j hj
        · intro m h3 h4 j hj
          rcases List.mem_cons.1 hj with rfl | hj
          · exact h4
          · exact h3 j hj
      · rw [if_neg h1]
        by_cases h2 : b + 1 < lo
        · rw [if_pos h2]
          obtain ⟨i1, i2⟩ := ih lo hi h hns
          refine ⟨⟨?_, ?_⟩, ?_⟩
          · rw [List.pairwise_cons]
            exact ⟨fun j hj => i2 (b + 1) (fun k hk => hp.1 k hk) h2 j hj, i1.1⟩
          · intro j hj
            rcases List.mem_cons.1 hj with rfl | hj
            · exact hab
            · exact i1.2 j hj
          · intro m h3 h4 j hj
            rcases List.mem_cons.1 hj with rfl | hj
            · exact h3 (a, b) (by simp)
            · exact i2 m (fun k hk => h3 k (by simp [hk])) h4 j hj
        · rw [if_neg h2]
          obtain ⟨i1, i2⟩ := ih (min lo a) (max hi b) (by omega) hns
          refine ⟨i1, ?_⟩
          intro m h3 h4
          have h5 := h3 (a, b) (by simp)
          simp only at h5
          exact i2 m (fun k hk => h3 k (by simp [hk])) (by omega)
  exact (gen s lo hi h hs).1

theorem normal_nil : Normal [] := ⟨List.Pairwise.nil, by simp⟩

theorem union_spec {s t : IntervalSet} (hs : ∀ i ∈ s, i.1 ≤ i.2) (ht : Normal t) :
    Normal (s.union t) ∧ ∀ x, (s.union t).has x = true ↔ s.has x = true ∨ t.has x = true := by
  induction s with
  | nil => exact ⟨ht, by simp [union, has]⟩
  | cons i s ih =>
    obtain ⟨i1, i2⟩ := ih (fun j hj => hs j (by simp [hj]))
    have hi := hs i (by simp)
    refine ⟨normal_insert hi i1, ?_⟩
    intro x
    have h1 := has_insert hi (s := IntervalSet.union s t) i1.2 x
    have e : IntervalSet.union (i :: s) t = insert i.1 i.2 (IntervalSet.union s t) := rfl
    rw [e, h1, i2 x]
    simp only [has, List.any_cons, Bool.or_eq_true, decide_eq_true_eq]
    exact or_assoc.symm

theorem inter_spec (s t : IntervalSet) :
    Normal (s.inter t) ∧ ∀ x, (s.inter t).has x = true ↔ s.has x = true ∧ t.has x = true := by
  have inner : ∀ (t : IntervalSet) (i : Nat × Nat) (u : IntervalSet), Normal u →
      let v := t.foldr (fun j u => if max i.1 j.1 ≤ min i.2 j.2 then insert (max i.1 j.1) (min i.2 j.2) u else u) u
      Normal v ∧ ∀ x, v.has x = true ↔ ((i.1 ≤ x ∧ x ≤ i.2) ∧ t.has x = true) ∨ u.has x = true := by
    intro t i u hu
    induction t with
    | nil => exact ⟨hu, by simp [has]⟩
    | cons j t ih =>
      simp only [List.foldr_cons] at ih ⊢
      obtain ⟨i1, i2⟩ := ih
      generalize List.foldr _ u t = v at *
      by_cases hj : max i.1 j.1 ≤ min i.2 j.2
      · rw [if_pos hj]
        refine ⟨normal_insert hj i1, ?_⟩
        intro x
        rw [has_insert hj i1.2 x, i2 x]
        simp only [has, List.any_cons, Bool.or_eq_true, decide_eq_true_eq]
        constructor
        · rintro (h | ⟨h, h'⟩ | h)
          · exact .inl ⟨by omega, .inl (by omega)⟩
          · exact .inl ⟨h, .inr h'⟩
          · exact .inr h
        · rintro (⟨h, h' | h'⟩ | h)
          · exact .inl (by omega)
          · exact .inr (.inl ⟨h, h'⟩)
          · exact .inr (.inr h)
      · rw [if_neg hj]
        refine ⟨i1, ?_⟩
        intro x
        rw [i2 x]
        simp only [has, List.any_cons, Bool.or_eq_true, decide_eq_true_eq]
        constructor
        · rintro (⟨h, h'⟩ | h)
          · exact .inl ⟨h, .inr h'⟩
          · exact .inr h
        · rintro (⟨h, h' | h'⟩ | h)
          · omega
          · exact .inl ⟨h, h'⟩
          · exact .inr h
  induction s with
  | nil => exact ⟨normal_nil, by simp [inter, has]⟩
  | cons i s ih =>
    obtain ⟨i1, i2⟩ := ih
    obtain ⟨j1, j2⟩ := inner t i (IntervalSet.inter s t) i1
    have e : IntervalSet.inter (i :: s) t =
      t.foldr (fun j u => if max i.1 j.1 ≤ min i.2 j.2 then insert (max i.1 j.1) (min i.2 j.2) u else u) (IntervalSet.inter s t) := rfl
    rw [e]
    refine ⟨j1, ?_⟩
    intro x
    rw [j2 x, i2 x]
    simp only [has, List.any_cons, Bool.or_eq_true, decide_eq_true_eq]
    constructor
    · rintro (⟨h, h'⟩ | ⟨h, h'⟩)
      · exact ⟨.inl h, h'⟩
      · exact ⟨.inr h, h'⟩
    · rintro ⟨h | h, h'⟩
      · exact .inl ⟨h, h'⟩
      · exact .inr ⟨h, h'⟩

/-- When it returns, the set built from pairs holds exactly the ticks of the pairs. -/
theorem ofPairs_ok {ip : Bool} {l : List (Nat × Nat)} {s : IntervalSet} (h : ofPairs ip l = .ok s) :
    Normal s ∧ ∀ x, s.has x = true ↔ ∃ p ∈ l, p.1 ≤ x ∧ x ≤ p.2 := by
  induction l generalizing s with
  | nil =>
    simp only [ofPairs, Except.ok.injEq] at h
    subst h
    exact ⟨normal_nil, by simp [has]⟩
  | cons p l ih =>
    obtain ⟨lo, hi⟩ := p
    simp only [ofPairs] at h
    by_cases hp : lo ≤ hi
    · rw [if_pos hp] at h
      simp only [R_bind_eq_ok, R_pure, Except.ok.injEq] at h
      obtain ⟨s', hs', rfl⟩ := h
      obtain ⟨i1, i2⟩ := ih hs'
      refine ⟨normal_insert hp i1, ?_⟩
      intro x
      rw [has_insert hp i1.2, i2]
      simp
    · rw [if_neg hp] at h
      have h' : ofPairs ip l = .ok s := by
        cases ip
        · simpa using h
        · simp at h
      obtain ⟨i1, i2⟩ := ih h'
      refine ⟨i1, ?_⟩
      intro x
      rw [i2]
      simp only [List.mem_cons, exists_eq_or_imp]
      constructor
      · exact .inr
      · rintro (h | h)
        · omega
        · exact h

theorem ofPairs_valid {ip : Bool} {l : List (Nat × Nat)} (h : ∀ p ∈ l, p.1 ≤ p.2) : ∃ s, ofPairs ip l = .ok s := by
  induction l with
  | nil => exact ⟨[], rfl⟩
  | cons p l ih =>
    obtain ⟨s, hs⟩ := ih (fun q hq => h q (by simp [hq]))
    obtain ⟨lo, hi⟩ := p
    have hp := h (lo, hi) (by simp)
    simp only at hp
    exact ⟨insert lo hi s, by simp only [ofPairs, if_pos hp, hs, R_bind_ok, R_pure]⟩

/-- The ticks of a set in order. -/
def toTicks (s : IntervalSet) : List Nat := s.flatMap (fun i => span i.1 (i.2 + 1))

theorem mem_toTicks (s : IntervalSet) (t : Nat) : t ∈ s.toTicks ↔ s.has t = true := by
  simp only [toTicks, List.mem_flatMap, mem_span, has_iff]
  constructor
  · rintro ⟨i, h1, h2⟩; exact ⟨i, h1, by omega⟩
  · rintro ⟨i, h1, h2⟩; exact ⟨i, h1, by omega⟩

theorem toTicks_sorted {s : IntervalSet} (h : Normal s) : s.toTicks.Pairwise (· < ·) := by
  induction s with
  | nil => simp [toTicks]
  | cons i s ih =>
    have hp := List.pairwise_cons.1 h.1
    have e : IntervalSet.toTicks (i :: s) = span i.1 (i.2 + 1) ++ IntervalSet.toTicks s := rfl
    rw [e, List.pairwise_append]
    refine ⟨span_sorted _ _, ih ⟨hp.2, fun j hj => h.2 j (by simp [hj])⟩, ?_⟩
    intro x hx y hy
    rw [mem_span] at hx
    rw [mem_toTicks, has_iff] at hy
    obtain ⟨j, hj, hy⟩ := hy
    have := hp.1 j hj
    omega

/-- The ticks of a set, in order, are those of any interval of time that contains
it which satisfy membership. -/
theorem toTicks_eq_filter {s : IntervalSet} (h : Normal s) {a b : Nat} (hab : ∀ t, s.has t = true → a ≤ t ∧ t < b) :
    s.toTicks = (span a b).filter (fun t => s.has t) := by
  refine sorted_ext (toTicks_sorted h) ((span_sorted a b).filter _) ?_
  intro t
  rw [mem_toTicks, List.mem_filter, mem_span]
  exact ⟨fun h => ⟨hab t h, h⟩, fun h => h.2⟩

end IntervalSet
end Klavier
