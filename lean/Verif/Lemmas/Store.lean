import Verif.Spec.Store

set_option autoImplicit false
namespace Klavier
open Spec

namespace Store
variable {V : Type}

theorem get?_add (s : Store V) (k : Nat) (v : V) (k' : Nat) :
    (s.add k v).get? k' = if k = k' then some v else s.get? k' := by
  induction s with
  | nil => simp [add, get?]
  | cons p s ih =>
    obtain ⟨a, b⟩ := p
    simp only [add]
    by_cases h1 : k < a
    · rw [if_pos h1]
      simp only [get?]
    · rw [if_neg h1]
      by_cases h2 : k = a
      · rw [if_pos h2]
        subst h2
        simp only [get?]
        split <;> rfl
      · rw [if_neg h2]
        simp only [get?, ih]
        by_cases h3 : a = k'
        · rw [if_pos h3, if_neg (by omega), if_pos h3]
        · rw [if_neg h3, if_neg h3]

theorem get?_none_of_not_mem {s : Store V} {k : Nat} (h : ∀ p ∈ s, p.1 ≠ k) : s.get? k = none := by
  induction s with
  | nil => rfl
  | cons p s ih =>
    simp only [get?]
    rw [if_neg (h p (by simp))]
    exact ih (fun q hq => h q (by simp [hq]))

theorem get?_eq_none_iff {s : Store V} {k : Nat} : s.get? k = none ↔ ∀ p ∈ s, p.1 ≠ k := by
  refine ⟨?_, get?_none_of_not_mem⟩
  induction s with
  | nil => simp
  | cons p s ih =>
    simp only [get?]
    split
    · simp
    · intro h q hq
      rcases List.mem_cons.1 hq with rfl | hq
      · assumption
      · exact ih h q hq

theorem get?_remove {s : Store V} (hs : SortedStore s) (k k' : Nat) :
    (s.remove k).get? k' = if k = k' then none else s.get? k' := by
  induction s with
  | nil => simp [remove, get?]
  | cons p s ih =>
    obtain ⟨a, b⟩ := p
    rw [SortedStore, List.pairwise_cons] at hs
    simp only [remove]
    by_cases h1 : a = k
    · rw [if_pos h1]
      subst h1
      by_cases h2 : a = k'
      · rw [if_pos h2]
        subst h2
        apply get?_none_of_not_mem
        intro p hp
        have := hs.1 p hp
        simp only at this
        omega
      · rw [if_neg h2]
        simp only [get?, if_neg h2]
    · rw [if_neg h1]
      simp only [get?, ih hs.2]
      by_cases h3 : a = k'
      · rw [if_pos h3, if_neg (by omega), if_pos h3]
      · rw [if_neg h3, if_neg h3]

theorem mem_of_get? {s : Store V} {k : Nat} {v : V} (h : s.get? k = some v) : (k, v) ∈ s := by
  induction s with
  | nil => simp [get?] at h
  | cons p s ih =>
    simp only [get?] at h
    split at h
    · next hk =>
      cases h
      subst hk
      simp
    · exact List.mem_cons_of_mem _ (ih h)

theorem get?_of_mem {s : Store V} (hs : SortedStore s) {k : Nat} {v : V} (h : (k, v) ∈ s) :
    s.get? k = some v := by
  induction s with
  | nil => simp at h
  | cons p s ih =>
    rw [SortedStore, List.pairwise_cons] at hs
    simp only [get?]
    rcases List.mem_cons.1 h with rfl | h
    · simp
    · have := hs.1 _ h
      rw [if_neg (by simp only at this; omega)]
      exact ih hs.2 h

theorem get?_some_iff {s : Store V} (hs : SortedStore s) {k : Nat} {v : V} :
    s.get? k = some v ↔ (k, v) ∈ s := ⟨mem_of_get?, get?_of_mem hs⟩

theorem mem_add {s : Store V} {k : Nat} {v : V} {p : Nat × V} (h : p ∈ s.add k v) :
    p = (k, v) ∨ p ∈ s := by
  induction s with
  | nil => simp [add] at h; exact .inl h
  | cons q s ih =>
    simp only [add] at h
    split at h
    · rcases List.mem_cons.1 h with rfl | h
      · exact .inl rfl
      · exact .inr h
    · split at h
      · rcases List.mem_cons.1 h with rfl | h
        · exact .inl rfl
        · exact .inr (by simp [h])
      · rcases List.mem_cons.1 h with rfl | h
        · exact .inr (by simp)
        · rcases ih h with h | h
          · exact .inl h
          · exact .inr (by simp [h])

theorem sorted_add {s : Store V} (hs : SortedStore s) (k : Nat) (v : V) : SortedStore (s.add k v) := by
  induction s with
  | nil => simp [add, SortedStore]
  | cons q s ih =>
    obtain ⟨a, b⟩ := q
    have hs' := hs
    rw [SortedStore, List.pairwise_cons] at hs
    simp only [add]
    split
    · next h =>
      rw [SortedStore, List.pairwise_cons]
      refine ⟨?_, hs'⟩
      intro p hp
      rcases List.mem_cons.1 hp with rfl | hp
      · exact h
      · have := hs.1 p hp
        simp only at this ⊢
        omega
    · split
      · next h =>
        rw [SortedStore, List.pairwise_cons]
        subst h
        exact ⟨hs.1, hs.2⟩
      · rw [SortedStore, List.pairwise_cons]
        refine ⟨?_, ih hs.2⟩
        intro p hp
        rcases mem_add hp with rfl | hp
        · simp only; omega
        · exact hs.1 p hp

theorem remove_sublist (s : Store V) (k : Nat) : (s.remove k).Sublist s := by
  induction s with
  | nil => exact List.Sublist.refl _
  | cons q s ih =>
    simp only [remove]
    split
    · exact List.sublist_cons_self _ _
    · exact ih.cons_cons _

theorem sorted_remove {s : Store V} (hs : SortedStore s) (k : Nat) : SortedStore (s.remove k) :=
  List.Pairwise.sublist (remove_sublist s k) hs

theorem ext {s t : Store V} (hs : SortedStore s) (ht : SortedStore t)
    (h : ∀ k, s.get? k = t.get? k) : s = t := by
  induction s generalizing t with
  | nil =>
    cases t with
    | nil => rfl
    | cons q t =>
      have := h q.1
      simp [get?] at this
  | cons p s ih =>
    cases t with
    | nil =>
      have := h p.1
      simp [get?] at this
    | cons q t =>
      obtain ⟨a, b⟩ := p
      obtain ⟨c, d⟩ := q
      rw [SortedStore, List.pairwise_cons] at hs ht
      have h1 : ∀ x ∈ s, x.1 ≠ a := fun x hx => by have := hs.1 x hx; simp only at this; omega
      have h2 : ∀ x ∈ t, x.1 ≠ c := fun x hx => by have := ht.1 x hx; simp only at this; omega
      have hac : a = c := by
        rcases Nat.lt_trichotomy a c with hlt | heq | hgt
        · have e := h a
          simp only [get?, if_pos] at e
          rw [if_neg (by omega), get?_none_of_not_mem (fun x hx => by
            have := ht.1 x hx; simp only at this; omega)] at e
          cases e
        · exact heq
        · have e := h c
          simp only [get?, if_pos] at e
          rw [if_neg (by omega), get?_none_of_not_mem (fun x hx => by
            have := hs.1 x hx; simp only at this; omega)] at e
          cases e
      subst hac
      have hbd := h a
      simp only [get?, if_pos, Option.some.injEq] at hbd
      subst hbd
      congr 1
      apply ih hs.2 ht.2
      intro k
      by_cases hk : a = k
      · subst hk
        rw [get?_none_of_not_mem h1, get?_none_of_not_mem h2]
      · have := h k
        simpa only [get?, if_neg hk] using this

/-! ### find -/

theorem find_spec {s : Store V} (hs : SortedStore s) (k : Nat) :
    (∃ i v, s.find k = .ok i ∧ s[i]? = some (k, v) ∧
      (∀ p ∈ s.take (i + 1), p.1 ≤ k) ∧ (∀ p ∈ s.drop (i + 1), k < p.1)) ∨
    (∃ i, s.find k = .error i ∧ i ≤ s.length ∧
      (∀ p ∈ s.take i, p.1 < k) ∧ (∀ p ∈ s.drop i, k < p.1)) := by
  have hlt : ∀ p ∈ s.takeWhile (fun p => decide (p.1 < k)), p.1 < k := by
    intro p hp
    have := List.all_takeWhile (p := fun p : Nat × V => decide (p.1 < k)) (l := s)
    rw [List.all_eq_true] at this
    simpa using this p hp
  have happ : s.takeWhile (fun p => decide (p.1 < k)) ++ s.dropWhile (fun p => decide (p.1 < k)) = s :=
    List.takeWhile_append_dropWhile
  have htake : s.take (s.takeWhile (fun p => decide (p.1 < k))).length
      = s.takeWhile (fun p => decide (p.1 < k)) := by
    conv => lhs; arg 2; rw [← happ]
    rw [List.take_left]
  have hdrop : s.drop (s.takeWhile (fun p => decide (p.1 < k))).length
      = s.dropWhile (fun p => decide (p.1 < k)) := by
    conv => lhs; arg 2; rw [← happ]
    rw [List.drop_left]
  have hlen : (s.takeWhile (fun p => decide (p.1 < k))).length ≤ s.length := by
    have := congrArg List.length happ
    rw [List.length_append] at this
    omega
  have hsd : (s.dropWhile (fun p => decide (p.1 < k))).Pairwise (fun a b => a.1 < b.1) :=
    List.Pairwise.sublist (List.dropWhile_sublist _) hs
  simp only [find]
  generalize hi : (s.takeWhile (fun p => decide (p.1 < k))).length = i at *
  cases hd : s.dropWhile (fun p => decide (p.1 < k)) with
  | nil =>
    rw [hd] at hdrop
    have hnone : s[i]? = none := by
      rw [List.getElem?_eq_none_iff]
      have := congrArg List.length hdrop
      simp at this
      omega
    rw [hnone]
    refine .inr ⟨i, rfl, hlen, ?_, ?_⟩
    · rw [htake]; exact hlt
    · rw [hdrop]; simp
  | cons q r =>
    rw [hd] at hdrop hsd
    have hq : ¬ q.1 < k := by
      have : (s.dropWhile (fun p => decide (p.1 < k))) ≠ [] := by simp [hd]
      have h0 := List.head_dropWhile_not (fun p : Nat × V => decide (p.1 < k)) this
      simp [hd] at h0
      omega
    have hsome : s[i]? = some q := by
      have h0 : (s.drop i)[0]? = some q := by rw [hdrop]; rfl
      simpa [List.getElem?_drop] using h0
    rw [hsome]
    obtain ⟨a, b⟩ := q
    rw [List.pairwise_cons] at hsd
    simp only
    split
    · next hk =>
      subst hk
      refine .inl ⟨i, b, rfl, hsome, ?_, ?_⟩
      · intro p hp
        rw [List.take_add_one, htake, hsome] at hp
        simp only [Option.toList_some, List.mem_append, List.mem_singleton] at hp
        rcases hp with hp | rfl
        · exact Nat.le_of_lt (hlt p hp)
        · exact Nat.le_refl _
      · intro p hp
        have e : s.drop (i + 1) = r := by
          rw [← List.drop_drop, hdrop]; rfl
        rw [e] at hp
        exact hsd.1 p hp
    · next hk =>
      refine .inr ⟨i, rfl, hlen, ?_, ?_⟩
      · rw [htake]; exact hlt
      · rw [hdrop]
        intro p hp
        simp only at hq
        rcases List.mem_cons.1 hp with rfl | hp
        · simp only; omega
        · have := hsd.1 p hp
          simp only at this
          omega

end Store

/-- Everything up to an index is at or before a tick, everything after is later. -/
def SplitAt {V : Type} (s : Store V) (k n : Nat) : Prop :=
  n ≤ s.length ∧ (∀ p ∈ s.take n, p.1 ≤ k) ∧ (∀ p ∈ s.drop n, k < p.1)

theorem splitAt_get {V : Type} {s : Store V} {k n : Nat} (h : SplitAt s k n) (i : Nat) (p : Nat × V)
    (hp : s[i]? = some p) : i < n ↔ p.1 ≤ k := by
  obtain ⟨hn, h1, h2⟩ := h
  have hi : i < s.length := by
    rw [List.getElem?_eq_some_iff] at hp
    exact hp.1
  constructor
  · intro hlt
    apply h1
    rw [List.mem_iff_getElem?]
    exact ⟨i, by rw [List.getElem?_take]; rw [if_pos hlt]; exact hp⟩
  · intro hle
    apply Decidable.byContradiction
    intro hge
    have : k < p.1 := by
      apply h2
      rw [List.mem_iff_getElem?]
      refine ⟨i - n, ?_⟩
      rw [List.getElem?_drop]
      rw [show n + (i - n) = i by omega]
      exact hp
    omega

end Klavier

namespace Klavier
open Spec

theorem find_split {V : Type} {s : Store V} (hs : SortedStore s) (k : Nat) :
    (∃ i v, s.find k = .ok i ∧ SplitAt s k (i + 1) ∧ s[i]? = some (k, v)) ∨
    (∃ i, s.find k = .error i ∧ SplitAt s k i ∧ ∀ p ∈ s, p.1 ≠ k) := by
  rcases Store.find_spec hs k with ⟨i, v, h1, h2, h3, h4⟩ | ⟨i, h1, h2, h3, h4⟩
  · refine .inl ⟨i, v, h1, ⟨?_, h3, h4⟩, h2⟩
    rw [List.getElem?_eq_some_iff] at h2
    exact h2.1
  · refine .inr ⟨i, h1, ⟨h2, fun p hp => Nat.le_of_lt (h3 p hp), h4⟩, ?_⟩
    intro p hp he
    rw [← List.take_append_drop i s, List.mem_append] at hp
    rcases hp with hp | hp
    · have := h3 p hp; omega
    · have := h4 p hp; omega

/-- The last index at or before a tick holds the greatest such key. -/
theorem split_last {V : Type} {s : Store V} (hs : SortedStore s) {k n : Nat} (h : SplitAt s k (n + 1)) :
    ∃ p, s[n]? = some p ∧ p ∈ s ∧ p.1 ≤ k ∧ ∀ q ∈ s, q.1 ≤ k → q.1 ≤ p.1 := by
  have hn : n < s.length := h.1
  refine ⟨s[n], by simp [hn], List.getElem_mem hn,
    (splitAt_get h n _ (by simp [hn])).1 (Nat.lt_succ_self n), ?_⟩
  intro q hq hqk
  obtain ⟨j, hj, rfl⟩ := List.mem_iff_getElem.1 hq
  have : j < n + 1 := (splitAt_get h j _ (by simp [hj])).2 hqk
  rcases Nat.lt_or_ge j n with hjn | hjn
  · exact Nat.le_of_lt (List.pairwise_iff_getElem.1 hs j n hj hn hjn)
  · obtain rfl : j = n := by omega
    exact Nat.le_refl _

theorem split_zero {V : Type} {s : Store V} {k : Nat} (h : SplitAt s k 0) : ∀ q ∈ s, k < q.1 := by
  have := h.2.2
  simpa using this

/-- Both branches of the `..._at` functions use the last index at or before. -/
theorem idx_eq {V : Type} {s : Store V} {i : Nat} {p : Nat × V} (h : s[i]? = some p) : idx s i = .ok p := by
  simp [idx, h]

end Klavier
