import Verif.Spec.Times
import Verif.Lemmas.Playing

/-! # How often everything is heard -/
set_option autoImplicit false
namespace Klavier
open Spec

private theorem start_le_stop {p : Passage} (h : p.Ordered) : p.start ≤ p.stop := by
  cases p with
  | plain a b => simp only [Passage.Ordered, Passage.start, Passage.stop] at *; omega
  | repeated a b => simp only [Passage.Ordered, Passage.start, Passage.stop] at *; omega
  | endings a ts b =>
    cases ts with
    | nil => exact absurd h (by simp [Passage.Ordered])
    | cons v ts =>
      obtain ⟨e1, _, e3, _⟩ := h
      have := e3 v (by simp)
      simp only [Passage.start, Passage.stop]
      omega

/-- The passages follow each other, so none begins before the first. -/
theorem Chain_start_le {a : Nat} {ps : List Passage} (h : Chain a ps) : ∀ p ∈ ps, a ≤ p.start := by
  induction ps generalizing a with
  | nil => intro p hp; cases hp
  | cons q ps ih =>
    cases ps with
    | nil =>
      simp only [Chain] at h
      subst h
      intro p hp
      obtain rfl := List.mem_singleton.1 hp
      exact Nat.le_refl _
    | cons r ps =>
      obtain ⟨d1, d2, d3, d4⟩ := h
      intro p hp
      rcases List.mem_cons.1 hp with rfl | hp
      · exact Nat.le_of_eq d1.symm
      · have := ih d4 p hp
        have := start_le_stop d2
        omega

/-- A tick is counted in its own passage only. -/
theorem Chain_count_in (f : Passage → List Nat) (k t : Nat)
    (hf : ∀ p : Passage, p.Ordered → (f p).count t ≤ k ∧ (0 < (f p).count t → p.start ≤ t ∧ t < p.stop))
    {a : Nat} {ps : List Passage} (ha : a < U32_MAX) (h : Chain a ps) {p : Passage} (hp : p ∈ ps) (h1 : p.start ≤ t)
    (h2 : t < p.stop) : (ps.flatMap f).count t = (f p).count t := by
  induction ps generalizing a with
  | nil => cases hp
  | cons q ps ih =>
    rw [List.flatMap_cons, List.count_append]
    cases ps with
    | nil =>
      obtain rfl := List.mem_singleton.1 hp
      simp
    | cons r ps =>
      obtain ⟨d1, d2, d3, d4⟩ := h
      rcases List.mem_cons.1 hp with rfl | hp
      · have := (Chain_count f k t hf (r :: ps) p.stop d3 d4).2
        omega
      · rw [ih d3 d4 hp]
        have := Chain_start_le d4 p hp
        have := (hf q d2).2
        omega

/-- Every tick of the score is in one passage. -/
theorem Chain_cover {a : Nat} {ps : List Passage} (h : Chain a ps) {t : Nat} (h1 : a ≤ t) (h2 : t < U32_MAX) :
    ∃ p ∈ ps, p.start ≤ t ∧ t < p.stop := by
  induction ps generalizing a with
  | nil => exact absurd h (by simp [Chain])
  | cons q ps ih =>
    cases ps with
    | nil =>
      simp only [Chain] at h
      subst h
      exact ⟨_, List.mem_cons_self, h1, h2⟩
    | cons r ps =>
      obtain ⟨d1, d2, d3, d4⟩ := h
      by_cases hq : t < q.stop
      · exact ⟨q, List.mem_cons_self, by omega, hq⟩
      · obtain ⟨p, hp, e⟩ := ih d4 (by omega)
        exact ⟨p, List.mem_cons_of_mem _ hp, e⟩

theorem Chain_one {a : Nat} {ps : List Passage} (h : Chain a ps) {p q : Passage} (hp : p ∈ ps) (hq : q ∈ ps) {t : Nat}
    (h1 : p.start ≤ t) (h2 : t < p.stop) (h3 : q.start ≤ t) (h4 : t < q.stop) : p = q := by
  induction ps generalizing a with
  | nil => cases hp
  | cons r ps ih =>
    cases ps with
    | nil => rw [List.mem_singleton.1 hp, List.mem_singleton.1 hq]
    | cons s ps =>
      obtain ⟨_, _, _, d4⟩ := h
      rcases List.mem_cons.1 hp with e1 | hp' <;> rcases List.mem_cons.1 hq with e2 | hq'
      · rw [e1, e2]
      · have := Chain_start_le d4 q hq'
        subst e1
        omega
      · have := Chain_start_le d4 p hp'
        subst e2
        omega
      · exact ih d4 hp' hq'

private theorem endingParts_once (t v : Nat) (ts : List Nat) (b : Nat) (h1 : (v :: ts).Pairwise (· < ·))
    (h2 : ∀ s ∈ v :: ts, s < b) (hv : v ≤ t) (ht : t < b) : (endingParts v ts b).flatten.count t = 1 := by
  induction ts generalizing v with
  | nil => simp [endingParts, count_span, hv, ht]
  | cons w ts ih =>
    have h3 := (List.pairwise_cons.1 h1).2
    have h4 : ∀ s ∈ w :: ts, s < b := fun s hs => h2 s (by simp [hs])
    simp only [endingParts, List.flatten_cons, List.count_append, count_span]
    by_cases hw : w ≤ t
    · rw [ih w h3 h4 hw, if_neg (by omega)]
    · have := (endingParts_count t w ts b h3 h4).2
      rw [if_pos (by omega)]
      omega

/-- With its repeats a passage is played as often as it says. -/
theorem full_times {p : Passage} (h : p.Ordered) {t : Nat} (h1 : p.start ≤ t) (h2 : t < p.stop) :
    p.full.count t = p.times t := by
  cases p with
  | plain a b => simp only [Passage.full, Passage.times, count_span]; exact if_pos ⟨h1, h2⟩
  | repeated a b =>
    simp only [Passage.full, Passage.times, List.count_append, count_span]
    rw [if_pos (show a ≤ t ∧ t < b from ⟨h1, h2⟩)]
  | endings a ts b =>
    cases ts with
    | nil => exact absurd h (by simp [Passage.Ordered])
    | cons v ts =>
      obtain ⟨o1, o2, o3, o4⟩ := h
      simp only [Passage.start, Passage.stop] at h1 h2
      simp only [Passage.full, Passage.times, flatMap_prefix_count, endingParts_length, count_span]
      by_cases hv : t < v
      · have hall : ((v :: ts).all fun w => decide (t < w)) = true := by
          rw [List.all_eq_true]
          intro w hw
          rcases List.mem_cons.1 hw with rfl | hw
          · exact decide_eq_true hv
          · have := (List.pairwise_cons.1 o2).1 w hw
            exact decide_eq_true (by omega)
        have := (endingParts_count t v ts b o2 o3).2
        rw [if_pos hall, if_pos ⟨h1, hv⟩, List.length_cons]
        omega
      · have hall : ¬ ((v :: ts).all fun w => decide (t < w)) = true := by
          rw [List.all_eq_true]
          intro hw
          exact hv (by simpa using hw v (by simp))
        rw [if_neg hall, if_neg (by omega), endingParts_once t v ts b o2 o3 (by omega) h2]
        omega

/-- Before a jump that is outside all repeats and endings, what is before it is played with its
repeats. -/
theorem upTo_times {p : Passage} (h : p.Ordered) {d t : Nat} (ho : p.Outside d) (h1 : p.start ≤ t) (h2 : t < p.stop) :
    (p.upTo d).count t = if t < d then p.times t else 0 := by
  unfold Passage.upTo
  by_cases hd : p.stop ≤ d
  · rw [if_pos hd, if_pos (by omega), full_times h h1 h2]
  · rw [if_neg hd, count_span]
    by_cases ht : t < d
    · rw [if_pos ⟨h1, ht⟩, if_pos ht]
      cases p with
      | plain a b => rfl
      | repeated a b =>
        have : d ≤ a ∨ b ≤ d := ho
        simp only [Passage.start, Passage.stop] at *
        omega
      | endings a ts b =>
        have : d ≤ a ∨ b ≤ d := ho
        simp only [Passage.start, Passage.stop] at *
        omega
    · rw [if_neg (by omega), if_neg ht]

end Klavier
