import Verif.Lemmas.Store
import Verif.Lemmas.Basic
import Verif.Lemmas.Values

set_option autoImplicit false
namespace Klavier
open Spec

/-- The bar search used by the queries: an index `n` such that the first `n`
items are at or before the tick. -/
theorem scan_spec {α : Type} {bars : Store Bar} (hs : SortedStore bars) (sel : Bar → Option α) (d : α)
    (n : Nat) (hn : n ≤ bars.length) :
    ∃ a, Project.scan bars sel d n = .ok a ∧
      (((∀ p ∈ bars.take n, sel p.2 = none) ∧ a = d) ∨
       ∃ p ∈ bars.take n, sel p.2 = some a ∧ ∀ q ∈ bars.take n, sel q.2 ≠ none → q.1 ≤ p.1) := by
  induction n with
  | zero => exact ⟨d, rfl, .inl ⟨by simp, rfl⟩⟩
  | succ n ih =>
    obtain ⟨a, ha, hc⟩ := ih (by omega)
    have hlt : n < bars.length := hn
    have hget : bars[n]? = some bars[n] := by simp [hlt]
    have htake : bars.take (n + 1) = bars.take n ++ [bars[n]] := by
      rw [List.take_add_one, hget]; rfl
    have hle : ∀ q ∈ bars.take n, q.1 ≤ (bars[n]).1 := by
      intro q hq
      obtain ⟨j, hj, rfl⟩ := List.mem_iff_getElem.1 hq
      rw [List.getElem_take]
      rw [List.length_take] at hj
      exact Nat.le_of_lt (List.pairwise_iff_getElem.1 hs j n (by omega) hlt (by omega))
    simp only [Project.scan, idx_eq hget, R_bind_ok]
    cases hsel : sel (bars[n]).2 with
    | some b =>
      refine ⟨b, rfl, .inr ⟨bars[n], by rw [htake]; exact List.mem_append_right _ (List.mem_singleton.2 rfl), hsel, ?_⟩⟩
      intro q hq _
      rw [htake, List.mem_append, List.mem_singleton] at hq
      rcases hq with hq | rfl
      · exact hle q hq
      · exact Nat.le_refl _
    | none =>
      refine ⟨a, ha, ?_⟩
      rcases hc with ⟨h1, h2⟩ | ⟨p, hp, h1, h2⟩
      · left
        refine ⟨?_, h2⟩
        intro q hq
        rw [htake, List.mem_append, List.mem_singleton] at hq
        rcases hq with hq | rfl
        · exact h1 q hq
        · exact hsel
      · right
        refine ⟨p, by rw [htake]; exact List.mem_append_left _ hp, h1, ?_⟩
        intro q hq hne
        rw [htake, List.mem_append, List.mem_singleton] at hq
        rcases hq with hq | rfl
        · exact h2 q hq hne
        · exact absurd hsel hne

theorem mem_take_of_split {V : Type} {s : Store V} {k n : Nat} (h : SplitAt s k n) (q : Nat × V) :
    q ∈ s.take n ↔ q ∈ s ∧ q.1 ≤ k := by
  constructor
  · intro hq
    exact ⟨List.mem_of_mem_take hq, h.2.1 q hq⟩
  · rintro ⟨hq, hk⟩
    rw [← List.take_append_drop n s, List.mem_append] at hq
    rcases hq with hq | hq
    · exact hq
    · have := h.2.2 q hq; omega

/-- Characterisation of `tick_to_location` by the number of bars at or before. -/
theorem tickToLocation_spec {p : Project} (hs : SortedStore p.bars) (hk : Keyed Bar.startTick p.bars) (t : Nat) :
    ∃ n, SplitAt p.bars t n ∧
      ((n = 0 ∧ p.tickToLocation t = .ok ⟨0, t⟩) ∨
       ∃ m q, n = m + 1 ∧ p.bars[m]? = some q ∧ q.1 ≤ t ∧ p.tickToLocation t = .ok ⟨n, t - q.1⟩) := by
  simp only [Project.tickToLocation]
  by_cases h0 : p.bars.length = 0
  · refine ⟨0, ?_, .inl ⟨rfl, by rw [if_pos h0]⟩⟩
    have : p.bars = [] := List.length_eq_zero_iff.1 h0
    rw [this]
    exact ⟨Nat.le_refl _, by simp, by simp⟩
  · rw [if_neg h0]
    rcases find_split hs t with ⟨i, v, h1, h2, h3⟩ | ⟨i, h1, h2, h3⟩
    · refine ⟨i + 1, h2, .inr ⟨i, _, rfl, h3, Nat.le_refl _, ?_⟩⟩
      simp [h1]
    · rw [h1]
      cases i with
      | zero => exact ⟨0, h2, .inl ⟨rfl, rfl⟩⟩
      | succ i =>
        obtain ⟨q, e1, e2, e3, -⟩ := split_last hs h2
        refine ⟨i + 1, h2, .inr ⟨i, q, rfl, e1, e3, ?_⟩⟩
        have hq := (hk q e2).1
        obtain ⟨a, b⟩ := q
        simp only at hq e3
        simp only [Nat.add_sub_cancel, idx_eq e1, R_bind_ok, subU32]
        rw [if_neg (by omega), if_pos (by omega)]
        simp [hq]

end Klavier
