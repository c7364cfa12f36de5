import Verif.Props.Values
import Verif.Lemmas.Queries
import Verif.Spec.Queries

set_option autoImplicit false
namespace Klavier
open Spec

theorem maxEnd_ok : ∀ (l : List (Nat × Note)) (m : Nat),
    (∀ q ∈ l, ∃ k, q.2.tickLen = .ok k ∧ q.1 + k ≤ U32_MAX) →
    ∃ e, Project.maxEnd l m = .ok e ∧ m ≤ e ∧ (∀ q ∈ l, ∀ k, q.2.tickLen = .ok k → q.1 + k ≤ e) ∧
      (e = m ∨ ∃ q ∈ l, ∃ k, q.2.tickLen = .ok k ∧ q.1 + k = e)
  | [], m, _ => ⟨m, rfl, Nat.le_refl _, by simp, .inl rfl⟩
  | (t, n) :: l, m, h => by
    obtain ⟨k, hk, hf⟩ := h (t, n) (by simp)
    obtain ⟨e, h1, h2, h3, h4⟩ := maxEnd_ok l (max m (t + k)) (fun q hq => h q (by simp [hq]))
    simp only at hk hf
    refine ⟨e, ?_, by omega, ?_, ?_⟩
    · simp only [Project.maxEnd, hk, R_bind_ok, addU32, if_pos hf]
      exact h1
    · intro q hq k' hk'
      rcases List.mem_cons.1 hq with rfl | hq
      · simp only [hk, Except.ok.injEq] at hk'
        simp only
        omega
      · exact h3 q hq k' hk'
    · rcases h4 with h4 | ⟨q, hq, hx⟩
      · by_cases hm : m ≤ t + k
        · exact .inr ⟨(t, n), by simp, k, hk, by simp only; omega⟩
        · exact .inl (by omega)
      · exact .inr ⟨q, by simp [hq], hx⟩

theorem maxEnd_overflow : ∀ (l : List (Nat × Note)) (m : Nat),
    (∀ q ∈ l, ∃ k, q.2.tickLen = .ok k) →
    (∃ q ∈ l, ∃ k, q.2.tickLen = .ok k ∧ U32_MAX < q.1 + k) →
    Project.maxEnd l m = .error .overflow
  | [], _, _, h => by simp at h
  | (t, n) :: l, m, h, hx => by
    obtain ⟨k, hk⟩ := h (t, n) (by simp)
    simp only at hk
    simp only [Project.maxEnd, hk, R_bind_ok, addU32]
    by_cases hf : t + k ≤ U32_MAX
    · rw [if_pos hf]
      simp only [R_bind_ok]
      refine maxEnd_overflow l _ (fun q hq => h q (by simp [hq])) ?_
      obtain ⟨q, hq, k', hk', hb⟩ := hx
      rcases List.mem_cons.1 hq with rfl | hq
      · simp only [hk, Except.ok.injEq] at hk'
        simp only at hb
        omega
      · exact ⟨q, hq, k', hk', hb⟩
    · rw [if_neg hf]
      rfl

/-- The window: everything not scanned ends at or before the last note starts. -/
theorem noteMaxEnd_unfold {p : Project} (h : WF p) (hne : p.notes ≠ []) :
    ∃ z ∈ p.notes, (∀ q ∈ p.notes, q.1 ≤ z.1) ∧ ∃ st, st ≤ z.1 ∧ (st = 0 ∨ st + 3826 ≤ z.1) ∧
      p.noteMaxEndTick = (do
        let m ← Project.maxEnd (p.notes.filter (fun q => st ≤ q.1)) 0
        pure (some m)) := by
  obtain ⟨z, hz⟩ : ∃ z, p.notes.getLast? = some z := by
    cases hg : p.notes.getLast? with
    | none => exact absurd (List.getLast?_eq_none_iff.1 hg) hne
    | some z => exact ⟨z, rfl⟩
  have hzm : z ∈ p.notes := List.mem_of_getLast? hz
  have hzb := (h.notesKeyed z hzm).2
  refine ⟨z, hzm, ?_, z.1 - 3826, by omega, by omega, ?_⟩
  · obtain ⟨l, hl⟩ := List.getLast?_eq_some_iff.1 hz
    have hs := h.notes
    rw [SortedBag, hl, List.pairwise_append] at hs
    intro q hq
    rw [hl, List.mem_append, List.mem_singleton] at hq
    rcases hq with hq | rfl
    · exact hs.2.2 q hq z (by simp)
    · exact Nat.le_refl _
  · simp only [Project.noteMaxEndTick, Bag.peekLast, hz, C47_longest, R_bind_ok]
    have : asU32 (if (z.1 : Int) - (3826 : Nat) < 0 then 0 else (z.1 : Int) - (3826 : Nat)) = z.1 - 3826 := by
      simp only [asU32, U32_MAX] at *
      split <;> omega
    rw [this]
    rfl

theorem noteMaxEnd_ok {p : Project} (h : WF p) (hv : ValidNotes p) (hne : p.notes ≠ [])
    (hfit : ∀ q ∈ p.notes, ∀ l, q.2.tickLen = .ok l → q.1 + l ≤ U32_MAX) :
    ∃ m, p.noteMaxEndTick = .ok (some m) ∧
      (∀ q ∈ p.notes, ∀ l, q.2.tickLen = .ok l → q.1 + l ≤ m) ∧
      ∃ q ∈ p.notes, ∃ l, q.2.tickLen = .ok l ∧ q.1 + l = m := by
  obtain ⟨z, hzm, hmax, st, hst1, hst2, hu⟩ := noteMaxEnd_unfold h hne
  obtain ⟨e, h1, h2, h3, h4⟩ := maxEnd_ok (p.notes.filter (fun q => st ≤ q.1)) 0 (by
    intro q hq
    rw [List.mem_filter] at hq
    obtain ⟨_, l, -, hl, -⟩ := C47_length q.2 (hv q hq.1)
    exact ⟨l, hl, hfit q hq.1 l hl⟩)
  obtain ⟨_, lz, -, hlz, -⟩ := C47_length z.2 (hv z hzm)
  have hze := h3 z (by rw [List.mem_filter]; exact ⟨hzm, by simpa using hst1⟩) lz hlz
  refine ⟨e, by rw [hu, h1]; rfl, ?_, ?_⟩
  · intro q hq l hl
    by_cases hw : st ≤ q.1
    · exact h3 q (by rw [List.mem_filter]; exact ⟨hq, by simpa using hw⟩) l hl
    · obtain ⟨_, l', -, hl', -, -, hb⟩ := C47_length q.2 (hv q hq)
      rw [hl, Except.ok.injEq] at hl'
      omega
  · rcases h4 with rfl | ⟨q, hq, hx⟩
    · exact ⟨z, hzm, lz, hlz, by omega⟩
    · exact ⟨q, (List.mem_filter.1 hq).1, hx⟩

theorem noteMaxEnd_overflow {p : Project} (h : WF p) (hv : ValidNotes p) {q : Nat × Note} (hq : q ∈ p.notes)
    {l : Nat} (hl : q.2.tickLen = .ok l) (hbig : U32_MAX < q.1 + l) :
    p.noteMaxEndTick = .error .overflow := by
  have hne : p.notes ≠ [] := by rintro he; rw [he] at hq; simp at hq
  obtain ⟨z, hzm, hmax, st, hst1, hst2, hu⟩ := noteMaxEnd_unfold h hne
  have hzb := (h.notesKeyed z hzm).2
  obtain ⟨_, l', -, hl', -, -, hb⟩ := C47_length q.2 (hv q hq)
  rw [hl, Except.ok.injEq] at hl'
  rw [hu, maxEnd_overflow _ 0 ?_ ⟨q, ?_, l, hl, hbig⟩]
  · rfl
  · intro q hq
    obtain ⟨_, l', -, hl', -⟩ := C47_length q.2 (hv q (List.mem_filter.1 hq).1)
    exact ⟨l', hl'⟩
  · rw [List.mem_filter]
    have := hmax q hq
    exact ⟨hq, by simp only [decide_eq_true_eq]; omega⟩

end Klavier
