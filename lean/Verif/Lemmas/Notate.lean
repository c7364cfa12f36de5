import Verif.Lemmas.Renders

/-! # Writing pieces down, and reading uniquely -/
set_option autoImplicit false
namespace Klavier
open Spec

theorem endingMark_set (k : Nat) (h1 : 1 ≤ k) (h4 : k ≤ 4) (t : Nat) :
    let x : Bar := { startTick := t, repeats := RepeatSet.EMPTY.set (endingMark k) true }
    endingNo x = some k ∧ ¬ Has x .Start ∧ ¬ Has x .End ∧ ¬ Has x .Dc ∧ ¬ Has x .Ds ∧ ¬ Has x .Fine ∧ ¬ Has x .Segno ∧ ¬ Has x .Coda := by
  have : k = 1 ∨ k = 2 ∨ k = 3 ∨ k = 4 := by omega
  rcases this with rfl | rfl | rfl | rfl <;>
    simp [endingMark, endingNo, Has, RepeatSet.set, RepeatSet.contains, RepeatSet.EMPTY]

theorem endingBars_endings (ts : List Nat) : ∀ (k t : Nat), 1 ≤ k → k + ts.length ≤ 4 →
    Endings k (endingBars k (t :: ts)) (t :: ts) := by
  induction ts with
  | nil => intro k t _ _; exact Endings.last (xs := []) (by simp)
  | cons u ts ih =>
    intro k t h1 h4
    simp only [List.length_cons] at h4
    have := ih (k + 1) u (by omega) (by omega)
    have hm := endingMark_set (k + 1) (by omega) (by omega) u
    exact Endings.more (xs := []) (x := { startTick := t, repeats := RepeatSet.EMPTY.set (endingMark k) true }) (by simp)
      ⟨hm.2.2.1, hm.2.2.2.1, hm.2.2.2.2.1, hm.1⟩ this

theorem boundary_marks (p q : Passage) :
    (Has (boundary p q) .Start ↔ ¬ q.IsPlain) ∧ (Has (boundary p q) .End ↔ p.IsRepeated) ∧
      endingNo (boundary p q) = none ∧ ∀ m, m ≠ .Start → m ≠ .End → ¬ Has (boundary p q) m := by
  refine ⟨?_, ?_, ?_, ?_⟩
  · simp [Has, boundary, RepeatSet.contains, RepeatSet.set]
  · simp [Has, boundary, RepeatSet.contains, RepeatSet.set]
  · simp [endingNo, Has, boundary, RepeatSet.contains, RepeatSet.set, RepeatSet.EMPTY]
  · intro m h1 h2
    cases m <;> simp_all [Has, boundary, RepeatSet.contains, RepeatSet.set, RepeatSet.EMPTY]

/-- The mode before a passage with a written-out beginning. -/
def modeFor (p : Passage) : Mode := if p.IsPlain then .plain else .opened

theorem after_boundary (p q : Passage) : after (boundary p q) = modeFor q := by
  unfold after modeFor
  have := (boundary_marks p q).1
  by_cases h : q.IsPlain
  · rw [if_pos h, if_neg (fun c => this.1 c h)]
  · rw [if_neg h, if_pos (this.2 h)]

theorem notate_reads (ps : List Passage) : ∀ (p : Passage) (a : Nat) (m : Mode), Piece a (p :: ps) →
    (m = .first ∨ m = modeFor p) → Reads none m a (notate (p :: ps)) (p :: ps) := by
  induction ps with
  | nil =>
    intro p a m h hm
    simp only [Piece] at h
    subst h
    refine Reads.last ?_ (by simp [notate, innerBars])
    rcases hm with rfl | rfl
    · simp
    · simp [modeFor, Passage.IsPlain]
  | cons q ps ih =>
    intro p a m h hm
    obtain ⟨h1, h2, h3, h4, h5⟩ := h
    have hq := ih q p.stop (modeFor q) h5 (.inr rfl)
    obtain ⟨b1, b2, b3, b4⟩ := boundary_marks p q
    cases p with
    | plain a' b =>
      simp only [Passage.start] at h1
      subst h1
      have hnq : ¬ q.IsPlain := fun hq => h4 ⟨trivial, hq⟩
      have he : modeFor q = .opened := by simp [modeFor, hnq]
      rw [he] at hq
      refine Reads.start (inside := []) ?_ (by simp) (b1.2 hnq) (fun c => b2.1 c) hq
      rcases hm with rfl | rfl
      · simp
      · simp [modeFor, Passage.IsPlain]
    | repeated a' b =>
      simp only [Passage.start] at h1
      subst h1
      refine Reads.close (inside := []) (x := boundary _ q) ?_ (by simp) (b2.2 trivial) ?_
      · rcases hm with rfl | rfl
        · simp
        · simp [modeFor, Passage.IsPlain]
      · rw [after_boundary]
        exact hq
    | endings a' ts b =>
      simp only [Passage.start] at h1
      subst h1
      obtain ⟨t1, t2, t3, t4⟩ := h2
      cases ts with
      | nil => exact absurd rfl t1
      | cons v ts =>
        simp only [List.length_cons] at t2
        have he := endingBars_endings ts 1 v (by omega) (by omega)
        have hv := endingMark_set 1 (by omega) (by omega) v
        have hmp : m ≠ .plain := by
          rcases hm with rfl | rfl
          · simp
          · simp [modeFor, Passage.IsPlain]
        refine Reads.endings (inside := []) (x := boundary _ q) hmp (by simp) ?_ he ?_ (fun c => b2.1 c) b3 ?_
        · cases m with
          | first => exact ⟨hv.2.1, hv.2.2.1, hv.1⟩
          | plain => exact ⟨hv.2.1, hv.2.2.1, hv.1⟩
          | opened => exact ⟨hv.2.1, hv.2.2.1, hv.2.2.2.1, hv.2.2.2.2.1, hv.1⟩
        · intro s f l hs
          cases hs
        · rw [after_boundary]
          exact hq

theorem endingBars_facts (ts : List Nat) : ∀ k, (endingBars k ts).map (·.startTick) = ts := by
  induction ts with
  | nil => intro k; rfl
  | cons t ts ih => intro k; simp [endingBars, ih]

theorem notate_ticks (ps : List Passage) : ∀ (p : Passage) (a : Nat), Piece a (p :: ps) →
    ((notate (p :: ps)).map (·.startTick)).Pairwise (· < ·) ∧
      ∀ t ∈ (notate (p :: ps)).map (·.startTick), a < t ∧ t < U32_MAX := by
  induction ps with
  | nil =>
    intro p a h
    simp only [Piece] at h
    subst h
    simp [notate, innerBars]
  | cons q ps ih =>
    intro p a h
    obtain ⟨h1, h2, h3, h4, h5⟩ := h
    obtain ⟨i1, i2⟩ := ih q p.stop h5
    have hin : ((innerBars p).map (·.startTick)).Pairwise (· < ·) ∧
        (∀ t ∈ (innerBars p).map (·.startTick), p.start < t ∧ t < p.stop) ∧ p.start < p.stop := by
      cases p with
      | plain a b => exact ⟨by simp [innerBars], by simp [innerBars], h2⟩
      | repeated a b => exact ⟨by simp [innerBars], by simp [innerBars], h2⟩
      | endings a ts b =>
        obtain ⟨t1, t2, t3, t4⟩ := h2
        simp only [innerBars, endingBars_facts, Passage.start, Passage.stop]
        refine ⟨t4, t3, ?_⟩
        cases ts with
        | nil => exact absurd rfl t1
        | cons v ts =>
          have := t3 v (by simp)
          omega
    obtain ⟨n1, n2, n3⟩ := hin
    simp only [notate, List.map_append, List.map_cons]
    have hst : (boundary p q).startTick = p.stop := rfl
    rw [hst]
    constructor
    · refine List.pairwise_append.2 ⟨n1, List.pairwise_cons.2 ⟨fun t ht => (i2 t ht).1, i1⟩, ?_⟩
      intro x hx y hy
      have := n2 x hx
      rcases List.mem_cons.1 hy with rfl | hy
      · omega
      · have := i2 y hy
        omega
    · intro t ht
      rcases List.mem_append.1 ht with ht | ht
      · have := n2 t ht
        omega
      · rcases List.mem_cons.1 ht with rfl | ht
        · omega
        · have := i2 t ht
          omega

theorem notate_barsOk {p : Passage} {ps : List Passage} {a : Nat} (h : Piece a (p :: ps)) : BarsOk (notate (p :: ps)) := by
  obtain ⟨h1, h2⟩ := notate_ticks ps p a h
  refine ⟨List.pairwise_map.1 h1, fun x hx => ?_⟩
  exact (h2 x.startTick (List.mem_map_of_mem hx)).2

theorem endingBars_has (m : Repeat) (hm : m = .Dc ∨ m = .Ds ∨ m = .Fine ∨ m = .Segno ∨ m = .Coda) (ts : List Nat) :
    ∀ k, 1 ≤ k → k + ts.length ≤ 5 → ∀ x ∈ endingBars k ts, ¬ Has x m := by
  induction ts with
  | nil => intro k _ _ x hx; simp [endingBars] at hx
  | cons t ts ih =>
    intro k h1 h4 x hx
    simp only [List.length_cons] at h4
    rcases List.mem_cons.1 hx with rfl | hx
    · have := endingMark_set k h1 (by omega) t
      rcases hm with rfl | rfl | rfl | rfl | rfl
      · exact this.2.2.2.1
      · exact this.2.2.2.2.1
      · exact this.2.2.2.2.2.1
      · exact this.2.2.2.2.2.2.1
      · exact this.2.2.2.2.2.2.2
    · exact ih (k + 1) (by omega) (by omega) x hx

theorem notate_has (m : Repeat) (hm : m = .Dc ∨ m = .Ds ∨ m = .Fine ∨ m = .Segno ∨ m = .Coda) (ps : List Passage) :
    ∀ (p : Passage) (a : Nat), Piece a (p :: ps) → ∀ x ∈ notate (p :: ps), ¬ Has x m := by
  induction ps with
  | nil =>
    intro p a h x hx
    simp only [Piece] at h
    subst h
    simp [notate, innerBars] at hx
  | cons q ps ih =>
    intro p a h x hx
    obtain ⟨h1, h2, h3, h4, h5⟩ := h
    rw [notate] at hx
    rcases List.mem_append.1 hx with hx | hx
    · cases p with
      | plain a b => simp [innerBars] at hx
      | repeated a b => simp [innerBars] at hx
      | endings a ts b => exact endingBars_has m hm ts 1 (by omega) (by have := h2.2.1; omega) x hx
    · rcases List.mem_cons.1 hx with rfl | hx
      · refine (boundary_marks p q).2.2.2 m ?_ ?_ <;> rcases hm with rfl | rfl | rfl | rfl | rfl <;> simp
      · exact ih q p.stop h5 x hx

theorem marks_nil {bars : List Bar} {m : Repeat} (h : ∀ x ∈ bars, ¬ Has x m) : marks bars m = [] := by
  rw [List.eq_nil_iff_forall_not_mem]
  intro t ht
  obtain ⟨x, h1, h2, _⟩ := mem_marks.1 ht
  exact h x h1 h2

/-! ## Reading is unique -/

theorem variationsFrom_inj (ts : List Nat) : ∀ (v b : Nat) (us : List Nat) (w c : Nat),
    variationsFrom v ts b = variationsFrom w us c → v = w ∧ ts = us ∧ b = c := by
  induction ts with
  | nil =>
    intro v b us w c h
    cases us with
    | nil => simp [variationsFrom] at h; simp [h]
    | cons u us =>
      cases us <;> simp [variationsFrom] at h
  | cons t ts ih =>
    intro v b us w c h
    cases us with
    | nil => cases ts <;> simp [variationsFrom] at h
    | cons u us =>
      simp only [variationsFrom, List.cons.injEq, SequenceRegion.mk.injEq] at h
      obtain ⟨h1, h2, h3⟩ := ih t b us u c h.2
      simp [h.1, h2, h3]

theorem region_inj {p q : Passage} (hp : p.Ordered) (hq : q.Ordered) (h : p.region = q.region) : p = q := by
  cases p with
  | plain a b =>
    cases q with
    | plain c d => simpa [Passage.region] using h
    | repeated c d => simp [Passage.region] at h
    | endings c us d => cases us <;> simp [Passage.region] at h
  | repeated a b =>
    cases q with
    | plain c d => simp [Passage.region] at h
    | repeated c d => simpa [Passage.region] using h
    | endings c us d => cases us <;> simp [Passage.region] at h
  | endings a ts b =>
    cases ts with
    | nil => exact hp.elim
    | cons v ts =>
      cases q with
      | plain c d => simp [Passage.region] at h
      | repeated c d => simp [Passage.region] at h
      | endings c us d =>
        cases us with
        | nil => exact hq.elim
        | cons w us =>
          simp only [Passage.region, SimpleRegion.var.injEq, SequenceRegion.mk.injEq] at h
          obtain ⟨h1, h2, h3⟩ := variationsFrom_inj _ _ _ _ _ _ h.2
          simp [h.1, h2, h3]

theorem map_region_inj {ps qs : List Passage} (hp : ∀ p ∈ ps, p.Ordered) (hq : ∀ q ∈ qs, q.Ordered)
    (h : ps.map Passage.region = qs.map Passage.region) : ps = qs := by
  induction ps generalizing qs with
  | nil => cases qs with
    | nil => rfl
    | cons q qs => simp at h
  | cons p ps ih =>
    cases qs with
    | nil => simp at h
    | cons q qs =>
      simp only [List.map_cons, List.cons.injEq] at h
      rw [region_inj (hp p (by simp)) (hq q (by simp)) h.1,
        ih (fun x hx => hp x (by simp [hx])) (fun x hx => hq x (by simp [hx])) h.2]

theorem Reads_unique {sg : Option Nat} {bars : List Bar} (hb : BarsOk bars) {ps qs : List Passage}
    (h : Reads sg .first 0 bars ps) (k : Reads sg .first 0 bars qs) : ps = qs := by
  have hc := Chain_mem (Reads_chain h (fun _ => rfl) hb (fun h => absurd rfl h)) (by decide)
  have kc := Chain_mem (Reads_chain k (fun _ => rfl) hb (fun h => absurd rfl h)) (by decide)
  refine map_region_inj (fun p hp => (hc p hp).1) (fun p hp => (kc p hp).1) ?_
  obtain ⟨rs, st, z, h1, h2, h3⟩ := (stepLoop_iff sg bars (ps.map Passage.region)).2 ⟨ps, h, rfl⟩
  obtain ⟨rs', st', z', k1, k2, k3⟩ := (stepLoop_iff sg bars (qs.map Passage.region)).2 ⟨qs, k, rfl⟩
  rw [h1] at k1
  cases k1
  rw [h2] at k2
  cases k2
  rw [h3, k3]

/-! ## Sorted lists -/

theorem filter_or_append (l : List Nat) (h : l.Pairwise (· < ·)) (a b c d : Nat) (hbc : b ≤ c) :
    l.filter (fun t => decide ((a ≤ t ∧ t < b) ∨ (c ≤ t ∧ t < d))) =
      l.filter (fun t => decide (a ≤ t ∧ t < b)) ++ l.filter (fun t => decide (c ≤ t ∧ t < d)) := by
  refine sorted_ext (h.filter _) (List.pairwise_append.2 ⟨h.filter _, h.filter _, ?_⟩) ?_
  · intro x hx y hy
    simp only [List.mem_filter, decide_eq_true_eq] at hx hy
    omega
  · intro t
    simp only [List.mem_append, List.mem_filter, decide_eq_true_eq]
    constructor
    · rintro ⟨h1, h2 | h2⟩
      · exact .inl ⟨h1, h2⟩
      · exact .inr ⟨h1, h2⟩
    · rintro (⟨h1, h2⟩ | ⟨h1, h2⟩)
      · exact ⟨h1, .inl h2⟩
      · exact ⟨h1, .inr h2⟩

theorem once_all_sorted (ps : List Passage) : ∀ a, a < U32_MAX → Chain a ps →
    (ps.flatMap Passage.once).Pairwise (· < ·) ∧ ∀ t ∈ ps.flatMap Passage.once, a ≤ t := by
  induction ps with
  | nil => intro a _ h; exact h.elim
  | cons p ps ih =>
    intro a ha h
    have hm := Chain_mem h ha p (by simp)
    have hmem : ∀ t ∈ p.once, p.start ≤ t ∧ t < p.stop := by
      intro t ht
      exact (once_count p t hm.1).2 (List.count_pos_iff.2 ht)
    cases ps with
    | nil =>
      simp only [Chain] at h
      subst h
      simp only [List.flatMap_cons, List.flatMap_nil, List.append_nil]
      exact ⟨once_sorted hm.1, fun t ht => (hmem t ht).1⟩
    | cons q ps =>
      obtain ⟨h1, h2, h3, h4⟩ := h
      obtain ⟨i1, i2⟩ := ih p.stop h3 h4
      rw [List.flatMap_cons]
      constructor
      · refine List.pairwise_append.2 ⟨once_sorted h2, i1, ?_⟩
        intro x hx y hy
        have := hmem x hx
        have := i2 y hy
        omega
      · intro t ht
        rcases List.mem_append.1 ht with ht | ht
        · have := hmem t ht
          omega
        · have := i2 t ht
          have hle : p.start ≤ p.stop := by
            cases p with
            | plain a b => rcases h2 with h | h <;> simp [Passage.start, Passage.stop] <;> omega
            | repeated a b => rcases h2 with h | h <;> simp [Passage.start, Passage.stop] <;> omega
            | endings a ts b =>
              cases ts with
              | nil => exact h2.elim
              | cons v ts =>
                have := h2.2.2.1 v (by simp)
                rcases h2.1 with h | h <;> simp [Passage.start, Passage.stop] <;> omega
          omega

end Klavier
