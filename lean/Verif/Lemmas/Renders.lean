import Verif.Lemmas.Build

/-! # Every score that renders -/
set_option autoImplicit false
namespace Klavier
open Spec

theorem seq_iter1_pos {ip : Bool} {a b : Nat} {s : IntervalSet} (h : SequenceRegion.iter1Set ip ⟨a, b⟩ = .ok s) : 0 < b := by
  rw [SequenceRegion.iter1Set, R_bind_eq_ok] at h
  obtain ⟨e, h1, _⟩ := h
  simp only [subU32] at h1
  split at h1
  · omega
  · cases h1

theorem iter1_positive {ip : Bool} {g : GlobalRepeat} {p : Passage} {cs : List Chunk} (ho : p.Ordered)
    (h : p.region.renderChunks ip (.iter1 g) = .ok cs) : p.Positive := by
  have hr : p.region.renderChunks ip (.iter1 g) = p.region.iter1Chunks ip g := by
    cases p with
    | plain a b => rfl
    | repeated a b => rfl
    | endings a ts b => cases ts <;> rfl
  rw [hr, SimpleRegion.iter1Chunks, R_bind_eq_ok] at h
  obtain ⟨s, h, _⟩ := h
  cases p with
  | plain a b => exact seq_iter1_pos h
  | repeated a b => exact seq_iter1_pos h
  | endings a ts b =>
    cases ts with
    | nil => exact ho.elim
    | cons v ts =>
      obtain ⟨o1, o2, o3, o4⟩ := ho
      simp only [Passage.region, SimpleRegion.iter1Set] at h
      rw [R_bind_eq_ok] at h
      obtain ⟨s, h, _⟩ := h
      have hv := seq_iter1_pos h
      have hb := o3 v (by simp)
      refine ⟨by omega, ?_⟩
      intro t ht
      rcases List.mem_cons.1 ht with rfl | ht
      · exact hv
      · have := (List.pairwise_cons.1 o2).1 t ht
        omega

theorem iter0_cases {ip : Bool} {d : Nat} {p : Passage} {cs : List Chunk} (ho : p.Ordered)
    (h : p.region.renderChunks ip (.iter0 d) = .ok cs) : played cs = p.upTo d ∨ played cs = [] := by
  by_cases hd : p.Outside d
  · obtain ⟨c, h1, h2⟩ := renderChunks_iter0 ip d p ho hd
    rw [h1] at h
    cases h
    exact .inl h2
  · cases p with
    | plain a b => exact absurd trivial hd
    | repeated a b =>
      simp only [Passage.Outside, Passage.start, Passage.stop] at hd
      have h1 : ¬ b ≤ d := by omega
      have h2 : ¬ (b < d ∧ d < b) := by omega
      simp only [Passage.region, SimpleRegion.renderChunks, if_neg h1, if_neg h2, Except.ok.injEq] at h
      subst h
      exact .inr rfl
    | endings a ts b =>
      cases ts with
      | nil => exact ho.elim
      | cons v ts =>
        simp only [Passage.Outside, Passage.start, Passage.stop] at hd
        have h1 : ¬ d ≤ a := by omega
        have h2 : d < b := by omega
        simp only [Passage.region, SimpleRegion.renderChunks, if_neg h1, variationsFrom_last, if_pos h2] at h
        cases h

/-- The ticks of one passage in one phase. -/
def phaseTicks (ip : Bool) (ph : RenderPhase) (p : Passage) : List Nat :=
  match p.region.renderChunks ip ph with
  | .ok cs => played cs
  | .error _ => []

theorem renderAll_phase {ip : Bool} {ph : RenderPhase} {ps : List Passage} {cs : List Chunk}
    (h : CompoundRegion.renderAll ip ph (ps.map Passage.region) = .ok cs) :
    played cs = ps.flatMap (phaseTicks ip ph) ∧ (∀ p ∈ ps, ∃ c, p.region.renderChunks ip ph = .ok c) ∧
      ∀ c ∈ cs, ∃ p ∈ ps, ∃ l, p.region.renderChunks ip ph = .ok l ∧ c ∈ l := by
  induction ps generalizing cs with
  | nil =>
    cases h
    exact ⟨rfl, by simp, by simp⟩
  | cons p ps ih =>
    rw [List.map_cons, CompoundRegion.renderAll, R_bind_eq_ok] at h
    obtain ⟨a, h1, h⟩ := h
    rw [R_bind_eq_ok] at h
    obtain ⟨b, h2, h⟩ := h
    cases h
    obtain ⟨i1, i2, i3⟩ := ih h2
    refine ⟨?_, ?_, ?_⟩
    · rw [played_append, i1, List.flatMap_cons]
      simp only [phaseTicks, h1]
    · intro q hq
      rcases List.mem_cons.1 hq with rfl | hq
      · exact ⟨a, h1⟩
      · exact i2 q hq
    · intro c hc
      rcases List.mem_append.1 hc with hc | hc
      · exact ⟨p, by simp, a, h1, hc⟩
      · obtain ⟨q, hq, r⟩ := i3 c hc
        exact ⟨q, by simp [hq], r⟩

theorem phaseTicks_iter0 (ip : Bool) (d : Nat) (p : Passage) (t : Nat) (ho : p.Ordered) :
    (phaseTicks ip (.iter0 d) p).count t ≤ 4 ∧
      (0 < (phaseTicks ip (.iter0 d) p).count t → p.start ≤ t ∧ t < p.stop) := by
  unfold phaseTicks
  split
  · rename_i cs h
    rcases iter0_cases ho h with h | h
    · rw [h]; exact upTo_count d p t ho
    · rw [h]; simp
  · simp

namespace GlobalRepeatBuilder

theorem build_some {bars : List Bar} {ip : Bool} {tune : Rhythm} {g : GlobalRepeat} {w : List RenderRegionWarning}
    (h : (builtOf tune bars).build ip = .ok (some g, w)) : jumpOf bars = some g.dsDc := by
  have key : (builtOf tune bars).dsDc = jumpOf bars := rfl
  rw [← key]
  generalize builtOf tune bars = b at h
  cases hj : b.dsDc with
  | none => simp [build, hj] at h
  | some j =>
    cases j with
    | dc t l =>
      simp only [build, hj] at h
      split at h
      · simp at h
      · rw [RR_bind_eq_ok] at h
        obtain ⟨x, _, h⟩ := h
        rw [RR_bind_eq_ok] at h
        obtain ⟨y, _, h⟩ := h
        rw [RR_bind_eq_ok] at h
        obtain ⟨z, _, h⟩ := h
        simp only [RR_pure, Except.ok.injEq, Prod.mk.injEq, Option.some.injEq] at h
        rw [← h.1]
    | ds t =>
      simp only [build, hj] at h
      rw [RR_bind_eq_ok] at h
      obtain ⟨x, _, h⟩ := h
      rw [RR_bind_eq_ok] at h
      obtain ⟨y, _, h⟩ := h
      rw [RR_bind_eq_ok] at h
      obtain ⟨z, _, h⟩ := h
      simp only [RR_pure, Except.ok.injEq, Prod.mk.injEq, Option.some.injEq] at h
      rw [← h.1]

theorem jumpOf_mem {bars : List Bar} {j : DsDc} (h : jumpOf bars = some j) :
    j.tick ∈ marks bars .Dc ∨ j.tick ∈ marks bars .Ds := by
  unfold jumpOf at h
  split at h
  · cases h
    rename_i e
    rw [e]
    exact .inl (by simp [DsDc.tick])
  · cases h
    rename_i e
    rw [e]
    exact .inr (by simp [DsDc.tick])
  · cases h

end GlobalRepeatBuilder

theorem mem_marks {bars : List Bar} {m : Repeat} {t : Nat} :
    t ∈ marks bars m ↔ ∃ x ∈ bars, Has x m ∧ x.startTick = t := by
  simp only [marks, List.mem_map, List.mem_filter, Has]
  constructor
  · rintro ⟨x, ⟨h1, h2⟩, h3⟩; exact ⟨x, h1, h2, h3⟩
  · rintro ⟨x, h1, h2, h3⟩; exact ⟨x, ⟨h1, h2⟩, h3⟩

open GlobalRepeatBuilder in
/-- Whatever renders: well formed chunks, and no tick more than five times. -/
theorem render_general {bars : List Bar} (hb : BarsOk bars) {ip : Bool} {tune : Rhythm} {c : CompoundRegion}
    {w : List RenderRegionWarning} {cs : List Chunk} (h : renderRegion ip tune bars = .ok (c, w))
    (hc : c.toChunks ip = .ok cs) : ChunksOk cs ∧ ∀ t, (played cs).count t ≤ 5 := by
  obtain ⟨hm, ⟨ps, hr, hreg⟩, hbuild⟩ := (render_ok_iff hb.1 ip tune c w).1 h
  have hch := Reads_chain hr (fun _ => rfl) hb (fun h => absurd rfl h)
  have ho := Chain_mem hch (by decide)
  cases hg : c.globalRepeat with
  | none =>
    obtain ⟨cs', h1, h2, h3⟩ := renderAll_full ip ps 0 (by decide) hch
    simp only [CompoundRegion.toChunks, hg, hreg, h1, Except.ok.injEq] at hc
    subst hc
    refine ⟨h3, fun t => ?_⟩
    rw [h2]
    have := (Chain_count Passage.full 4 t (fun p hp => full_count p t hp) ps 0 (by decide) hch).1
    omega
  | some g =>
    rw [hg] at hbuild
    have hj := jumpOf_mem (build_some hbuild)
    have hlt : g.dsDc.tick < U32_MAX := by
      rcases hj with hj | hj <;> (obtain ⟨x, h1, _, h3⟩ := mem_marks.1 hj; rw [← h3]; exact hb.2 x h1)
    simp only [CompoundRegion.toChunks, hg, hreg] at hc
    rw [R_bind_eq_ok] at hc
    obtain ⟨a, ha, hc⟩ := hc
    rw [R_bind_eq_ok] at hc
    obtain ⟨b, hbb, hc⟩ := hc
    cases hc
    obtain ⟨a1, a2, a3⟩ := renderAll_phase ha
    obtain ⟨_, b2, _⟩ := renderAll_phase hbb
    have hpos : ∀ p ∈ ps, p.Positive := by
      intro p hp
      obtain ⟨l, hl⟩ := b2 p hp
      exact iter1_positive (ho p hp).1 hl
    obtain ⟨b', k1, k2, k3⟩ := renderAll_iter1 ip g ps 0 (by decide) hch hpos
    rw [hbb] at k1
    cases k1
    refine ⟨ChunksOk_append ?_ k3, fun t => ?_⟩
    · intro x hx
      obtain ⟨p, hp, l, hl, hxl⟩ := a3 x hx
      have := iter0_bounds (ho p hp).1 hl x hxl
      exact ⟨this.1, by omega⟩
    · rw [played_append, List.count_append, a1, k2]
      have h1 := (Chain_count (phaseTicks ip (.iter0 g.dsDc.tick)) 4 t (fun p hp => phaseTicks_iter0 ip _ p t hp) ps 0
        (by decide) hch).1
      have h2 := (Chain_count Passage.once 1 t (fun p hp => once_count p t hp) ps 0 (by decide) hch).1
      have h3 : ((ps.flatMap Passage.once).filter (fun t => g.iter1.has t)).count t ≤ (ps.flatMap Passage.once).count t :=
        List.Sublist.count_le _ List.filter_sublist
      omega

end Klavier
