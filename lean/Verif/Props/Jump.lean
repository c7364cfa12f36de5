import Verif.Lemmas.Jump
import Verif.Props.Render

/-! # C29-C31: every rendered score

What is played, or that it panics, for every score that is rendered, without
further hypotheses. -/
set_option autoImplicit false
namespace Klavier
open Spec

/-- C29: a rendered score without a jump (or with a D.C. but no bar line after tick
0) plays all its passages with their repeats, without a warning. -/
theorem C29_rendered (ip : Bool) (tune : Rhythm) (bars : List Bar) (hb : BarsOk bars) (c : CompoundRegion)
    (w : List RenderRegionWarning) (h : renderRegion ip tune bars = .ok (c, w)) (hj : ∀ d target, ¬ Jump tune bars d target)
    (ps : List Passage) (hr : Reads (marks bars .Segno).head? .first 0 bars ps) :
    w = [] ∧ ∃ cs, c.toChunks ip = .ok cs ∧ played cs = ps.flatMap Passage.full := by
  obtain ⟨h1, h2, h3⟩ := no_jump_rendered hb h hj hr
  have hch := Reads_chain hr (fun _ => rfl) hb (fun h => absurd rfl h)
  obtain ⟨cs, k1, k2, _⟩ := renderAll_full ip ps 0 (by decide) hch
  exact ⟨h1, cs, by simp only [CompoundRegion.toChunks, h3, h2, k1], k2⟩

/-- A bar line that carries nothing but D.C., at tick 0. -/
example (ip : Bool) : let bars : List Bar := [⟨0, none, none, mark1 .Dc⟩]
    BarsOk bars ∧ (∀ d target, ¬ Jump ⟨4, .D4⟩ bars d target) ∧
      renderRegion ip ⟨4, .D4⟩ bars = .ok (⟨none, [.seq ⟨0, U32_MAX⟩]⟩, []) := by
  refine ⟨⟨by decide, by decide⟩, ?_, by cases ip <;> decide⟩
  rintro d target (⟨h, _⟩ | ⟨first, _, h, _⟩)
  · exact absurd h (by simp [marks, mark1, RepeatSet.set, RepeatSet.contains, RepeatSet.EMPTY])
  · exact absurd h (by simp [firstBarEnd])

/-- C30, C31: a rendered score with a jump from `d` back to `target`, with no mark
at tick 0, and with `d` not in the midst of the first passage: everything up to `d`
with its repeats; then, of the passages once through, what is in the second pass. -/
theorem C30_rendered (ip : Bool) (tune : Rhythm) (bars : List Bar) (hb : BarsOk bars) (c : CompoundRegion)
    (w : List RenderRegionWarning) (h : renderRegion ip tune bars = .ok (c, w)) (d target : Nat)
    (hj : Jump tune bars d target) (hq : QuietStart bars) (ps : List Passage)
    (hr : Reads (marks bars .Segno).head? .first 0 bars ps) (hf : ∀ p, ps.head? = some p → p.Outside d) :
    w = jumpWarnings bars ∧ ∃ cs, c.toChunks ip = .ok cs ∧ played cs = ps.flatMap (Passage.upTo d) ++
      (ps.flatMap Passage.once).filter (fun t => decide (inSecondPass target bars t)) := by
  obtain ⟨h1, h2, g, g1, rfl, g3, g4⟩ := rendered_jump hb h hj hr
  have hch := Reads_chain hr (fun _ => rfl) hb (fun h => absurd rfl h)
  have ho := Chain_mem hch (by decide)
  have hout : ∀ p ∈ ps, p.Outside g.dsDc.tick := by
    have ht := outside_tail hb hr (Jump_mem hj)
    intro p hp
    cases ps with
    | nil => simp at hp
    | cons q ps =>
      rcases List.mem_cons.1 hp with rfl | hp
      · exact hf p rfl
      · exact ht p hp
  obtain ⟨c0, a1, a2, _⟩ := renderAll_iter0 ip g.dsDc.tick ps (fun p hp => (ho p hp).1) hout
  obtain ⟨c1, b1, b2, _⟩ := renderAll_iter1 ip g ps 0 (by decide) hch (Reads_positive hr hb.1 hq)
  refine ⟨h1, c0 ++ c1, ?_, ?_⟩
  · simp only [CompoundRegion.toChunks, g1, h2, a1, R_bind_ok, b1, R_pure]
  · rw [played_append, a2, b2, g4]

example (ip : Bool) : let bars : List Bar := [⟨100, none, none, mark1 .Segno⟩, ⟨150, none, none, mark1 .Fine⟩, ⟨200, none, none, mark1 .Ds⟩]
    BarsOk bars ∧ QuietStart bars ∧ Jump ⟨4, .D4⟩ bars 200 100 ∧
      (∃ c, renderRegion ip ⟨4, .D4⟩ bars = .ok (c, [])) ∧
      Reads (marks bars .Segno).head? .first 0 bars [.plain 0 U32_MAX] ∧ (Passage.plain 0 U32_MAX).Outside 200 := by
  refine ⟨⟨by decide, by decide⟩, by unfold QuietStart; decide, .inl ⟨by decide, by decide⟩,
    ⟨⟨some ⟨.ds 200, some 150, 100, none, [(100, 149)]⟩, [.seq ⟨0, U32_MAX⟩]⟩, ?_⟩, Reads.last (by decide) (by simp [Quiet]; decide), trivial⟩
  cases ip <;> decide

/-- C30: with the jump in the midst of a first passage that is repeated (and begun
without a Start), there is no first pass at all: only the second is played. -/
theorem C30_inside_repeat (ip : Bool) (tune : Rhythm) (bars : List Bar) (hb : BarsOk bars) (c : CompoundRegion)
    (w : List RenderRegionWarning) (h : renderRegion ip tune bars = .ok (c, w)) (d target : Nat)
    (hj : Jump tune bars d target) (hq : QuietStart bars) (b : Nat) (ps : List Passage)
    (hr : Reads (marks bars .Segno).head? .first 0 bars (.repeated 0 b :: ps)) (hd : 0 < d ∧ d < b) :
    w = jumpWarnings bars ∧ ∃ cs, c.toChunks ip = .ok cs ∧ played cs =
      ((Passage.repeated 0 b :: ps).flatMap Passage.once).filter (fun t => decide (inSecondPass target bars t)) := by
  obtain ⟨h1, h2, g, g1, rfl, g3, g4⟩ := rendered_jump hb h hj hr
  have hch := Reads_chain hr (fun _ => rfl) hb (fun h => absurd rfl h)
  have ho := Chain_mem hch (by decide)
  obtain ⟨c0, a1, a2, _⟩ := renderAll_iter0 ip g.dsDc.tick ps (fun p hp => (ho p (by simp [hp])).1)
    (outside_tail hb hr (Jump_mem hj))
  obtain ⟨c1, b1, b2, _⟩ := renderAll_iter1 ip g _ 0 (by decide) hch (Reads_positive hr hb.1 hq)
  have hn : played c0 = [] := by
    cases ps with
    | nil => simpa using a2
    | cons q ps =>
      rw [a2]
      exact upTo_after hch.2.2.1 hch.2.2.2 hd.2
  have hr0 : (Passage.repeated 0 b).region.renderChunks ip (.iter0 g.dsDc.tick) = .ok [] := by
    simp only [Passage.region, SimpleRegion.renderChunks]
    rw [if_neg (by omega), if_neg (by omega)]
  have a1' : CompoundRegion.renderAll ip (.iter0 g.dsDc.tick) ((Passage.repeated 0 b :: ps).map Passage.region) = .ok c0 := by
    simp only [List.map_cons, CompoundRegion.renderAll, hr0, a1, R_bind_ok, R_pure, List.nil_append]
  refine ⟨h1, c0 ++ c1, ?_, ?_⟩
  · simp only [CompoundRegion.toChunks, g1, h2, a1', R_bind_ok, b1, R_pure]
  · rw [played_append, hn, b2, g4, List.nil_append]

example (ip : Bool) : let bars : List Bar := [⟨100, none, none, mark1 .Segno⟩, ⟨150, none, none, mark1 .Ds⟩, ⟨200, none, none, mark1 .End⟩]
    BarsOk bars ∧ Jump ⟨4, .D4⟩ bars 150 100 ∧ QuietStart bars ∧ (∃ c, renderRegion ip ⟨4, .D4⟩ bars = .ok (c, [])) ∧
      Reads (marks bars .Segno).head? .first 0 bars [.repeated 0 200, .plain 200 U32_MAX] := by
  refine ⟨⟨by decide, by decide⟩, .inl ⟨by decide, by decide⟩, by unfold QuietStart; decide, ?_, ?_⟩
  · refine ⟨⟨some ⟨.ds 150, none, 100, none, [(100, U32_MAX - 1)]⟩, [.rep ⟨0, 200⟩, .seq ⟨200, U32_MAX⟩]⟩, ?_⟩
    cases ip <;> decide
  · exact Reads.close (inside := [⟨100, none, none, mark1 .Segno⟩, ⟨150, none, none, mark1 .Ds⟩]) (x := ⟨200, none, none, mark1 .End⟩)
      (by decide) (by decide) (by decide) (Reads.last (by decide) (by simp))

/-- C30: with the jump in the midst of a first passage with endings (begun without a
Start), making the chunks panics ("Logic error"). -/
theorem C30_inside_endings (ip : Bool) (tune : Rhythm) (bars : List Bar) (hb : BarsOk bars) (c : CompoundRegion)
    (w : List RenderRegionWarning) (h : renderRegion ip tune bars = .ok (c, w)) (d target : Nat)
    (hj : Jump tune bars d target) (ts : List Nat) (b : Nat) (ps : List Passage)
    (hr : Reads (marks bars .Segno).head? .first 0 bars (.endings 0 ts b :: ps)) (hd : 0 < d ∧ d < b) :
    c.toChunks ip = .error .explicit := by
  obtain ⟨h1, h2, g, g1, rfl, g3, g4⟩ := rendered_jump hb h hj hr
  have hch := Reads_chain hr (fun _ => rfl) hb (fun h => absurd rfl h)
  have ho := (Chain_mem hch (by decide) _ List.mem_cons_self).1
  cases ts with
  | nil => exact ho.elim
  | cons v ts =>
    have hr0 : (Passage.endings 0 (v :: ts) b).region.renderChunks ip (.iter0 g.dsDc.tick) = .error .explicit := by
      simp only [Passage.region, SimpleRegion.renderChunks, variationsFrom_last]
      rw [if_neg (by omega), if_pos hd.2]
    simp only [CompoundRegion.toChunks, g1, h2, List.map_cons, CompoundRegion.renderAll, hr0, R_bind_error]

example (ip : Bool) : let bars : List Bar := [⟨100, none, none, mark1 .Segno⟩, ⟨150, none, none, mark1 .Ds⟩, ⟨200, none, none, mark1 .Var1⟩,
      ⟨300, none, none, mark1 .Var2⟩, ⟨400, none, none, {}⟩]
    BarsOk bars ∧ Jump ⟨4, .D4⟩ bars 150 100 ∧
      ∃ c, renderRegion ip ⟨4, .D4⟩ bars = .ok (c, []) ∧ c.toChunks ip = .error .explicit := by
  refine ⟨⟨by decide, by decide⟩, .inl ⟨by decide, by decide⟩, ⟨some ⟨.ds 150, none, 100, none, [(100, U32_MAX - 1)]⟩,
    [.var ⟨0, 200⟩ [⟨200, 300⟩, ⟨300, 400⟩], .seq ⟨400, U32_MAX⟩]⟩, ?_, ?_⟩ <;> cases ip <;> decide

/-- C30: with a Start, End or ending mark at tick 0 and a jump, making the chunks
panics. -/
theorem C30_mark_at_zero (ip : Bool) (tune : Rhythm) (bars : List Bar) (hb : BarsOk bars) (c : CompoundRegion)
    (w : List RenderRegionWarning) (h : renderRegion ip tune bars = .ok (c, w)) (d target : Nat)
    (hj : Jump tune bars d target) (hq : ¬ QuietStart bars) : ∃ p, c.toChunks ip = .error p := by
  obtain ⟨ps, hr, _⟩ := C29_reads_uniquely ip tune bars hb c w h
  obtain ⟨h1, h2, g, g1, rfl, g3, g4⟩ := rendered_jump hb h hj hr
  have hch := Reads_chain hr (fun _ => rfl) hb (fun h => absurd rfl h)
  have ho := Chain_mem hch (by decide)
  obtain ⟨p, hp, hn⟩ := Reads_not_positive hr hb.1 hq
  cases hc : c.toChunks ip with
  | error q => exact ⟨q, rfl⟩
  | ok cs =>
    simp only [CompoundRegion.toChunks, g1, h2] at hc
    rw [R_bind_eq_ok] at hc
    obtain ⟨a, _, hc⟩ := hc
    rw [R_bind_eq_ok] at hc
    obtain ⟨b, hbb, _⟩ := hc
    obtain ⟨_, b2, _⟩ := renderAll_phase hbb
    obtain ⟨l, hl⟩ := b2 p hp
    exact absurd (iter1_positive (ho p hp).1 hl) hn

example (ip : Bool) : let bars : List Bar := [⟨0, none, none, mark1 .Start⟩, ⟨100, none, none, mark1 .End⟩, ⟨200, none, none, mark1 .Segno⟩,
      ⟨300, none, none, mark1 .Ds⟩]
    BarsOk bars ∧ Jump ⟨4, .D4⟩ bars 300 200 ∧ ¬ QuietStart bars ∧ ∃ c, renderRegion ip ⟨4, .D4⟩ bars = .ok (c, []) := by
  refine ⟨⟨by decide, by decide⟩, .inl ⟨by decide, by decide⟩, by unfold QuietStart; decide,
    ⟨some ⟨.ds 300, none, 200, none, [(200, U32_MAX - 1)]⟩, [.seq ⟨0, 0⟩, .rep ⟨0, 100⟩, .seq ⟨100, U32_MAX⟩]⟩, ?_⟩
  cases ip <;> decide

/-- C30: so chunks are made of a rendered score with a jump exactly if no mark is at
tick 0 and the jump is not in the midst of endings begun without a Start. -/
theorem C30_playable_iff (ip : Bool) (tune : Rhythm) (bars : List Bar) (hb : BarsOk bars) (c : CompoundRegion)
    (w : List RenderRegionWarning) (h : renderRegion ip tune bars = .ok (c, w)) (d target : Nat)
    (hj : Jump tune bars d target) (p : Passage) (ps : List Passage)
    (hr : Reads (marks bars .Segno).head? .first 0 bars (p :: ps)) :
    (∃ cs, c.toChunks ip = .ok cs) ↔ QuietStart bars ∧ ∀ ts b, p = .endings 0 ts b → ¬ (0 < d ∧ d < b) := by
  constructor
  · rintro ⟨cs, hc⟩
    refine ⟨Classical.byContradiction fun hq => ?_, ?_⟩
    · obtain ⟨q, e⟩ := C30_mark_at_zero ip tune bars hb c w h d target hj hq
      rw [hc] at e
      cases e
    · rintro ts b rfl hd
      rw [C30_inside_endings ip tune bars hb c w h d target hj ts b ps hr hd] at hc
      cases hc
  · rintro ⟨hq, he⟩
    have h0 : p.start = 0 := by
      have hch := Reads_chain hr (fun _ => rfl) hb (fun h => absurd rfl h)
      cases ps with
      | nil =>
        simp only [Chain] at hch
        subst hch
        rfl
      | cons q ps => exact hch.1
    by_cases ho : p.Outside d
    · obtain ⟨_, cs, k, _⟩ := C30_rendered ip tune bars hb c w h d target hj hq _ hr (by intro q e; cases e; exact ho)
      exact ⟨cs, k⟩
    · cases p with
      | plain a b => exact absurd trivial ho
      | repeated a b =>
        cases h0
        simp only [Passage.Outside, Passage.start, Passage.stop] at ho
        obtain ⟨_, cs, k, _⟩ := C30_inside_repeat ip tune bars hb c w h d target hj hq b ps hr ⟨by omega, by omega⟩
        exact ⟨cs, k⟩
      | endings a ts b =>
        cases h0
        simp only [Passage.Outside, Passage.start, Passage.stop] at ho
        exact absurd ⟨by omega, by omega⟩ (he ts b rfl)

example (ip : Bool) : let bars : List Bar := [⟨100, none, none, mark1 .Segno⟩, ⟨150, none, none, mark1 .Ds⟩, ⟨200, none, none, mark1 .End⟩]
    Reads (marks bars .Segno).head? .first 0 bars [.repeated 0 200, .plain 200 U32_MAX] ∧
      ∃ c, renderRegion ip ⟨4, .D4⟩ bars = .ok (c, []) ∧ ∃ cs, c.toChunks ip = .ok cs := by
  refine ⟨Reads.close (inside := [⟨100, none, none, mark1 .Segno⟩, ⟨150, none, none, mark1 .Ds⟩]) (x := ⟨200, none, none, mark1 .End⟩)
      (by decide) (by decide) (by decide) (Reads.last (by decide) (by simp)),
    ⟨some ⟨.ds 150, none, 100, none, [(100, U32_MAX - 1)]⟩, [.rep ⟨0, 200⟩, .seq ⟨200, U32_MAX⟩]⟩, ?_,
    [⟨100, 200⟩, ⟨200, U32_MAX⟩], ?_⟩ <;> cases ip <;> decide

/-- C31: with two Codas, what is before the first is played on the second pass, then
what is from the second on. -/
theorem C31_rendered (ip : Bool) (tune : Rhythm) (bars : List Bar) (hb : BarsOk bars) (c : CompoundRegion)
    (w : List RenderRegionWarning) (h : renderRegion ip tune bars = .ok (c, w)) (d target : Nat)
    (hj : Jump tune bars d target) (hq : QuietStart bars) (ps : List Passage)
    (hr : Reads (marks bars .Segno).head? .first 0 bars ps) (hf : ∀ p, ps.head? = some p → p.Outside d) (leave resume : Nat)
    (hc : marks bars .Coda = [leave, resume]) :
    0 < leave ∧ leave < resume ∧ resume ≤ endTick bars ∧ ∃ cs, c.toChunks ip = .ok cs ∧
      played cs = ps.flatMap (Passage.upTo d) ++
        ((ps.flatMap Passage.once).filter (fun t => decide (target ≤ t ∧ t < leave)) ++
         (ps.flatMap Passage.once).filter (fun t => decide (resume ≤ t ∧ t < endTick bars))) := by
  have hsort := GlobalRepeatBuilder.marks_sorted hb.1 .Coda
  simp only [hc, List.pairwise_cons, List.mem_singleton, forall_eq] at hsort
  have hch := Reads_chain hr (fun _ => rfl) hb (fun h => absurd rfl h)
  obtain ⟨hm, _, hbuild⟩ := (render_ok_iff hb.1 ip tune c w).1 h
  have hok := GlobalRepeatBuilder.build_ok hb hm hbuild
  have hco : 0 < leave ∧ resume ≤ endTick bars := by
    rcases hj with ⟨h1, h2⟩ | ⟨first, h1, h2, h3⟩
    · obtain ⟨s, _, _, k⟩ := hok.1 d h1
      simp only [CodasOk, hc] at k
      exact ⟨k.1, k.2.1⟩
    · obtain ⟨_, k⟩ := hok.2 d first h1 h2
      simp only [CodasOk, hc] at k
      exact ⟨k.1, k.2.1⟩
  obtain ⟨_, cs, k1, k2⟩ := C30_rendered ip tune bars hb c w h d target hj hq ps hr hf
  simp only [inSecondPass, hc] at k2
  rw [filter_or_append _ (once_all_sorted ps 0 (by decide) hch).1 _ _ _ _ (Nat.le_of_lt hsort.1)] at k2
  exact ⟨hco.1, hsort.1, hco.2, cs, k1, k2⟩

example (ip : Bool) : let bars : List Bar := [⟨100, none, none, mark1 .Segno⟩, ⟨200, none, none, mark1 .Coda⟩,
      ⟨300, none, none, mark1 .Ds⟩, ⟨400, none, none, mark1 .Coda⟩, ⟨500, none, none, mark1 .Fine⟩]
    BarsOk bars ∧ QuietStart bars ∧ Jump ⟨4, .D4⟩ bars 300 100 ∧ marks bars .Coda = [200, 400] ∧
      (∃ c, renderRegion ip ⟨4, .D4⟩ bars = .ok (c, [])) ∧
      Reads (marks bars .Segno).head? .first 0 bars [.plain 0 U32_MAX] ∧ (Passage.plain 0 U32_MAX).Outside 300 := by
  refine ⟨⟨by decide, by decide⟩, by unfold QuietStart; decide, .inl ⟨by decide, by decide⟩, by decide,
    ⟨⟨some ⟨.ds 300, some 500, 100, some (200, 400), [(100, 199), (400, 499)]⟩, [.seq ⟨0, U32_MAX⟩]⟩, ?_⟩,
    Reads.last (by decide) (by simp [Quiet]; decide), trivial⟩
  cases ip <;> decide

/-- C30: what is recorded of the jump: D.S. or D.C. with its tick (for a D.C. not at
tick 0 also where the first bar ends), Fine, where the jump goes, the Codas if they
are two, and the ticks of the second pass. -/
theorem C30_recorded (ip : Bool) (tune : Rhythm) (bars : List Bar) (hb : BarsOk bars) (c : CompoundRegion)
    (w : List RenderRegionWarning) (h : renderRegion ip tune bars = .ok (c, w)) (d target : Nat)
    (hj : Jump tune bars d target) :
    ∃ g, c.globalRepeat = some g ∧ g.segno = target ∧
      (marks bars .Ds = [d] → g.dsDc = .ds d) ∧ (marks bars .Dc = [0] → g.dsDc = .dc 0 0) ∧
      (∀ first, marks bars .Dc = [d] → 0 < d → firstBarEnd bars = some first → g.dsDc = .dc d first) ∧
      (∀ f, g.fine = some f ↔ marks bars .Fine = [f]) ∧
      (∀ x y, g.coda = some (x, y) ↔ marks bars .Coda = [x, y]) ∧
      (∀ t, g.iter1.has t = true ↔ inSecondPass target bars t) := by
  obtain ⟨hm, _, hbuild⟩ := (render_ok_iff hb.1 ip tune c w).1 h
  obtain ⟨S, g1, g2⟩ := jump_build_all hb hm (GlobalRepeatBuilder.build_ok hb hm hbuild) hj
  rw [g1] at hbuild
  simp only [Except.ok.injEq, Prod.mk.injEq] at hbuild
  have hl := hm.1
  refine ⟨_, hbuild.1.symm, rfl, ?_, ?_, ?_, ?_, ?_, ?_⟩
  · intro hd
    rw [hd] at hl
    have : marks bars .Dc = [] := by
      rw [← List.length_eq_zero_iff]
      simp only [List.length_singleton] at hl
      omega
    simp only [dsDcOf, this]
  · intro hd
    have : d = 0 := by
      rcases hj with ⟨a, _⟩ | ⟨_, a, _⟩
      · rw [hd, a] at hl; simp at hl
      · rw [hd] at a; cases a; rfl
    simp only [dsDcOf, hd, this, if_true]
  · intro first hd h0 hf
    simp only [dsDcOf, hd, hf, Option.getD_some]
    rw [if_neg (by omega)]
  · intro f
    have h1 := hm.2.1
    show (marks bars .Fine).head? = some f ↔ _
    generalize marks bars .Fine = l at h1 ⊢
    match l with
    | [] => simp
    | [a] => simp
    | a :: b :: l => simp at h1
  · intro x y
    show GlobalRepeatBuilder.codaPair bars = some (x, y) ↔ _
    unfold GlobalRepeatBuilder.codaPair
    generalize marks bars .Coda = l
    match l with
    | [] => simp
    | [a] => simp
    | [a, b] => simp
    | a :: b :: c :: l => simp
  · intro t
    have := congrFun g2 t
    rw [show S.has t = decide (inSecondPass target bars t) from this, decide_eq_true_eq]

example (ip : Bool) : let bars : List Bar := [⟨960, none, none, {}⟩, ⟨1920, none, none, mark1 .Fine⟩, ⟨2880, none, none, mark1 .Dc⟩]
    BarsOk bars ∧ Jump ⟨4, .D4⟩ bars 2880 0 ∧ firstBarEnd bars = some 960 ∧
      renderRegion ip ⟨4, .D4⟩ bars = .ok (⟨some ⟨.dc 2880 960, some 1920, 0, none, [(0, 1919)]⟩, [.seq ⟨0, U32_MAX⟩]⟩, []) := by
  refine ⟨⟨by decide, by decide⟩, .inr ⟨960, by decide, by decide, by decide⟩, by decide, ?_⟩
  cases ip <;> decide

/-- C29, C30: the ticks a whole rendered score reports for its last pass: what is
played once through, with a jump only what is in the second pass. -/
theorem C30_last_pass (ip : Bool) (tune : Rhythm) (bars : List Bar) (hb : BarsOk bars) (c : CompoundRegion)
    (w : List RenderRegionWarning) (h : renderRegion ip tune bars = .ok (c, w)) (hq : QuietStart bars) (ps : List Passage)
    (hr : Reads (marks bars .Segno).head? .first 0 bars ps) :
    ∃ s, c.iter1Set ip = .ok s ∧ ∀ t, s.has t = true ↔
      t ∈ ps.flatMap Passage.once ∧ ∀ d target, Jump tune bars d target → inSecondPass target bars t := by
  have hch := Reads_chain hr (fun _ => rfl) hb (fun h => absurd rfl h)
  have ho := Chain_mem hch (by decide)
  obtain ⟨u, u1, u2, u3⟩ := unionAll_ok ip (fun p hp => (ho p hp).1) (Reads_positive hr hb.1 hq) [] IntervalSet.normal_nil
  have hu : ∀ t, u.has t = true ↔ t ∈ ps.flatMap Passage.once := by
    intro t
    rw [u3]
    simp [IntervalSet.has]
  by_cases hj : ∃ d target, Jump tune bars d target
  · obtain ⟨d, target, hj⟩ := hj
    obtain ⟨hm, _⟩ := (render_ok_iff hb.1 ip tune c w).1 h
    obtain ⟨h1, h2, g, g1, rfl, g3, g4⟩ := rendered_jump hb h hj hr
    refine ⟨u.inter g.iter1, by simp only [CompoundRegion.iter1Set, h2, u1, R_bind_ok, g1, R_pure], ?_⟩
    intro t
    rw [(IntervalSet.inter_spec u g.iter1).2, hu]
    have e : g.iter1.has t = true ↔ inSecondPass target bars t := by
      have := congrFun g4 t
      rw [show g.iter1.has t = decide (inSecondPass target bars t) from this, decide_eq_true_eq]
    rw [e]
    constructor
    · rintro ⟨a, b⟩
      refine ⟨a, fun d' t' hj' => ?_⟩
      rw [← (Jump_unique hm hj hj').2]
      exact b
    · rintro ⟨a, b⟩
      exact ⟨a, b _ _ hj⟩
  · have hn : ∀ d target, ¬ Jump tune bars d target := fun d target k => hj ⟨d, target, k⟩
    obtain ⟨h1, h2, h3⟩ := no_jump_rendered hb h hn hr
    refine ⟨u, by simp only [CompoundRegion.iter1Set, h2, u1, R_bind_ok, h3, R_pure], ?_⟩
    intro t
    rw [hu]
    exact ⟨fun a => ⟨a, fun d t k => absurd k (hn d t)⟩, fun a => a.1⟩

/-- Segno at 100, D.S. at 200, Fine at 150. -/
example (ip : Bool) : let bars : List Bar := [⟨100, none, none, mark1 .Segno⟩, ⟨150, none, none, mark1 .Fine⟩, ⟨200, none, none, mark1 .Ds⟩]
    BarsOk bars ∧ QuietStart bars ∧
      (renderRegion ip ⟨4, .D4⟩ bars = .ok (⟨some ⟨.ds 200, some 150, 100, none, [(100, 149)]⟩, [.seq ⟨0, U32_MAX⟩]⟩, [])) ∧
      CompoundRegion.iter1Set ip ⟨some ⟨.ds 200, some 150, 100, none, [(100, 149)]⟩, [.seq ⟨0, U32_MAX⟩]⟩ = .ok [(100, 149)] := by
  refine ⟨⟨by decide, by decide⟩, by unfold QuietStart; decide, ?_, ?_⟩ <;> cases ip <;> decide

/-! D.S. at 150, inside the first repeat (closed at 200) of a score with Segno at
100: renders, and `C30_inside_repeat` applies. -/

example (ip : Bool) : let bars : List Bar := [⟨100, none, none, mark1 .Segno⟩, ⟨150, none, none, mark1 .Ds⟩, ⟨200, none, none, mark1 .End⟩]
    BarsOk bars ∧ Jump ⟨4, .D4⟩ bars 150 100 ∧ QuietStart bars ∧ (∃ c, renderRegion ip ⟨4, .D4⟩ bars = .ok (c, [])) ∧
      Reads (marks bars .Segno).head? .first 0 bars [.repeated 0 200, .plain 200 U32_MAX] := by
  refine ⟨⟨by decide, by decide⟩, .inl ⟨by decide, by decide⟩, by unfold QuietStart; decide, ?_, ?_⟩
  · refine ⟨⟨some ⟨.ds 150, none, 100, none, [(100, U32_MAX - 1)]⟩, [.rep ⟨0, 200⟩, .seq ⟨200, U32_MAX⟩]⟩, ?_⟩
    cases ip <;> decide
  · exact Reads.close (inside := [⟨100, none, none, mark1 .Segno⟩, ⟨150, none, none, mark1 .Ds⟩]) (x := ⟨200, none, none, mark1 .End⟩)
      (by decide) (by decide) (by decide) (Reads.last (by decide) (by simp))

end Klavier
