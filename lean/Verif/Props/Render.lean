import Verif.Lemmas.Notate

/-! # C28-C31, C33, C49, C50: the playing order -/
set_option autoImplicit false
namespace Klavier
open Spec

/-! ## C28 -/

/-- Without any repeat mark the score is played once from tick 0 to the end,
whatever the bars (in any order). -/
theorem C28_straight (ip : Bool) (tune : Rhythm) (bars : List Bar) (h : ∀ x ∈ bars, ∀ m, ¬ Has x m) :
    Plays ip tune bars [] (span 0 U32_MAX) := by
  have loop : ∀ (bars : List Bar) (g : GlobalRepeatBuilder), g.dsDc = none → g.warnings = [] →
      (∀ x ∈ bars, ∀ m, ¬ Has x m) → ∃ g', renderLoop g .idle bars = .ok (g', [], .idle) ∧ g'.dsDc = none ∧ g'.warnings = [] := by
    intro bars
    induction bars with
    | nil => intro g h1 h2 _; exact ⟨g, rfl, h1, h2⟩
    | cons x xs ih =>
      intro g h1 h2 hx
      have hn : ∀ m, x.repeats.contains m = false := fun m => by simpa [Has] using hx x (by simp) m
      have hb : g.onBar x = .ok (g.noteFirstBar x) := by
        simp [GlobalRepeatBuilder.onBar, GlobalRepeatBuilder.addIf, hn, RR_bind_ok]
      have hd : (g.noteFirstBar x).dsDc = none ∧ (g.noteFirstBar x).warnings = [] := by
        unfold GlobalRepeatBuilder.noteFirstBar
        split
        · exact ⟨h1, h2⟩
        · split
          · split <;> exact ⟨h1, h2⟩
          · exact ⟨h1, h2⟩
      obtain ⟨g', k1, k2, k3⟩ := ih _ hd.1 hd.2 (fun y hy => hx y (by simp [hy]))
      have hs : renderStep (g.noteFirstBar x).segno .idle x = .ok ([], .idle) := by
        simp [renderStep, hn, RepeatSet.regionIndex]
      exact ⟨g', by simp only [renderLoop, hb, RR_bind_ok, hs, k1, RR_pure, List.nil_append], k2, k3⟩
  obtain ⟨g, k1, k2, k3⟩ := loop bars (GlobalRepeatBuilder.new tune) rfl rfl h
  refine ⟨⟨none, [.seq ⟨0, U32_MAX⟩]⟩, [⟨0, U32_MAX⟩], ?_, rfl, ?_⟩
  · simp only [renderRegion, k1, RR_bind_ok, GlobalRepeatBuilder.build, k2, k3, RR_pure, List.nil_append]
  · simp [played]

example : ∀ x ∈ [{ startTick := 960 }, ({ startTick := 480 } : Bar)], ∀ m, ¬ Has x m := by
  intro x hx m
  simp only [List.mem_cons, List.not_mem_nil, or_false] at hx
  rcases hx with rfl | rfl <;> cases m <;> decide

/-- The same with marks that do not move the player: Fine, Segno and Codas without
D.C. or D.S. -/
theorem C28_no_jump (ip : Bool) (tune : Rhythm) (bars : List Bar) (hb : BarsOk bars) (hm : MarksOk bars)
    (h : ∀ x ∈ bars, ¬ Has x .Start ∧ ¬ Has x .End ∧ endingNo x = none) (h1 : marks bars .Dc = []) (h2 : marks bars .Ds = []) :
    Plays ip tune bars [] (span 0 U32_MAX) := by
  obtain ⟨c, cs, k1, k2, k3, _⟩ := play_straight hb ip tune hm (Reads.last (by simp) h) (GlobalRepeatBuilder.build_none ip tune h1 h2)
  exact ⟨c, cs, k1, k2, by simpa [Passage.full] using k3⟩

example : let bars : List Bar := [{ startTick := 0, repeats := RepeatSet.EMPTY.set .Segno true },
      { startTick := 960, repeats := RepeatSet.EMPTY.set .Fine true }]
    BarsOk bars ∧ MarksOk bars ∧ (∀ x ∈ bars, ¬ Has x .Start ∧ ¬ Has x .End ∧ endingNo x = none) ∧ marks bars .Dc = [] ∧
      marks bars .Ds = [] := by
  refine ⟨⟨by simp, by decide⟩, by unfold MarksOk; decide, by decide, by decide, by decide⟩

/-! ## C29 -/

/-- A score that reads as a sequence of passages, without D.C. or D.S., plays each
plain passage once, each repeated one twice, and the common part before each
ending in turn. -/
theorem C29_plays (ip : Bool) (tune : Rhythm) (bars : List Bar) (ps : List Passage) (hb : BarsOk bars) (hm : MarksOk bars)
    (h1 : marks bars .Dc = []) (h2 : marks bars .Ds = []) (hr : Reads (marks bars .Segno).head? .first 0 bars ps) :
    Plays ip tune bars [] (ps.flatMap Passage.full) := by
  obtain ⟨c, cs, k1, k2, k3, _⟩ := play_straight hb ip tune hm hr (GlobalRepeatBuilder.build_none ip tune h1 h2)
  exact ⟨c, cs, k1, k2, k3⟩

example : let bars : List Bar := [⟨100, none, none, mark1 .Start⟩, ⟨200, none, none, mark1 .End⟩]
    BarsOk bars ∧ MarksOk bars ∧ marks bars .Dc = [] ∧ marks bars .Ds = [] ∧
      Reads (marks bars .Segno).head? .first 0 bars [.plain 0 100, .repeated 100 200, .plain 200 U32_MAX] := by
  refine ⟨⟨by decide, by decide⟩, by unfold MarksOk; decide, by decide, by decide, ?_⟩
  refine Reads.start (inside := []) (x := ⟨100, none, none, mark1 .Start⟩) (by decide) (by simp) (by decide) (by decide) ?_
  exact Reads.close (inside := []) (x := ⟨200, none, none, mark1 .End⟩) (by decide) (by simp) (by decide) (Reads.last (by decide) (by simp))

/-- Every piece composed of plain passages, repeated passages and passages with
one to four endings, of any positive lengths, can be written down, and is then
played as composed. -/
theorem C29_every_piece (ip : Bool) (tune : Rhythm) (ps : List Passage) (h : Piece 0 ps) :
    BarsOk (notate ps) ∧ Plays ip tune (notate ps) [] (ps.flatMap Passage.full) := by
  cases ps with
  | nil => exact h.elim
  | cons p ps =>
    have hb := notate_barsOk h
    have hn : ∀ m, (m = .Dc ∨ m = .Ds ∨ m = .Fine ∨ m = .Segno ∨ m = .Coda) → marks (notate (p :: ps)) m = [] :=
      fun m hm => marks_nil (notate_has m hm ps p 0 h)
    refine ⟨hb, C29_plays ip tune _ _ hb ?_ (hn _ (by simp)) (hn _ (by simp)) ?_⟩
    · simp [MarksOk, hn]
    · rw [hn .Segno (by simp)]
      exact notate_reads ps p 0 .first h (.inl rfl)

example : Piece 0 [.plain 0 100, .repeated 100 200, .repeated 200 350, .endings 350 [400, 500, 600] 700, .plain 700 U32_MAX] := by
  simp [Piece, Passage.start, Passage.stop, Passage.Proper, Passage.IsPlain, U32_MAX]

/-- A score that renders does read as a sequence of passages, and in one way only. -/
theorem C29_reads_uniquely (ip : Bool) (tune : Rhythm) (bars : List Bar) (hb : BarsOk bars) (c : CompoundRegion)
    (w : List RenderRegionWarning) (h : renderRegion ip tune bars = .ok (c, w)) :
    ∃ ps, Reads (marks bars .Segno).head? .first 0 bars ps ∧
      ∀ qs, Reads (marks bars .Segno).head? .first 0 bars qs → qs = ps := by
  obtain ⟨_, ⟨ps, hr, _⟩, _⟩ := (render_ok_iff hb.1 ip tune c w).1 h
  exact ⟨ps, hr, fun qs hq => Reads_unique hb hq hr⟩

example : notate [.plain 0 100, .repeated 100 200, .endings 200 [300, 400] 500, .plain 500 U32_MAX] =
    [{ startTick := 100, repeats := RepeatSet.EMPTY.set .Start true },
      { startTick := 200, repeats := (RepeatSet.EMPTY.set .End true).set .Start true },
      { startTick := 300, repeats := RepeatSet.EMPTY.set .Var1 true },
      { startTick := 400, repeats := RepeatSet.EMPTY.set .Var2 true },
      { startTick := 500 }] := by decide

/-! ## C30 and C31 -/

/-- The jump of a score, and where it goes. -/
private theorem outside_all {bars : List Bar} {ps : List Passage} {sg : Option Nat} {d : Nat} (hb : BarsOk bars)
    (hr : Reads sg .first 0 bars ps) (hd : d ∈ marks bars .Dc ∨ d ∈ marks bars .Ds)
    (hf : ∀ p, ps.head? = some p → p.Outside d) : ∀ p ∈ ps, p.Outside d := by
  have hy : ∃ y ∈ bars, (Has y .Dc ∨ Has y .Ds) ∧ y.startTick = d := by
    rcases hd with hd | hd <;> obtain ⟨y, h1, h2, h3⟩ := mem_marks.1 hd
    · exact ⟨y, h1, .inl h2, h3⟩
    · exact ⟨y, h1, .inr h2, h3⟩
  obtain ⟨y, h1, h2, rfl⟩ := hy
  have ht := (Reads_outside hr hb).1 y h1 h2
  intro p hp
  cases ps with
  | nil => simp at hp
  | cons q ps =>
    rcases List.mem_cons.1 hp with rfl | hp
    · exact hf p rfl
    · exact ht p hp

private theorem tick_lt {bars : List Bar} (hb : BarsOk bars) {m : Repeat} {d : Nat} (h : d ∈ marks bars m) : d < U32_MAX := by
  obtain ⟨x, h1, _, rfl⟩ := mem_marks.1 h
  exact hb.2 x h1

private theorem ds_plays {ip : Bool} {tune : Rhythm} {bars : List Bar} {ps : List Passage} {d s : Nat} (hb : BarsOk bars)
    (hm : MarksOk bars) (hq : QuietStart bars) (h1 : marks bars .Ds = [d]) (h2 : marks bars .Segno = [s])
    (hco : marks bars .Coda = [] ∨ ∃ f t, marks bars .Coda = [f, t]) (hc : CodasOk ip s bars)
    (hr : Reads (some s) .first 0 bars ps) (hf : ∀ p, ps.head? = some p → p.Outside d) :
    Plays ip tune bars [] (ps.flatMap (Passage.upTo d) ++
      (ps.flatMap Passage.once).filter (fun t => decide (inSecondPass s bars t))) := by
  have hdc : marks bars .Dc = [] := by
    have := hm.1
    rw [h1] at this
    rw [← List.length_eq_zero_iff]
    simp only [List.length_singleton] at this
    omega
  obtain ⟨g, g1, g2, g3⟩ := GlobalRepeatBuilder.build_ds hb.1 ip tune hdc h1 h2 hco hc
  have hdm : d ∈ marks bars .Ds := by simp [h1]
  obtain ⟨c, cs, k1, k2, k3, _⟩ := play_jump hb ip tune hm (by rw [h2]; exact hr) g1 hq
    (by rw [g2]; exact outside_all hb hr (.inr hdm) hf) (by rw [g2]; exact tick_lt hb hdm)
  rw [g2, g3] at k3
  exact ⟨c, cs, k1, k2, k3⟩

private theorem dc_plays {ip : Bool} {tune : Rhythm} {bars : List Bar} {ps : List Passage} {d first : Nat} (hb : BarsOk bars)
    (hm : MarksOk bars) (hq : QuietStart bars) (h1 : marks bars .Dc = [d]) (h2 : firstBarEnd bars = some first)
    (h3 : 2 * first ≤ U32_MAX) (hc : CodasOk ip (dcTarget tune bars first d) bars)
    (hr : Reads (marks bars .Segno).head? .first 0 bars ps) (hf : ∀ p, ps.head? = some p → p.Outside d) :
    Plays ip tune bars (dcWarnings bars d) (ps.flatMap (Passage.upTo d) ++
      (ps.flatMap Passage.once).filter (fun t => decide (inSecondPass (dcTarget tune bars first d) bars t))) := by
  obtain ⟨g, g1, g2, g3⟩ := GlobalRepeatBuilder.build_dc hb.1 ip tune hm h1 h2 (fun _ => by split <;> omega) hc
  have hdm : d ∈ marks bars .Dc := by simp [h1]
  obtain ⟨c, cs, k1, k2, k3, _⟩ := play_jump hb ip tune hm hr g1 hq
    (by rw [g2]; exact outside_all hb hr (.inl hdm) hf) (by rw [g2]; exact tick_lt hb hdm)
  rw [g2, g3] at k3
  exact ⟨c, cs, k1, k2, k3⟩

/-! A score with everything: plain to 100, repeated to 200, endings at 300 and 400
up to 500, D.S. at 600 to the Segno at 100, Codas at 450 and 700, Fine at 800. -/

private def full (jump : Repeat) : List Bar :=
  [⟨100, none, none, mark2 .Start .Segno⟩, ⟨150, none, none, {}⟩, ⟨200, none, none, mark2 .End .Start⟩, ⟨300, none, none, mark1 .Var1⟩,
   ⟨400, none, none, mark1 .Var2⟩, ⟨450, none, none, mark2 .Var2 .Coda⟩, ⟨500, none, none, {}⟩, ⟨600, none, none, mark1 jump⟩,
   ⟨700, none, none, mark1 .Coda⟩, ⟨800, none, none, mark1 .Fine⟩]

private def fullPassages : List Passage :=
  [.plain 0 100, .repeated 100 200, .endings 200 [300, 400] 500, .plain 500 U32_MAX]

private theorem full_reads (jump : Repeat) (h : jump = .Dc ∨ jump = .Ds) : Reads (some 100) .first 0 (full jump) fullPassages := by
  refine Reads.start (inside := []) (x := ⟨100, none, none, mark2 .Start .Segno⟩) (by decide) (by simp) (by decide) (by decide) ?_
  refine Reads.close (inside := [⟨150, none, none, {}⟩]) (x := ⟨200, none, none, mark2 .End .Start⟩) (by decide) ?_ (by decide) ?_
  · simp [Quiet]; decide
  refine Reads.endings (inside := []) (v := ⟨300, none, none, mark1 .Var1⟩)
    (es := [⟨400, none, none, mark1 .Var2⟩, ⟨450, none, none, mark2 .Var2 .Coda⟩]) (x := ⟨500, none, none, {}⟩) (by decide) (by simp) ?_ ?_ ?_
    (by decide) (by decide) ?_
  · have e : after ⟨200, none, none, mark2 .End .Start⟩ = .opened := by decide
    rw [e]
    simp only [OpensEndings]
    decide
  · refine Endings.more (xs := []) (by simp) ?_ (Endings.last ?_)
    · simp [InEnding]; decide
    · simp [InEnding]; decide
  · intro s f l h1 h2 h3
    simp at h1 h2 h3
    omega
  · refine Reads.last (by decide) ?_
    have e : after ⟨500, none, none, {}⟩ = .plain := by decide
    rw [e]
    simp only [Quiet]
    rcases h with rfl | rfl <;> decide

/-- D.S. at `d` with a Segno at `s`: everything up to `d` with its repeats; then
from `s` every passage once, of endings the last, up to Fine or the end. -/
theorem C30_ds_partial (ip : Bool) (tune : Rhythm) (bars : List Bar) (ps : List Passage) (d s : Nat) (hb : BarsOk bars)
    (hm : MarksOk bars) (hq : QuietStart bars) (h1 : marks bars .Ds = [d]) (h2 : marks bars .Segno = [s])
    (h3 : marks bars .Coda = []) (hr : Reads (some s) .first 0 bars ps) (hf : ∀ p, ps.head? = some p → p.Outside d) :
    Plays ip tune bars [] (ps.flatMap (Passage.upTo d) ++
      (ps.flatMap Passage.once).filter (fun t => decide (s ≤ t ∧ t < endTick bars))) := by
  have := ds_plays (ip := ip) (tune := tune) hb hm hq h1 h2 (.inl h3) (by simp [CodasOk, h3]) hr hf
  simpa only [inSecondPass, h3] using this

example : let bars : List Bar := [⟨100, none, none, mark1 .Segno⟩, ⟨150, none, none, mark1 .Fine⟩, ⟨200, none, none, mark1 .Ds⟩]
    BarsOk bars ∧ MarksOk bars ∧ QuietStart bars ∧ marks bars .Ds = [200] ∧ marks bars .Segno = [100] ∧ marks bars .Coda = [] ∧
      Reads (some 100) .first 0 bars [.plain 0 U32_MAX] ∧ (Passage.plain 0 U32_MAX).Outside 200 := by
  refine ⟨⟨by decide, by decide⟩, by unfold MarksOk; decide, by unfold QuietStart; decide, by decide, by decide, by decide,
    Reads.last (by decide) ?_, trivial⟩
  simp only [Quiet]
  decide

/-- D.C. at `d`: the same, going back to `dcTarget` (the Segno, else the top or the
second bar, see C33). A Segno and a lone Coda are warned of. -/
theorem C30_dc_partial (ip : Bool) (tune : Rhythm) (bars : List Bar) (ps : List Passage) (d first : Nat) (hb : BarsOk bars)
    (hm : MarksOk bars) (hq : QuietStart bars) (h1 : marks bars .Dc = [d]) (h2 : firstBarEnd bars = some first)
    (h3 : 2 * first ≤ U32_MAX) (h4 : (marks bars .Coda).length ≤ 1)
    (hr : Reads (marks bars .Segno).head? .first 0 bars ps) (hf : ∀ p, ps.head? = some p → p.Outside d) :
    Plays ip tune bars (dcWarnings bars d) (ps.flatMap (Passage.upTo d) ++
      (ps.flatMap Passage.once).filter (fun t => decide (dcTarget tune bars first d ≤ t ∧ t < endTick bars))) := by
  have hco : ∀ target, CodasOk ip target bars ∧ ∀ t, inSecondPass target bars t ↔ target ≤ t ∧ t < endTick bars := by
    intro target
    match h : marks bars .Coda with
    | [] => exact ⟨by simp [CodasOk, h], fun t => by simp only [inSecondPass, h]⟩
    | [o] => exact ⟨by simp [CodasOk, h], fun t => by simp only [inSecondPass, h]⟩
    | a :: b :: l => rw [h] at h4; simp at h4
  have := dc_plays (ip := ip) (tune := tune) hb hm hq h1 h2 h3 (hco _).1 hr hf
  simpa only [(hco _).2] using this

example : let bars : List Bar := [⟨960, none, none, mark1 .Segno⟩, ⟨1920, none, none, mark1 .Coda⟩, ⟨2880, none, none, mark1 .Dc⟩]
    BarsOk bars ∧ MarksOk bars ∧ QuietStart bars ∧ marks bars .Dc = [2880] ∧ firstBarEnd bars = some 960 ∧
      (marks bars .Coda).length ≤ 1 ∧ dcTarget ⟨4, .D4⟩ bars 960 2880 = 960 ∧ (dcWarnings bars 2880).length = 2 ∧
      Reads (marks bars .Segno).head? .first 0 bars [.plain 0 U32_MAX] ∧ (Passage.plain 0 U32_MAX).Outside 2880 := by
  refine ⟨⟨by decide, by decide⟩, by unfold MarksOk; decide, by unfold QuietStart; decide, by decide, by decide, by decide, by decide,
    by decide, Reads.last (by decide) ?_, trivial⟩
  simp only [Quiet]
  decide

/-- Two Codas: on the second pass, what is before the first, then what is from the
second on. (D.S.) -/
theorem C31_ds_partial (ip : Bool) (tune : Rhythm) (bars : List Bar) (ps : List Passage) (d s leave resume : Nat)
    (hb : BarsOk bars) (hm : MarksOk bars) (hq : QuietStart bars) (h1 : marks bars .Ds = [d]) (h2 : marks bars .Segno = [s])
    (h3 : marks bars .Coda = [leave, resume]) (h4 : s < leave) (h5 : resume < endTick bars)
    (hr : Reads (some s) .first 0 bars ps) (hf : ∀ p, ps.head? = some p → p.Outside d) :
    Plays ip tune bars [] (ps.flatMap (Passage.upTo d) ++
      ((ps.flatMap Passage.once).filter (fun t => decide (s ≤ t ∧ t < leave)) ++
       (ps.flatMap Passage.once).filter (fun t => decide (resume ≤ t ∧ t < endTick bars)))) := by
  have hc : CodasOk ip s bars := by
    simp only [CodasOk, h3]
    exact ⟨by omega, by omega, fun _ => ⟨h4, h5⟩⟩
  have := ds_plays (ip := ip) (tune := tune) hb hm hq h1 h2 (.inr ⟨leave, resume, h3⟩) hc hr hf
  simp only [inSecondPass, h3] at this
  have hsort := GlobalRepeatBuilder.marks_sorted hb.1 .Coda
  simp only [h3, List.pairwise_cons, List.mem_singleton, forall_eq] at hsort
  have hch := Reads_chain hr (fun _ => rfl) hb (fun h => absurd rfl h)
  rw [filter_or_append _ (once_all_sorted ps 0 (by decide) hch).1 _ _ _ _ (Nat.le_of_lt hsort.1)] at this
  exact this

example : BarsOk (full .Ds) ∧ MarksOk (full .Ds) ∧ QuietStart (full .Ds) ∧ marks (full .Ds) .Ds = [600] ∧
    marks (full .Ds) .Segno = [100] ∧ marks (full .Ds) .Coda = [450, 700] ∧ 100 < 450 ∧ 700 < endTick (full .Ds) ∧
    Reads (some 100) .first 0 (full .Ds) fullPassages ∧ ∀ p, fullPassages.head? = some p → p.Outside 600 := by
  refine ⟨⟨by decide, by decide⟩, by unfold MarksOk; decide, by unfold QuietStart; decide, by decide, by decide, by decide, by decide,
    by decide, full_reads _ (.inr rfl), ?_⟩
  intro p hp
  cases hp
  trivial

/-- The same for D.C. -/
theorem C31_dc_partial (ip : Bool) (tune : Rhythm) (bars : List Bar) (ps : List Passage) (d first leave resume : Nat)
    (hb : BarsOk bars) (hm : MarksOk bars) (hq : QuietStart bars) (h1 : marks bars .Dc = [d])
    (h2 : firstBarEnd bars = some first) (h2' : 2 * first ≤ U32_MAX) (h3 : marks bars .Coda = [leave, resume])
    (h4 : dcTarget tune bars first d < leave) (h5 : resume < endTick bars)
    (hr : Reads (marks bars .Segno).head? .first 0 bars ps) (hf : ∀ p, ps.head? = some p → p.Outside d) :
    Plays ip tune bars (dcWarnings bars d) (ps.flatMap (Passage.upTo d) ++
      ((ps.flatMap Passage.once).filter (fun t => decide (dcTarget tune bars first d ≤ t ∧ t < leave)) ++
       (ps.flatMap Passage.once).filter (fun t => decide (resume ≤ t ∧ t < endTick bars)))) := by
  have hc : CodasOk ip (dcTarget tune bars first d) bars := by
    simp only [CodasOk, h3]
    exact ⟨by omega, by omega, fun _ => ⟨h4, h5⟩⟩
  have := dc_plays (ip := ip) (tune := tune) hb hm hq h1 h2 h2' hc hr hf
  simp only [inSecondPass, h3] at this
  have hsort := GlobalRepeatBuilder.marks_sorted hb.1 .Coda
  simp only [h3, List.pairwise_cons, List.mem_singleton, forall_eq] at hsort
  have hch := Reads_chain hr (fun _ => rfl) hb (fun h => absurd rfl h)
  rw [filter_or_append _ (once_all_sorted ps 0 (by decide) hch).1 _ _ _ _ (Nat.le_of_lt hsort.1)] at this
  exact this

example : BarsOk (full .Dc) ∧ MarksOk (full .Dc) ∧ QuietStart (full .Dc) ∧ marks (full .Dc) .Dc = [600] ∧
    firstBarEnd (full .Dc) = some 100 ∧ marks (full .Dc) .Coda = [450, 700] ∧
    dcTarget ⟨4, .D4⟩ (full .Dc) 100 600 < 450 ∧ 700 < endTick (full .Dc) ∧
    Reads (marks (full .Dc) .Segno).head? .first 0 (full .Dc) fullPassages ∧
    ∀ p, fullPassages.head? = some p → p.Outside 600 := by
  refine ⟨⟨by decide, by decide⟩, by unfold MarksOk; decide, by unfold QuietStart; decide, by decide, by decide, by decide, by decide,
    by decide, full_reads _ (.inl rfl), ?_⟩
  intro p hp
  cases hp
  trivial

/-- A jump can only be in the midst of a repeated passage if that is the first of
the score, begun without a Start mark: the hypothesis of the above about the first
passage concerns nothing else. -/
theorem C30_only_first (bars : List Bar) (hb : BarsOk bars) (segno : Option Nat) (ps : List Passage)
    (hr : Reads segno .first 0 bars ps) (d : Nat) (hd : d ∈ marks bars .Dc ∨ d ∈ marks bars .Ds) :
    ∀ p ∈ ps.tail, p.Outside d := by
  have hy : ∃ y ∈ bars, (Has y .Dc ∨ Has y .Ds) ∧ y.startTick = d := by
    rcases hd with hd | hd <;> obtain ⟨y, h1, h2, h3⟩ := mem_marks.1 hd
    · exact ⟨y, h1, .inl h2, h3⟩
    · exact ⟨y, h1, .inr h2, h3⟩
  obtain ⟨y, h1, h2, rfl⟩ := hy
  exact (Reads_outside hr hb).1 y h1 h2

example : Reads (some 100) .first 0 (full .Ds) fullPassages ∧ 600 ∈ marks (full .Ds) .Ds ∧
    ∀ p ∈ fullPassages.tail, p.Outside 600 :=
  ⟨full_reads _ (.inr rfl), by decide, C30_only_first (full .Ds) ⟨by decide, by decide⟩ (some 100) fullPassages (full_reads _ (.inr rfl)) 600
    (.inr (by decide))⟩

/-- A D.C. in the midst of a repeat begun without a Start mark is accepted, but
the repeat is then left out of the first pass: with D.C. at 100 and End at 200,
tick 0 is never played. -/
theorem C30_inside_false (ip : Bool) : ∃ (bars : List Bar) (ps : List Passage) (d first : Nat),
    BarsOk bars ∧ MarksOk bars ∧ QuietStart bars ∧ marks bars .Dc = [d] ∧ firstBarEnd bars = some first ∧
    Reads (marks bars .Segno).head? .first 0 bars ps ∧
    (∃ c w cs, renderRegion ip ⟨4, .D4⟩ bars = .ok (c, w) ∧ c.toChunks ip = .ok cs ∧ 0 ∉ played cs) ∧
    ∀ w target, ¬ Plays ip ⟨4, .D4⟩ bars w (ps.flatMap (Passage.upTo d) ++
      (ps.flatMap Passage.once).filter (fun t => decide (target ≤ t ∧ t < endTick bars))) := by
  have hz : ∃ c w cs, renderRegion ip ⟨4, .D4⟩ [⟨100, none, none, mark1 .Dc⟩, ⟨200, none, none, mark1 .End⟩] = .ok (c, w) ∧
      c.toChunks ip = .ok cs ∧ 0 ∉ played cs := by
    refine ⟨⟨some ⟨.dc 100 100, none, 100, none, [(100, U32_MAX - 1)]⟩, [.rep ⟨0, 200⟩, .seq ⟨200, U32_MAX⟩]⟩, [],
      [⟨100, 200⟩, ⟨200, U32_MAX⟩], ?_, ?_, ?_⟩
    · cases ip <;> decide
    · cases ip <;> decide
    · simp only [played, List.mem_flatMap, mem_span]
      rintro ⟨c, hc, h1, h2⟩
      simp at hc
      rcases hc with rfl | rfl <;> simp at h1
  refine ⟨[⟨100, none, none, mark1 .Dc⟩, ⟨200, none, none, mark1 .End⟩], [.repeated 0 200, .plain 200 U32_MAX], 100, 100,
    ⟨by decide, by decide⟩, by unfold MarksOk; decide, by unfold QuietStart; decide, by decide, by decide, ?_, hz, ?_⟩
  · refine Reads.close (inside := [⟨100, none, none, mark1 .Dc⟩]) (x := ⟨200, none, none, mark1 .End⟩) (by decide) ?_ (by decide)
      (Reads.last (by decide) (by simp))
    simp only [Quiet]
    decide
  · rintro w target ⟨c, cs, h1, h2, h3⟩
    obtain ⟨c', w', cs', k1, k2, k3⟩ := hz
    rw [k1] at h1
    cases h1
    rw [k2] at h2
    cases h2
    rw [h3] at k3
    apply k3
    refine List.mem_append_left _ ?_
    simp [Passage.upTo, Passage.stop, Passage.start, mem_span]

/-- A Start (or End, or ending) mark at tick 0 together with a jump: the score
renders, but making the chunks panics. -/
theorem C30_mark_at_zero_false (ip : Bool) :
    let bars : List Bar := [⟨0, none, none, mark1 .Start⟩, ⟨100, none, none, mark1 .End⟩, ⟨200, none, none, mark1 .Dc⟩]
    BarsOk bars ∧ MarksOk bars ∧ (∃ ps, Reads none .first 0 bars ps) ∧
      ∃ c, renderRegion ip ⟨4, .D4⟩ bars = .ok (c, []) ∧ c.toChunks ip = .error .overflow := by
  refine ⟨⟨by decide, by decide⟩, by unfold MarksOk; decide, ⟨[.plain 0 0, .repeated 0 100, .plain 100 U32_MAX], ?_⟩, ?_⟩
  · exact Reads.start (inside := []) (by decide) (by simp) (by decide) (by decide)
      (Reads.close (inside := []) (by decide) (by simp) (by decide) (Reads.last (by decide) (by decide)))
  · refine ⟨⟨some ⟨.dc 200 100, none, 100, none, [(100, U32_MAX - 1)]⟩, [.seq ⟨0, 0⟩, .rep ⟨0, 100⟩, .seq ⟨100, U32_MAX⟩]⟩, ?_, ?_⟩ <;>
      cases ip <;> decide

/-- A D.C. in the common part of endings begun without a Start mark: the score
renders, but making the chunks panics ("Logic error"). -/
theorem C30_inside_endings_false (ip : Bool) :
    let bars : List Bar := [⟨50, none, none, mark1 .Dc⟩, ⟨100, none, none, mark1 .Var1⟩, ⟨200, none, none, mark1 .Var2⟩, ⟨300, none, none, {}⟩]
    BarsOk bars ∧ MarksOk bars ∧ QuietStart bars ∧ (∃ ps, Reads none .first 0 bars ps) ∧
      ∃ c, renderRegion ip ⟨4, .D4⟩ bars = .ok (c, []) ∧ c.toChunks ip = .error .explicit := by
  refine ⟨⟨by decide, by decide⟩, by unfold MarksOk; decide, by unfold QuietStart; decide,
    ⟨[.endings 0 [100, 200] 300, .plain 300 U32_MAX], ?_⟩, ?_⟩
  · refine Reads.endings (inside := [⟨50, none, none, mark1 .Dc⟩]) (v := ⟨100, none, none, mark1 .Var1⟩)
      (es := [⟨200, none, none, mark1 .Var2⟩]) (x := ⟨300, none, none, {}⟩) (rest := []) (by decide) ?_ ?_
      (Endings.more (xs := []) (by simp) ?_ (Endings.last (by simp))) ?_ (by decide) (by decide) (Reads.last (by decide) (by simp))
    · simp only [Quiet]; decide
    · simp only [OpensEndings]; decide
    · simp only [InEnding]; decide
    · intro s f l h; cases h
  · refine ⟨⟨some ⟨.dc 50 50, none, 50, none, [(50, U32_MAX - 1)]⟩,
      [.var ⟨0, 100⟩ [⟨100, 200⟩, ⟨200, 300⟩], .seq ⟨300, U32_MAX⟩]⟩, ?_, ?_⟩ <;>
      cases ip <;> decide

/-! ## C33 -/

/-- Where a D.C. goes back to (no Segno, no Codas): to the top if the first bar is
full or exactly half a bar, else to the second bar. -/
theorem C33_rule (ip : Bool) (tune : Rhythm) (bars : List Bar) (ps : List Passage) (d first : Nat) (hb : BarsOk bars)
    (hm : MarksOk bars) (hq : QuietStart bars) (h0 : 0 < d) (h1 : marks bars .Dc = [d]) (h2 : firstBarEnd bars = some first)
    (h3 : 2 * first ≤ U32_MAX) (h4 : marks bars .Coda = []) (h5 : marks bars .Segno = [])
    (hr : Reads none .first 0 bars ps) (hf : ∀ p, ps.head? = some p → p.Outside d) :
    let full := (openingRhythm tune bars).tickLen
    let target := if first = full ∨ 2 * first = full then 0 else first
    Plays ip tune bars [] (ps.flatMap (Passage.upTo d) ++
      (ps.flatMap Passage.once).filter (fun t => decide (target ≤ t ∧ t < endTick bars))) := by
  intro full target
  have := C30_dc_partial ip tune bars ps d first hb hm hq h1 h2 h3 (by simp [h4]) (by rw [h5]; exact hr) hf
  have ht : dcTarget tune bars first d = target := by
    simp only [dcTarget, h5, List.headD_nil, dcReturn, h0, true_and]
    rfl
  rw [ht, show dcWarnings bars d = [] by simp [dcWarnings, h4, h5]] at this
  exact this

/-- A 4/4 tune with an upbeat of half a bar and another of a quarter. -/
example : ∀ first ∈ [240, 480], let bars : List Bar := [⟨first, none, none, {}⟩, ⟨1200, none, none, mark1 .Dc⟩]
    BarsOk bars ∧ MarksOk bars ∧ QuietStart bars ∧ marks bars .Dc = [1200] ∧ firstBarEnd bars = some first ∧
      marks bars .Coda = [] ∧ marks bars .Segno = [] ∧ (openingRhythm ⟨4, .D4⟩ bars).tickLen = 960 ∧
      Reads none .first 0 bars [.plain 0 U32_MAX] := by
  intro first hf
  simp only [List.mem_cons, List.not_mem_nil, or_false] at hf
  rcases hf with rfl | rfl <;>
    exact ⟨⟨by decide, by decide⟩, by unfold MarksOk; decide, by unfold QuietStart; decide, by decide, by decide, by decide, by decide,
      by decide, Reads.last (by decide) (by simp only [Quiet]; decide)⟩

/-- When that is what the documentation says. -/
theorem C33_agrees (full first dcBar d : Nat) (hd : 0 < d) (hf : 0 < first) :
    dcReturn full first d = documentedReturn full first dcBar ↔
      first = full ∨ (first < full ∧ (2 * first = full ↔ dcBar ≠ full)) := by
  unfold dcReturn documentedReturn
  by_cases h1 : first = full
  · simp [h1]
  · by_cases h2 : first < full
    · by_cases h3 : 2 * first = full <;> by_cases h4 : dcBar = full <;> simp [h1, h2, h3, h4, hd] <;> omega
    · have h3 : ¬ 2 * first = full := by omega
      simp [h1, h2, h3]
      omega

example : dcReturn 960 480 2880 = 0 ∧ documentedReturn 960 480 480 = 0 ∧ documentedReturn 960 480 960 = 480 ∧
    dcReturn 960 240 2880 = 240 ∧ documentedReturn 960 240 960 = 240 ∧ documentedReturn 960 240 720 = 0 := by decide

/-- In those cases the documented rule is followed. -/
theorem C33_documented_partial (ip : Bool) (tune : Rhythm) (bars : List Bar) (ps : List Passage) (d first : Nat) (hb : BarsOk bars)
    (hm : MarksOk bars) (hq : QuietStart bars) (h0 : 0 < d) (h1 : marks bars .Dc = [d]) (h2 : firstBarEnd bars = some first)
    (h3 : 2 * first ≤ U32_MAX) (h4 : marks bars .Coda = []) (h5 : marks bars .Segno = [])
    (h6 : first = (openingRhythm tune bars).tickLen ∨ (first < (openingRhythm tune bars).tickLen ∧
      (2 * first = (openingRhythm tune bars).tickLen ↔ barBefore bars d ≠ (openingRhythm tune bars).tickLen)))
    (hr : Reads none .first 0 bars ps) (hf : ∀ p, ps.head? = some p → p.Outside d) :
    Plays ip tune bars [] (ps.flatMap (Passage.upTo d) ++
      (ps.flatMap Passage.once).filter (fun t =>
        decide (documentedReturn (openingRhythm tune bars).tickLen first (barBefore bars d) ≤ t ∧ t < endTick bars))) := by
  have hp : 0 < first := by
    have := List.find?_some h2
    simpa using this
  have := C33_rule ip tune bars ps d first hb hm hq h0 h1 h2 h3 h4 h5 hr hf
  rw [← (C33_agrees _ _ _ d h0 hp).2 h6]
  simpa only [dcReturn, h0, true_and] using this

/-- A 4/4 tune with an upbeat of 240 ticks and a full D.C. bar. -/
example : let bars : List Bar := [⟨240, none, none, {}⟩, ⟨1200, none, none, mark1 .Dc⟩]
    BarsOk bars ∧ MarksOk bars ∧ QuietStart bars ∧ marks bars .Dc = [1200] ∧ firstBarEnd bars = some 240 ∧
      marks bars .Coda = [] ∧ marks bars .Segno = [] ∧ (openingRhythm ⟨4, .D4⟩ bars).tickLen = 960 ∧
      (240 < 960 ∧ (2 * 240 = 960 ↔ barBefore bars 1200 ≠ 960)) ∧ Reads none .first 0 bars [.plain 0 U32_MAX] := by
  refine ⟨⟨by decide, by decide⟩, by unfold MarksOk; decide, by unfold QuietStart; decide, by decide, by decide, by decide, by decide,
    by decide, by decide, Reads.last (by decide) ?_⟩
  simp only [Quiet]
  decide

/-- The documented rule is not followed in general.  In 4/4: a first bar of 240
ticks and a last bar of 720 make up a full bar, yet the D.C. skips the first bar; a
first bar of 480 and a full D.C. bar, yet the first bar is played again; a first bar
of two full bars is skipped. -/
theorem C33_documented_false (ip : Bool) :
    ∀ k ∈ [(240, 1200, 1920), (480, 1440, 2400), (1920, 2880, 3840)],
      let bars : List Bar := [⟨k.1, none, none, {}⟩, ⟨k.2.1, none, none, {}⟩, ⟨k.2.2, none, none, mark1 .Dc⟩]
      let ps : List Passage := [.plain 0 U32_MAX]
      BarsOk bars ∧ MarksOk bars ∧ QuietStart bars ∧ marks bars .Dc = [k.2.2] ∧ firstBarEnd bars = some k.1 ∧
      Reads none .first 0 bars ps ∧
      ∀ w, ¬ Plays ip ⟨4, .D4⟩ bars w (ps.flatMap (Passage.upTo k.2.2) ++
        (ps.flatMap Passage.once).filter (fun t =>
          decide (documentedReturn 960 k.1 (barBefore bars k.2.2) ≤ t ∧ t < endTick bars))) := by
  intro k hk
  simp only [List.mem_cons, List.not_mem_nil, or_false] at hk
  have main : ∀ (a b c doc real : Nat), a < b → b < c → c < U32_MAX → 0 < a → 2 * a ≤ U32_MAX →
      let bars : List Bar := [⟨a, none, none, {}⟩, ⟨b, none, none, {}⟩, ⟨c, none, none, mark1 .Dc⟩]
      dcReturn 960 a c = real → (doc = 0 ↔ real ≠ 0) → 
      BarsOk bars ∧ MarksOk bars ∧ QuietStart bars ∧ marks bars .Dc = [c] ∧ firstBarEnd bars = some a ∧
      Reads none .first 0 bars [.plain 0 U32_MAX] ∧
      ∀ w, ¬ Plays ip ⟨4, .D4⟩ bars w ([Passage.plain 0 U32_MAX].flatMap (Passage.upTo c) ++
        ([Passage.plain 0 U32_MAX].flatMap Passage.once).filter (fun t => decide (doc ≤ t ∧ t < endTick bars))) := by
    intro a b c doc real h1 h2 h3 h4 h5 bars hreal hne
    have hb : BarsOk bars := by
      refine ⟨?_, ?_⟩
      · simp [bars]; omega
      · simp [bars]; omega
    have hm : MarksOk bars := by simp [MarksOk, marks, bars, mark1, RepeatSet.set, RepeatSet.contains, RepeatSet.EMPTY]
    have hq : QuietStart bars := by
      intro x hx hx0
      simp [bars] at hx
      rcases hx with rfl | rfl | rfl <;> simp at hx0 <;> omega
    have hdc : marks bars .Dc = [c] := by simp [marks, bars, mark1, RepeatSet.set, RepeatSet.contains, RepeatSet.EMPTY]
    have hfi : firstBarEnd bars = some a := by simp [firstBarEnd, bars, h4]
    have hr : Reads none .first 0 bars [.plain 0 U32_MAX] := by
      refine Reads.last (by decide) ?_
      intro x hx
      simp [bars] at hx
      rcases hx with rfl | rfl | rfl <;>
        simp [Quiet, Has, endingNo, mark1, RepeatSet.set, RepeatSet.contains, RepeatSet.EMPTY]
    have hco : marks bars .Coda = [] := by simp [marks, bars, mark1, RepeatSet.set, RepeatSet.contains, RepeatSet.EMPTY]
    have hsg : marks bars .Segno = [] := by simp [marks, bars, mark1, RepeatSet.set, RepeatSet.contains, RepeatSet.EMPTY]
    have hfin : endTick bars = U32_MAX := by simp [endTick, marks, bars, mark1, RepeatSet.set, RepeatSet.contains, RepeatSet.EMPTY]
    refine ⟨hb, hm, hq, hdc, hfi, hr, ?_⟩
    rintro w ⟨cr, cs, p1, p2, p3⟩
    have hopen : openingRhythm ⟨4, .D4⟩ bars = ⟨4, .D4⟩ := by
      have e1 : ¬ a = 0 := by omega
      have e2 : ¬ b = 0 := by omega
      have e3 : ¬ c = 0 := by omega
      simp [openingRhythm, bars, e1, e2, e3]
    obtain ⟨cr', cs', q1, q2, q3⟩ := C30_dc_partial ip ⟨4, .D4⟩ bars [.plain 0 U32_MAX] c a hb hm hq hdc hfi h5 (by simp [hco])
      (by rw [hsg]; exact hr) (by intro p hp; cases hp; trivial)
    rw [q1] at p1
    cases p1
    rw [q2] at p2
    cases p2
    rw [q3] at p3
    have ht : dcTarget ⟨4, .D4⟩ bars a c = real := by
      rw [dcTarget, hsg, hopen, ← hreal]
      rfl
    rw [ht, hfin] at p3
    have p4 := List.append_cancel_left p3
    have hz : ∀ r : Nat, 0 ∈ ([Passage.plain 0 U32_MAX].flatMap Passage.once).filter (fun t => decide (r ≤ t ∧ t < U32_MAX)) ↔ r = 0 := by
      intro r
      simp [Passage.once, mem_span, U32_MAX]
    have := (hz real).symm.trans ((iff_of_eq (congrArg (fun l => 0 ∈ l) p4)).trans (hz doc))
    omega
  rcases hk with rfl | rfl | rfl
  · exact main 240 1200 1920 (documentedReturn 960 240 720) 240 (by decide) (by decide) (by decide) (by decide) (by decide) (by decide) (by decide)
  · exact main 480 1440 2400 (documentedReturn 960 480 960) 0 (by decide) (by decide) (by decide) (by decide) (by decide) (by decide) (by decide)
  · exact main 1920 2880 3840 (documentedReturn 960 1920 960) 1920 (by decide) (by decide) (by decide) (by decide) (by decide) (by decide) (by decide)

/-! ## C49 -/

/-- In whatever renders, no tick is played more than five times. -/
theorem C49_five (ip : Bool) (tune : Rhythm) (bars : List Bar) (hb : BarsOk bars) (c : CompoundRegion)
    (w : List RenderRegionWarning) (cs : List Chunk) (h : renderRegion ip tune bars = .ok (c, w)) (hc : c.toChunks ip = .ok cs)
    (t : Nat) : (played cs).count t ≤ 5 := (render_general hb h hc).2 t

/-- A repeated bar is played twice. -/
example (ip : Bool) : let bars : List Bar := [⟨100, none, none, mark1 .Start⟩, ⟨200, none, none, mark1 .End⟩]
    BarsOk bars ∧ ∃ c cs, renderRegion ip ⟨4, .D4⟩ bars = .ok (c, []) ∧ c.toChunks ip = .ok cs ∧ (played cs).count 150 = 2 := by
  refine ⟨⟨by decide, by decide⟩, ⟨none, [.seq ⟨0, 100⟩, .rep ⟨100, 200⟩, .seq ⟨200, U32_MAX⟩]⟩,
    [⟨0, 100⟩, ⟨100, 200⟩, ⟨100, 200⟩, ⟨200, U32_MAX⟩], ?_, ?_, ?_⟩
  · cases ip <;> decide
  · cases ip <;> decide
  · simp only [played_cons, played_nil, List.count_append, count_span]
    decide

/-- So every position of the playing order is one of the iterations 1 to 5 of its tick. -/
theorem C49_selectable (ip : Bool) (tune : Rhythm) (bars : List Bar) (hb : BarsOk bars) (c : CompoundRegion)
    (w : List RenderRegionWarning) (cs : List Chunk) (h : renderRegion ip tune bars = .ok (c, w)) (hc : c.toChunks ip = .ok cs)
    (p t : Nat) (hp : (played cs)[p]? = some t) : ∃ k, 1 ≤ k ∧ k ≤ 5 ∧ PlayIter.new k = k ∧ IsOccurrence (played cs) t k p := by
  refine ⟨((played cs).take p).count t + 1, by omega, ?_, ?_, hp, rfl⟩
  · have h5 := C49_five ip tune bars hb c w cs h hc t
    have hs : (played cs) = (played cs).take p ++ t :: (played cs).drop (p + 1) := by
      obtain ⟨hlt, he⟩ := List.getElem?_eq_some_iff.1 hp
      rw [← he, ← List.drop_eq_getElem_cons hlt, List.take_append_drop]
    rw [hs, List.count_append, List.count_cons_self] at h5
    omega
  · have h5 := C49_five ip tune bars hb c w cs h hc t
    have hs : (played cs) = (played cs).take p ++ t :: (played cs).drop (p + 1) := by
      obtain ⟨hlt, he⟩ := List.getElem?_eq_some_iff.1 hp
      rw [← he, ← List.drop_eq_getElem_cons hlt, List.take_append_drop]
    rw [hs, List.count_append, List.count_cons_self] at h5
    simp only [PlayIter.new]
    split <;> split <;> omega

/-- In the playing order 0, 1, 2, 1, 2, 3 position 4 is the second occurrence of tick 2. -/
example : IsOccurrence (played [⟨0, 3⟩, ⟨1, 4⟩]) 2 2 4 := by
  simp only [IsOccurrence]
  decide

/-- Five is reached: four endings, then a D.C. -/
theorem C49_reached (ip : Bool) :
    let bars : List Bar := [⟨960, none, none, mark1 .Var1⟩, ⟨1920, none, none, mark1 .Var2⟩, ⟨2880, none, none, mark1 .Var3⟩,
      ⟨3840, none, none, mark1 .Var4⟩, ⟨4800, none, none, mark1 .Dc⟩]
    BarsOk bars ∧ ∃ c w cs, renderRegion ip ⟨4, .D4⟩ bars = .ok (c, w) ∧ c.toChunks ip = .ok cs ∧ (played cs).count 100 = 5 := by
  refine ⟨⟨by decide, by decide⟩, ?_⟩
  refine ⟨⟨some ⟨.dc 4800 960, none, 0, none, [(0, U32_MAX - 1)]⟩,
    [.var ⟨0, 960⟩ [⟨960, 1920⟩, ⟨1920, 2880⟩, ⟨2880, 3840⟩, ⟨3840, 4800⟩], .seq ⟨4800, U32_MAX⟩]⟩, [],
    [⟨0, 960⟩, ⟨960, 1920⟩, ⟨0, 960⟩, ⟨1920, 2880⟩, ⟨0, 960⟩, ⟨2880, 3840⟩, ⟨0, 960⟩, ⟨3840, 4800⟩,
      ⟨0, 960⟩, ⟨3840, 4800⟩, ⟨4800, U32_MAX⟩], ?_, ?_, ?_⟩
  · cases ip <;> decide
  · cases ip <;> decide
  · simp only [played_cons, played_nil, List.count_append, count_span]
    decide

/-! ## C50 -/

/-- Every chunk of whatever renders starts no later than it ends, within 32 bits,
and only the last may be open ended. -/
theorem C50_chunks (ip : Bool) (tune : Rhythm) (bars : List Bar) (hb : BarsOk bars) (c : CompoundRegion)
    (w : List RenderRegionWarning) (cs : List Chunk) (h : renderRegion ip tune bars = .ok (c, w)) (hc : c.toChunks ip = .ok cs) :
    (∀ x ∈ cs, x.startTick ≤ x.endTick ∧ x.endTick ≤ U32_MAX) ∧
      ∀ (i : Nat) (x : Chunk), cs[i]? = some x → x.endTick = U32_MAX → i + 1 = cs.length := by
  obtain ⟨h1, h2⟩ := (render_general hb h hc).1
  refine ⟨h1, fun i x hx he => ?_⟩
  obtain ⟨hlt, hget⟩ := List.getElem?_eq_some_iff.1 hx
  by_cases hi : i + 1 = cs.length
  · exact hi
  · refine absurd he (h2 x ?_)
    rw [List.mem_iff_getElem?]
    exact ⟨i, by rw [List.getElem?_dropLast, if_pos (by omega), hx]⟩

example (ip : Bool) : let bars : List Bar := [⟨100, none, none, mark1 .Start⟩, ⟨200, none, none, mark1 .End⟩]
    ∃ c, renderRegion ip ⟨4, .D4⟩ bars = .ok (c, []) ∧
      c.toChunks ip = .ok [⟨0, 100⟩, ⟨100, 200⟩, ⟨100, 200⟩, ⟨200, U32_MAX⟩] := by
  refine ⟨⟨none, [.seq ⟨0, 100⟩, .rep ⟨100, 200⟩, .seq ⟨200, U32_MAX⟩]⟩, ?_, ?_⟩ <;> cases ip <;> decide

/-- Merging neighbours keeps it so. -/
theorem C50_optimized (cs : List Chunk) (h : ChunksOk cs) : ChunksOk (Chunk.optimize cs) := by
  have gen : ∀ (cs : List Chunk) (c : Chunk), ChunksOk (c :: cs) →
      ChunksOk (Chunk.optimizeFrom c cs) ∧ (Chunk.optimizeFrom c cs) ≠ [] := by
    intro cs
    induction cs with
    | nil => intro c h; exact ⟨h, by simp [Chunk.optimizeFrom]⟩
    | cons d cs ih =>
      intro c h
      obtain ⟨h1, h2⟩ := h
      rw [List.dropLast_cons_cons] at h2
      have hc := h1 c (by simp)
      have hd := h1 d (by simp)
      rw [Chunk.optimizeFrom]
      by_cases he : c.endTick = d.startTick
      · rw [if_pos he]
        refine ih _ ⟨?_, ?_⟩
        · intro x hx
          rcases List.mem_cons.1 hx with rfl | hx
          · exact ⟨by show c.startTick ≤ d.endTick; omega, hd.2⟩
          · exact h1 x (by simp [hx])
        · intro x hx
          cases cs with
          | nil => simp at hx
          | cons e cs =>
            rw [List.dropLast_cons_cons] at hx h2
            rcases List.mem_cons.1 hx with rfl | hx
            · exact h2 d (by simp)
            · exact h2 x (by simp [hx])
      · rw [if_neg he]
        obtain ⟨i1, i2⟩ := ih d ⟨fun x hx => h1 x (by simp [List.mem_cons.1 hx]), fun x hx => h2 x (by simp [hx])⟩
        refine ⟨⟨?_, ?_⟩, by simp⟩
        · intro x hx
          rcases List.mem_cons.1 hx with rfl | hx
          · exact hc
          · exact i1.1 x hx
        · intro x hx
          cases ho : Chunk.optimizeFrom d cs with
          | nil => exact absurd ho i2
          | cons e es =>
            rw [ho, List.dropLast_cons_cons] at hx
            rcases List.mem_cons.1 hx with rfl | hx
            · exact h2 x (by simp)
            · exact i1.2 x (by rw [ho]; exact hx)
  cases cs with
  | nil => exact h
  | cons c cs => exact (gen cs c h).1

example : ChunksOk [⟨0, 100⟩, ⟨100, 200⟩, ⟨100, 200⟩, ⟨200, U32_MAX⟩] ∧
    Chunk.optimize [⟨0, 100⟩, ⟨100, 200⟩, ⟨100, 200⟩, ⟨200, U32_MAX⟩] = [⟨0, 200⟩, ⟨100, U32_MAX⟩] := by
  refine ⟨⟨by decide, by decide⟩, by decide⟩

end Klavier
