import Verif.Props.Release
import Verif.Props.Jump

/-! # C76: rendering without overflow checks when the first bar is very long -/
set_option autoImplicit false
namespace Klavier
open Spec

open GlobalRepeatBuilder in
/-- Rendering without checks, given what the builder without checks makes of the marks. -/
private theorem release_rendered {bars : List Bar} (hb : BarsOk bars) {ip : Bool} {tune : Rhythm} {ps : List Passage}
    (hm : MarksOk bars) (hr : Reads (marks bars .Segno).head? .first 0 bars ps) {gr : Option GlobalRepeat}
    {w : List RenderRegionWarning} (h : Release.build ip (builtOf tune bars) = .ok (gr, w)) :
    Release.renderRegion ip tune bars = .ok (⟨gr, ps.map Passage.region⟩, w) := by
  obtain ⟨rs, st, z, h1, h2, h3⟩ := (stepLoop_iff (marks bars .Segno).head? bars (ps.map Passage.region)).2 ⟨ps, hr, rfl⟩
  have hl : renderLoop (new tune) .idle bars = .ok (builtOf tune bars, rs, st) := by
    rw [renderLoop_ok bars (new tune) .idle _ rs st hb.1 (by intro s ts e; cases e), buildLoop_new hb.1]
    exact ⟨⟨hm, rfl⟩, h1⟩
  rw [Release.renderRegion, hl, RR_bind_ok]
  dsimp only
  cases st with
  | idle => cases h2; simp only [h, RR_bind_ok, RR_pure, h3]
  | seq s => cases h2; simp only [h, RR_bind_ok, RR_pure, h3]
  | repeatStart s => cases h2
  | variation s ts => cases h2

open GlobalRepeatBuilder in
/-- With checks, a panic of the builder is that of the rendering. -/
private theorem checked_stops {bars : List Bar} (hb : BarsOk bars) {ip : Bool} {tune : Rhythm} {ps : List Passage}
    (hm : MarksOk bars) (hr : Reads (marks bars .Segno).head? .first 0 bars ps) {e : Fail}
    (h : (builtOf tune bars).build ip = .error e) : renderRegion ip tune bars = .error e := by
  obtain ⟨rs, st, z, h1, h2, h3⟩ := (stepLoop_iff (marks bars .Segno).head? bars (ps.map Passage.region)).2 ⟨ps, hr, rfl⟩
  have hl : renderLoop (new tune) .idle bars = .ok (builtOf tune bars, rs, st) := by
    rw [renderLoop_ok bars (new tune) .idle _ rs st hb.1 (by intro s ts e; cases e), buildLoop_new hb.1]
    exact ⟨⟨hm, rfl⟩, h1⟩
  rw [renderRegion, hl, RR_bind_ok]
  dsimp only
  cases st with
  | idle => simp only [h]; rfl
  | seq s => simp only [h]; rfl
  | repeatStart s => cases h2
  | variation s ts => cases h2

open GlobalRepeatBuilder in
private theorem release_build {bars : List Bar} (hb : BarsOk bars) {ip : Bool} {tune : Rhythm} {d first : Nat}
    (hm : MarksOk bars) (h1 : marks bars .Dc = [d]) (hd : 0 < d) (h2 : firstBarEnd bars = some first)
    (h3 : marks bars .Segno = []) (h4 : U32_MAX < 2 * first) (hf : first ≤ U32_MAX)
    (hc : CodasOk ip (wrappedReturn (openingRhythm tune bars).tickLen first) bars) :
    ∃ S, Release.build ip (builtOf tune bars) = .ok (some ⟨.dc d first, (marks bars .Fine).head?,
        wrappedReturn (openingRhythm tune bars).tickLen first, codaPair bars, S⟩, dcWarnings bars d) ∧
      (fun t => S.has t) = fun t => decide (inSecondPass (wrappedReturn (openingRhythm tune bars).tickLen first) bars t) := by
  obtain ⟨S, k1, k2⟩ := interval_ok hb.1 ip _ hc
  refine ⟨S, ?_, k2⟩
  have hi : ∀ g : GlobalRepeatBuilder, Release.implicitSegno g first first = wrappedReturn g.topRhythm.tickLen first := by
    intro g
    unfold Release.implicitSegno wrappedReturn Release.add32
    simp only [U32_MAX] at h4 hf
    dsimp only
    generalize g.topRhythm.tickLen = r
    repeat' split
    all_goals first | rfl | omega
  have hj : jumpOf bars = some (.dc d first) := by
    simp only [jumpOf, h1, h2]
    rw [if_neg (by omega)]
    rfl
  have k3 := Release.agrees_toIntervalSet ip (wrappedReturn (openingRhythm tune bars).tickLen first) (marks bars .Fine).head? (codaPair bars)
  rw [k1] at k3
  have k4 := k3 (by simp)
  have hlen : ∀ l : List Nat, l.length ≤ 2 → l = [] ∨ (∃ a, l = [a]) ∨ ∃ a b, l = [a, b] := by
    intro l hl
    match l with
    | [] => exact .inl rfl
    | [a] => exact .inr (.inl ⟨a, rfl⟩)
    | [a, b] => exact .inr (.inr ⟨a, b, rfl⟩)
    | a :: b :: c :: l => simp at hl
  rcases hlen _ hm.2.2.2 with h5 | ⟨o, h5⟩ | ⟨f, t, h5⟩
  · rw [show codaPair bars = none by simp [codaPair, h5]] at k4 ⊢
    simp [Release.build, Release.dcSegno, dcCoda, builtOf, hj, h2, h3, h5, codaOf, hi, liftR, k4, dcWarnings, RR_bind_ok, RR_pure]
  · rw [show codaPair bars = none by simp [codaPair, h5]] at k4 ⊢
    simp [Release.build, Release.dcSegno, dcCoda, builtOf, hj, h2, h3, h5, codaOf, hi, liftR, k4, dcWarnings, RR_bind_ok, RR_pure]
  · have hp := checkCodaPos_ok hc h5
    rw [show codaPair bars = some (f, t) by simp [codaPair, h5]] at k4 ⊢
    simp [Release.build, Release.dcSegno, dcCoda, builtOf, hj, h2, h3, h5, codaOf, hi, liftR, k4, dcWarnings, RR_bind_ok, RR_pure, hp]

/-- C76: a D.C. without Segno and with a first bar of 2^31 ticks or more.  The checked
build stops with an overflow; the build without checks renders the score and plays it
up to the D.C., then from the target to the Fine or the end; the target is the end of
the first bar, except if the sum of the first bar and the bar of the D.C., taken to be
of the same length, is that of a full bar modulo 2^32. -/
theorem C76_render_partial (ip : Bool) (tune : Rhythm) (bars : List Bar) (ps : List Passage) (d first : Nat) (hb : BarsOk bars)
    (hm : MarksOk bars) (hq : QuietStart bars) (h1 : marks bars .Dc = [d]) (hd : 0 < d) (h2 : firstBarEnd bars = some first)
    (h3 : marks bars .Segno = []) (h4 : U32_MAX < 2 * first)
    (hc : CodasOk ip (wrappedReturn (openingRhythm tune bars).tickLen first) bars)
    (hr : Reads none .first 0 bars ps) (hf : ∀ p, ps.head? = some p → p.Outside d) :
    renderRegion ip tune bars = .error (.panic .overflow) ∧
    ∃ c cs, Release.renderRegion ip tune bars = .ok (c, dcWarnings bars d) ∧ Release.toChunks ip c = .ok cs ∧
      played cs = ps.flatMap (Passage.upTo d) ++ (ps.flatMap Passage.once).filter
        (fun t => decide (inSecondPass (wrappedReturn (openingRhythm tune bars).tickLen first) bars t)) := by
  have hr' : Reads (marks bars .Segno).head? .first 0 bars ps := by rw [h3]; exact hr
  have hdm : d ∈ marks bars .Dc := by simp [h1]
  have hfirst : first ≤ U32_MAX := by
    have := List.mem_of_find?_eq_some h2
    obtain ⟨x, hx, rfl⟩ := List.mem_map.1 this
    have := hb.2 x hx
    omega
  obtain ⟨S, g1, g2⟩ := release_build hb hm h1 hd h2 h3 h4 hfirst hc
  have hc' := Reads_chain hr' (fun _ => rfl) hb (fun h => absurd rfl h)
  have ho := Chain_mem hc' (by decide)
  have hout : ∀ p ∈ ps, p.Outside d := by
    cases ps with
    | nil => simp
    | cons p0 ps0 =>
      intro p hp
      rcases List.mem_cons.1 hp with rfl | hp'
      · exact hf _ rfl
      · exact outside_tail hb hr' (.inl hdm) p hp'
  obtain ⟨c0, a1, a2, _⟩ := renderAll_iter0 ip d ps (fun p hp => (ho p hp).1) hout
  obtain ⟨c1, k1, k2, _⟩ := renderAll_iter1 ip ⟨.dc d first, (marks bars .Fine).head?,
    wrappedReturn (openingRhythm tune bars).tickLen first, GlobalRepeatBuilder.codaPair bars, S⟩ ps 0 (by decide) hc'
    (Reads_positive hr' hb.1 hq)
  have hch : CompoundRegion.toChunks ip ⟨some ⟨.dc d first, (marks bars .Fine).head?,
      wrappedReturn (openingRhythm tune bars).tickLen first, GlobalRepeatBuilder.codaPair bars, S⟩,
      ps.map Passage.region⟩ = .ok (c0 ++ c1) := by
    simp only [CompoundRegion.toChunks, DsDc.tick, a1, R_bind_ok, k1, R_pure]
  refine ⟨checked_stops hb hm hr' ?_, _, c0 ++ c1, release_rendered hb hm hr' g1, ?_, ?_⟩
  · have hj : GlobalRepeatBuilder.jumpOf bars = some (.dc d first) := by
      simp only [GlobalRepeatBuilder.jumpOf, h1, h2]
      rw [if_neg (by omega)]
      rfl
    have hov : ¬ first + first ≤ U32_MAX := by omega
    simp only [GlobalRepeatBuilder.build, GlobalRepeatBuilder.builtOf, hj, h2, GlobalRepeatBuilder.dcSegno, h3,
      List.head?_nil, GlobalRepeatBuilder.implicitSegno, addU32, hov, if_false]
    rfl
  · rw [Release.agrees_toChunks ip _ (by rw [hch]; simp), hch]
  · rw [played_append, a2, k2, g2]

/-- C76: so what it plays is right, unless the sum happens to be a full bar modulo 2^32. -/
theorem C76_render_right (tune : Rhythm) (bars : List Bar) (d first : Nat) (h3 : marks bars .Segno = [])
    (h4 : U32_MAX < 2 * first) (h5 : (openingRhythm tune bars).tickLen < 2 ^ 31) :
    wrappedReturn (openingRhythm tune bars).tickLen first = dcTarget tune bars first d ↔
      2 * first ≠ 2 ^ 32 + (openingRhythm tune bars).tickLen := by
  simp only [dcTarget, h3, List.headD_nil, dcReturn, wrappedReturn, U32_MAX] at *
  generalize (openingRhythm tune bars).tickLen = r at *
  have e1 : ¬ first = r := by omega
  have e2 : ¬ 2 * first = r := by omega
  simp only [e1, e2, false_or, and_false, or_false, if_false]
  split <;> omega

example : let bars : List Bar := [⟨2147483648, none, none, {}⟩, ⟨3000000000, none, none, mark1 .Dc⟩]
    wrappedReturn (openingRhythm ⟨4, .D4⟩ bars).tickLen 2147483648 = dcTarget ⟨4, .D4⟩ bars 2147483648 3000000000 :=
  (C76_render_right ⟨4, .D4⟩ _ 3000000000 2147483648 (by decide) (by decide) (by decide)).2 (by decide)

/-- C76 fails for rendering: with a first bar of 2^31 + 480 ticks in 4/4 the D.C. goes
back to the beginning instead of the end of the first bar. -/
theorem C76_render_false (ip : Bool) :
    let bars : List Bar := [⟨2147484128, none, none, {}⟩, ⟨3000000000, none, none, mark1 .Dc⟩]
    BarsOk bars ∧ dcTarget ⟨4, .D4⟩ bars 2147484128 3000000000 = 2147484128 ∧
    ∃ c, Release.renderRegion ip ⟨4, .D4⟩ bars = .ok (c, []) ∧
      Release.toChunks ip c = .ok [⟨0, 3000000000⟩, ⟨0, U32_MAX⟩] := by
  refine ⟨⟨by decide, by decide⟩, by decide, ⟨some ⟨.dc 3000000000 2147484128, none, 0, none, [(0, U32_MAX - 1)]⟩, [.seq ⟨0, U32_MAX⟩]⟩, ?_, ?_⟩
  · cases ip <;> decide +kernel
  · cases ip <;> decide +kernel

/-! A first bar of 2^31 ticks, a repeat, a Fine and a D.C. -/

example : let bars : List Bar := [⟨2147483648, none, none, mark1 .Start⟩, ⟨2147487488, none, none, mark2 .End .Fine⟩,
      ⟨2147491328, none, none, mark1 .Dc⟩]
    BarsOk bars ∧ MarksOk bars ∧ QuietStart bars ∧ marks bars .Dc = [2147491328] ∧ firstBarEnd bars = some 2147483648 ∧
      marks bars .Segno = [] ∧ U32_MAX < 2 * 2147483648 ∧
      CodasOk true (wrappedReturn (openingRhythm ⟨4, .D4⟩ bars).tickLen 2147483648) bars ∧
      Reads none .first 0 bars [.plain 0 2147483648, .repeated 2147483648 2147487488, .plain 2147487488 U32_MAX] ∧
      (Passage.plain 0 2147483648).Outside 2147491328 ∧ (openingRhythm ⟨4, .D4⟩ bars).tickLen = 960 := by
  refine ⟨⟨by decide, by decide⟩, by unfold MarksOk; decide, by unfold QuietStart; decide, by decide, by decide, by decide, by decide,
    by decide, ?_, trivial, by decide⟩
  exact .start (inside := []) (by decide) (by simp) (by decide) (by decide) (.close (inside := []) (by decide) (by simp) (by decide)
    (.last (by decide) (by rw [show after _ = .plain from rfl]; simp only [Quiet]; decide)))

end Klavier
