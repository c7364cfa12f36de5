import Verif.Lemmas.ImplicitSegno
import Verif.Props.RenderError
import Verif.Spec.Figures
import Verif.Spec.Stretch

/-! # C94: what a D.C. or D.S. changes -/
set_option autoImplicit false
namespace Klavier
open Spec

private theorem marks_just {m : Repeat} {t : Nat} {bars : List Bar} (hb : BarsOk bars) (h0 : marks bars m = []) (h : LineAt bars t) :
    marks (marked m t bars) m = [t] := by
  refine sorted_ext (GlobalRepeatBuilder.marks_sorted (marked_barsOk.2 hb).1 m) (by simp) fun u => ?_
  rw [mem_marks_marked, h0]
  simp [h]

private theorem lineAt_marked {m : Repeat} {t u : Nat} {bars : List Bar} (h : LineAt bars u) : LineAt (marked m t bars) u := by
  obtain ⟨x, hx, rfl⟩ := h
  exact ⟨_, List.mem_map_of_mem hx, (markAt_facts m t x).1⟩

private theorem no_jump {tune : Rhythm} {bars : List Bar} (h1 : marks bars .Dc = []) (h2 : marks bars .Ds = []) (d target : Nat) :
    ¬ Jump tune bars d target := by
  rintro (⟨k, _⟩ | ⟨_, k, _⟩)
  · rw [h2] at k; cases k
  · rw [h1] at k; cases k

/-- The parts common to D.C. and D.S. -/
private theorem added {ip : Bool} {tune : Rhythm} {bars : List Bar} (hb : BarsOk bars) {c : CompoundRegion}
    {w : List RenderRegionWarning} {cs : List Chunk} (h : renderRegion ip tune bars = .ok (c, w)) (hc : c.toChunks ip = .ok cs)
    (hdc : marks bars .Dc = []) (hds : marks bars .Ds = []) (hq : QuietStart bars)
    {ps : List Passage} (hr : Reads (marks bars .Segno).head? .first 0 bars ps) {f : Bar → Bar} {d target : Nat} (hf : PutsJump d f)
    (hdlt : d < U32_MAX) (ho : ∀ p ∈ ps, p.Outside d)
    (hs : ∀ a ts b, Passage.endings a ts b ∈ ps → SegnoOk (marks (bars.map f) .Segno).head? ts)
    (hm : MarksOk (bars.map f)) (hok : JumpOk ip tune (bars.map f)) (hj : Jump tune (bars.map f) d target) :
    ∃ c' cs' before behind, renderRegion ip tune (bars.map f) = .ok (c', jumpWarnings (bars.map f)) ∧ c'.toChunks ip = .ok cs' ∧
      played cs = before ++ behind ∧ (∀ t ∈ before, t < d) ∧ (∀ t ∈ behind, d ≤ t) ∧
      played cs' = before ++ (ps.flatMap Passage.once).filter (fun t => decide (inSecondPass target (bars.map f) t)) := by
  have hb' : BarsOk (bars.map f) := by
    rw [barsOk_ticks] at hb ⊢
    rw [List.map_map, show ((·.startTick) ∘ f : Bar → Nat) = (·.startTick) from funext fun x => (hf x).1]
    exact hb
  have hr' : Reads (marks (bars.map f) .Segno).head? .first 0 (bars.map f) ps :=
    hf.reads hr (fun _ => rfl) hb (fun e => absurd rfl e) ho hs
  have hq' : QuietStart (bars.map f) := by
    intro z hz ez
    obtain ⟨x, hx, rfl⟩ := List.mem_map.1 hz
    rw [(hf x).1] at ez
    rw [(hf x).2.1 .Start (by decide) (by decide) (by decide), (hf x).2.1 .End (by decide) (by decide) (by decide), hf.ending]
    exact hq x hx ez
  obtain ⟨c', w', h'⟩ := (C32_accepts_iff ip tune _ hb').2 ⟨hm, ⟨ps, hr'⟩, hok⟩
  obtain ⟨rfl, cs', k1, k2⟩ := C30_rendered ip tune _ hb' c' w' h' d target hj hq' ps hr'
    (fun p hp => ho p (List.mem_of_mem_head? hp))
  obtain ⟨_, cs2, k3, k4⟩ := C29_rendered ip tune bars hb c w h (no_jump hdc hds) ps hr
  rw [hc] at k3
  cases k3
  obtain ⟨rest, e1, e2, e3⟩ := full_upTo (Reads_chain hr (fun _ => rfl) hb (fun e => absurd rfl e)) (by decide) hdlt ho
  exact ⟨c', cs', _, rest, h', k1, k4.trans e1, e2, e3, k2⟩

/-- A Segno at `s` and a D.S. at `d` put on a score. -/
private theorem puts_ds (s d : Nat) : PutsJump d (markAt .Ds d ∘ markAt .Segno s) := by
  intro x
  obtain ⟨f1, _, f3⟩ := markAt_facts .Segno s x
  obtain ⟨g1, _, g3⟩ := markAt_facts .Ds d (markAt .Segno s x)
  refine ⟨g1.trans f1, fun k h1 h2 h3 => ?_, fun hx k hk => ?_⟩
  · rw [Function.comp, g3, f3]
    simp [h2, h3]
  · rw [Function.comp, g3, f3, f1]
    rintro ((k1 | ⟨k1, _⟩) | ⟨_, k1⟩)
    · exact k1
    · subst k1; simp at hk
    · exact absurd k1 hx

private theorem puts_dc (d : Nat) : PutsJump d (markAt .Dc d) := by
  intro x
  obtain ⟨f1, _, f3⟩ := markAt_facts .Dc d x
  refine ⟨f1, fun k h1 h2 h3 => ?_, fun hx k hk => ?_⟩
  · rw [f3]
    simp [h1]
  · rw [f3]
    rintro (k1 | ⟨_, k1⟩)
    · exact k1
    · exact absurd k1 hx

private theorem line_lt {bars : List Bar} (hb : BarsOk bars) {d : Nat} (h : LineAt bars d) : d < U32_MAX := by
  obtain ⟨x, hx, rfl⟩ := h
  exact hb.2 x hx

/-- The marks of a score with a Segno and a D.S. put on it. -/
private theorem marks_ds {bars : List Bar} (hb : BarsOk bars) (hds : marks bars .Ds = []) (hsg : marks bars .Segno = []) {s d : Nat}
    (ls : LineAt bars s) (ld : LineAt bars d) :
    marks (marked .Ds d (marked .Segno s bars)) .Ds = [d] ∧ marks (marked .Ds d (marked .Segno s bars)) .Segno = [s] ∧
    ∀ k, k ≠ .Ds → k ≠ .Segno → marks (marked .Ds d (marked .Segno s bars)) k = marks bars k := by
  refine ⟨?_, ?_, fun k h1 h2 => ?_⟩
  · exact marks_just (marked_barsOk.2 hb) (by rw [marks_marked_ne (by decide)]; exact hds) (lineAt_marked ld)
  · rw [marks_marked_ne (by decide)]
    exact marks_just hb hsg ls
  · rw [marks_marked_ne h1, marks_marked_ne h2]

/-- C94: a Segno and a D.S. put on two bar lines of a score without a jump, the D.S. not in the
midst of a repeat or of endings, the Segno not within an ending other than the last: what was
played before the tick of the D.S. is still played; then, in place of what was behind it, from
the Segno on every passage once, of endings the last, up to Fine or the end (leaving out what
is between two Codas).  There is no warning. -/
theorem C94_ds (ip : Bool) (tune : Rhythm) (bars : List Bar) (hb : BarsOk bars) (c : CompoundRegion) (w : List RenderRegionWarning)
    (cs : List Chunk) (h : renderRegion ip tune bars = .ok (c, w)) (hc : c.toChunks ip = .ok cs) (hdc : marks bars .Dc = [])
    (hds : marks bars .Ds = []) (hsg : marks bars .Segno = []) (hq : QuietStart bars)
    (ps : List Passage) (hr : Reads none .first 0 bars ps) (s d : Nat) (ls : LineAt bars s) (ld : LineAt bars d)
    (ho : ∀ p ∈ ps, p.Outside d) (hs : ∀ a ts b, Passage.endings a ts b ∈ ps → SegnoOk (some s) ts)
    (hco : (marks bars .Coda).length ≠ 1 ∧ CodasOk ip s bars) :
    ∃ c' cs' before behind, renderRegion ip tune (marked .Ds d (marked .Segno s bars)) = .ok (c', []) ∧ c'.toChunks ip = .ok cs' ∧
      played cs = before ++ behind ∧ (∀ t ∈ before, t < d) ∧ (∀ t ∈ behind, d ≤ t) ∧
      played cs' = before ++ (ps.flatMap Passage.once).filter (fun t => decide (inSecondPass s bars t)) := by
  obtain ⟨m1, m2, m3⟩ := marks_ds hb hds hsg ls ld
  have e : marked .Ds d (marked .Segno s bars) = bars.map (markAt .Ds d ∘ markAt .Segno s) := by
    rw [marked_eq, marked_eq, List.map_map]
  have hsec : ∀ t, inSecondPass s (marked .Ds d (marked .Segno s bars)) t ↔ inSecondPass s bars t := by
    intro t
    simp only [inSecondPass, endTick, m3 .Coda (by decide) (by decide), m3 .Fine (by decide) (by decide)]
  have hmo := ((render_ok_iff hb.1 ip tune c w).1 h).1
  have hw : jumpWarnings (marked .Ds d (marked .Segno s bars)) = [] := by
    simp only [jumpWarnings, m3 .Dc (by decide) (by decide), hdc]
  have key := added (target := s) hb h hc hdc hds hq (by rw [hsg]; exact hr) (puts_ds s d) (line_lt hb ld) ho
    (by rw [← e, m2]; exact hs)
    (by
      rw [← e]
      simp only [MarksOk, m1, m2, m3 .Dc (by decide) (by decide), m3 .Fine (by decide) (by decide), m3 .Coda (by decide) (by decide), hdc]
      exact ⟨by simp, hmo.2.1, by simp, hmo.2.2.2⟩)
    (by
      rw [← e]
      refine ⟨fun d' _ => ⟨s, m2, by rw [m3 .Coda (by decide) (by decide)]; exact hco.1, ?_⟩, fun d' first k => ?_⟩
      · have := hco.2
        simpa only [CodasOk, endTick, m3 .Coda (by decide) (by decide), m3 .Fine (by decide) (by decide)] using this
      · rw [m3 .Dc (by decide) (by decide), hdc] at k
        cases k)
    (by rw [← e]; exact .inl ⟨m1, m2⟩)
  rw [← e, hw] at key
  simpa only [hsec] using key

/-- C94: the same for a D.C. put on a score with neither jump nor Segno, at most one Fine and no
lone Coda; it goes back to the top or to the second bar (C33). -/
theorem C94_dc (ip : Bool) (tune : Rhythm) (bars : List Bar) (hb : BarsOk bars) (c : CompoundRegion) (w : List RenderRegionWarning)
    (cs : List Chunk) (h : renderRegion ip tune bars = .ok (c, w)) (hc : c.toChunks ip = .ok cs) (hdc : marks bars .Dc = [])
    (hds : marks bars .Ds = []) (hsg : marks bars .Segno = []) (hq : QuietStart bars)
    (ps : List Passage) (hr : Reads none .first 0 bars ps) (first d : Nat) (hfirst : firstBarEnd bars = some first)
    (hfit : 2 * first ≤ U32_MAX) (ld : LineAt bars d) (ho : ∀ p ∈ ps, p.Outside d)
    (hco : (marks bars .Coda).length ≠ 1 ∧ CodasOk ip (dcReturn (openingRhythm tune bars).tickLen first d) bars) :
    ∃ c' cs' before behind, renderRegion ip tune (marked .Dc d bars) = .ok (c', []) ∧ c'.toChunks ip = .ok cs' ∧
      played cs = before ++ behind ∧ (∀ t ∈ before, t < d) ∧ (∀ t ∈ behind, d ≤ t) ∧
      played cs' = before ++ (ps.flatMap Passage.once).filter
        (fun t => decide (inSecondPass (dcReturn (openingRhythm tune bars).tickLen first d) bars t)) := by
  have m1 : marks (marked .Dc d bars) .Dc = [d] := marks_just hb hdc ld
  have m3 : ∀ k, k ≠ .Dc → marks (marked .Dc d bars) k = marks bars k := fun k hk => marks_marked_ne hk d bars
  have hsec : ∀ u t, inSecondPass u (marked .Dc d bars) t ↔ inSecondPass u bars t := by
    intro u t
    simp only [inSecondPass, endTick, m3 .Coda (by decide), m3 .Fine (by decide)]
  have hmo := ((render_ok_iff hb.1 ip tune c w).1 h).1
  have hw : jumpWarnings (marked .Dc d bars) = [] := by
    simp only [jumpWarnings, m1, marked_first, hfirst, dcWarnings, m3 .Segno (by decide), hsg, m3 .Coda (by decide)]
    match k : marks bars .Coda with
    | [] => rfl
    | [o] => exact absurd (by rw [k]; rfl) hco.1
    | _ :: _ :: _ => rfl
  have ht : dcTarget tune (marked .Dc d bars) first d = dcReturn (openingRhythm tune bars).tickLen first d := by
    simp only [dcTarget, m3 .Segno (by decide), hsg, marked_opening]
    rfl
  have key := added (target := dcReturn (openingRhythm tune bars).tickLen first d) hb h hc hdc hds hq (by rw [hsg]; exact hr)
    (puts_dc d) (line_lt hb ld) ho
    (by
      rw [← marked_eq, m3 .Segno (by decide), hsg]
      exact fun a ts b _ s first last k => by cases k)
    (by
      rw [← marked_eq]
      simp only [MarksOk, m1, m3 .Ds (by decide), m3 .Segno (by decide), m3 .Fine (by decide), m3 .Coda (by decide), hds]
      exact ⟨by simp, hmo.2.1, by simp [hsg], hmo.2.2.2⟩)
    (by
      rw [← marked_eq]
      refine ⟨fun d' k => ?_, fun d' first' k k' => ⟨fun _ => ?_, ?_⟩⟩
      · rw [m3 .Ds (by decide), hds] at k
        cases k
      · rw [marked_first, hfirst] at k'
        cases k'
        split <;> omega
      · rw [marked_first, hfirst] at k'
        cases k'
        rw [m1] at k
        cases k
        rw [ht]
        have := hco.2
        simpa only [CodasOk, endTick, m3 .Coda (by decide), m3 .Fine (by decide)] using this)
    (by rw [← marked_eq]; exact .inr ⟨first, m1, (marked_first ..).trans hfirst, ht.symm⟩)
  rw [← marked_eq, hw] at key
  simpa only [hsec] using key

/-- The bar line without Segno, D.C. and D.S. -/
private def plainLine (x : Bar) : Bar :=
  { x with repeats := ((x.repeats.set .Dc false).set .Ds false).set .Segno false }

private theorem plain_puts : PutsJump U32_MAX plainLine := by
  intro x
  refine ⟨rfl, fun k h1 h2 h3 => ?_, fun _ k hk => ?_⟩
  · simp [plainLine, Has, contains_set, h1, h2, h3]
  · rcases hk with rfl | rfl <;> simp [plainLine, Has, contains_set]

/-- A score without Segno, D.C. and D.S. reads as it does with them. -/
private theorem reads_without {bars : List Bar} (hb : BarsOk bars) (hdc : marks bars .Dc = []) (hds : marks bars .Ds = [])
    (hsg : marks bars .Segno = []) {f : Bar → Bar} (hf : ∀ x, (f x).startTick = x.startTick ∧ (f x).rhythm = x.rhythm ∧ (f x).key = x.key ∧
      ∀ k, k ≠ .Dc → k ≠ .Ds → k ≠ .Segno → (Has (f x) k ↔ Has x k))
    {sg : Option Nat} {ps : List Passage} (hr : Reads sg .first 0 (bars.map f) ps) : Reads none .first 0 bars ps := by
  have hb' : BarsOk (bars.map f) := by
    rw [barsOk_ticks] at hb ⊢
    rw [List.map_map, show ((·.startTick) ∘ f : Bar → Nat) = (·.startTick) from funext fun x => (hf x).1]
    exact hb
  have hch := Chain_mem (Reads_chain hr (fun _ => rfl) hb' (fun e => absurd rfl e)) (by decide)
  have := plain_puts.reads (sg' := none) hr (fun _ => rfl) hb' (fun e => absurd rfl e)
    (fun p hp => by
      have := (hch p hp).2
      cases p with
      | plain => trivial
      | repeated => exact .inr this
      | endings => exact .inr this)
    (fun a ts b _ s first last k => by cases k)
  rw [List.map_map] at this
  have e : bars.map (plainLine ∘ f) = bars := by
    conv => rhs; rw [← List.map_id bars]
    refine List.map_congr_left fun x hx => ?_
    have none : ∀ m, marks bars m = [] → x.repeats.contains m = false := by
      intro m hm
      rw [Bool.eq_false_iff]
      intro k
      have : x.startTick ∈ marks bars m := mem_marks.2 ⟨x, hx, k, rfl⟩
      rw [hm] at this
      cases this
    obtain ⟨f1, f2, f3, f4⟩ := hf x
    have hs : (plainLine (f x)).repeats = x.repeats := by
      apply RepeatSet.ext_contains
      intro k
      simp only [plainLine, contains_set]
      by_cases k1 : k = .Segno
      · rw [if_pos k1, k1, none _ hsg]
      · rw [if_neg k1]
        by_cases k2 : k = .Ds
        · rw [if_pos k2, k2, none _ hds]
        · rw [if_neg k2]
          by_cases k3 : k = .Dc
          · rw [if_pos k3, k3, none _ hdc]
          · rw [if_neg k3]
            exact Bool.eq_iff_iff.2 (f4 k k3 k2 k1)
    have e1 : (plainLine (f x)).startTick = x.startTick := f1
    have e2 : (plainLine (f x)).rhythm = x.rhythm := f2
    have e3 : (plainLine (f x)).key = x.key := f3
    show plainLine (f x) = x
    generalize plainLine (f x) = y at hs e1 e2 e3
    cases x
    cases y
    simp only at hs e1 e2 e3
    rw [hs, e1, e2, e3]
  rwa [e] at this

private theorem markAt_key (m : Repeat) (t : Nat) (x : Bar) : (markAt m t x).key = x.key := by
  unfold markAt
  split <;> rfl

private theorem cut_unique {l a b a' b' : List Nat} {d : Nat} (h : l = a ++ b) (h' : l = a' ++ b') (k1 : ∀ t ∈ a, t < d)
    (k2 : ∀ t ∈ b, d ≤ t) (k1' : ∀ t ∈ a', t < d) (k2' : ∀ t ∈ b', d ≤ t) : a = a' := by
  have go : ∀ x y : List Nat, (∀ t ∈ x, t < d) → (∀ t ∈ y, d ≤ t) → (x ++ y).filter (fun t => decide (t < d)) = x := by
    intro x y hx hy
    rw [List.filter_append, List.filter_eq_self.2 (fun t ht => decide_eq_true (hx t ht)),
      List.filter_eq_nil_iff.2 (fun t ht => by have := hy t ht; simp; omega), List.append_nil]
  rw [← go a b k1 k2, ← go a' b' k1' k2', ← h, ← h']

/-- C94: a D.C. is a D.S. with a Segno nobody wrote (docs/repeat/order.md): where there is a bar
line at the place a D.C. goes back to, and it is not in an ending other than the last, writing the
Segno there and a D.S. for the D.C. changes nothing that is played. -/
theorem C94_dc_as_ds (ip : Bool) (tune : Rhythm) (bars : List Bar) (hb : BarsOk bars) (c : CompoundRegion)
    (w : List RenderRegionWarning) (cs : List Chunk) (h : renderRegion ip tune bars = .ok (c, w)) (hc : c.toChunks ip = .ok cs)
    (hdc : marks bars .Dc = []) (hds : marks bars .Ds = []) (hsg : marks bars .Segno = []) (hq : QuietStart bars)
    (ps : List Passage) (hr : Reads none .first 0 bars ps) (first s d : Nat) (hfirst : firstBarEnd bars = some first)
    (hfit : 2 * first ≤ U32_MAX) (hs : s = dcReturn (openingRhythm tune bars).tickLen first d) (ls : LineAt bars s)
    (ld : LineAt bars d) (ho : ∀ p ∈ ps, p.Outside d) (hse : ∀ a ts b, Passage.endings a ts b ∈ ps → SegnoOk (some s) ts)
    (hco : (marks bars .Coda).length ≠ 1 ∧ CodasOk ip s bars) :
    ∃ c1 cs1 c2 cs2, renderRegion ip tune (marked .Dc d bars) = .ok (c1, []) ∧ c1.toChunks ip = .ok cs1 ∧
      renderRegion ip tune (marked .Ds d (marked .Segno s bars)) = .ok (c2, []) ∧ c2.toChunks ip = .ok cs2 ∧
      played cs1 = played cs2 := by
  obtain ⟨c2, cs2, a2, b2, k1, k2, k3, k4, k5, k6⟩ := C94_ds ip tune bars hb c w cs h hc hdc hds hsg hq ps hr s d ls ld ho hse hco
  subst hs
  obtain ⟨c1, cs1, a1, b1, j1, j2, j3, j4, j5, j6⟩ := C94_dc ip tune bars hb c w cs h hc hdc hds hsg hq ps hr first d hfirst hfit ld ho hco
  refine ⟨c1, cs1, c2, cs2, j1, j2, k1, k2, ?_⟩
  rw [j6, k6, cut_unique j3 k3 j4 j5 k4 k5]

private theorem alike_pair (s d : Nat) (x : Bar) : Alike (markAt .Dc d x) (markAt .Ds d (markAt .Segno s x)) := by
  obtain ⟨f1, _, f3⟩ := markAt_facts .Segno s x
  obtain ⟨g1, _, g3⟩ := markAt_facts .Ds d (markAt .Segno s x)
  obtain ⟨k1, _, k3⟩ := markAt_facts .Dc d x
  refine ⟨(g1.trans f1).trans k1.symm, fun k h1 h2 h3 => ?_, ?_⟩
  · rw [g3, f3, k3]
    simp [h1, h2, h3]
  · rw [g3, g3, f3, f3, k3, k3, f1]
    simp
    constructor
    · rintro (h | h | h)
      · exact .inl (.inl h)
      · exact .inr h
      · exact .inl (.inr h)
    · rintro ((h | h) | h)
      · exact .inl h
      · exact .inr (.inr h)
      · exact .inr (.inl h)

private theorem alike_symm {x y : Bar} (h : Alike x y) : Alike y x :=
  ⟨h.1.symm, fun k h1 h2 h3 => (h.2.1 k h1 h2 h3).symm, h.2.2.symm⟩

private theorem toChunks_jump (ip : Bool) (g : GlobalRepeat) (j : DsDc) (hj : j.tick = g.dsDc.tick) (rs : List SimpleRegion) :
    CompoundRegion.toChunks ip ⟨some { g with dsDc := j }, rs⟩ = CompoundRegion.toChunks ip ⟨some g, rs⟩ := by
  have one : ∀ r : SimpleRegion, r.renderChunks ip (.iter1 { g with dsDc := j }) = r.renderChunks ip (.iter1 g) := by
    intro r
    cases r <;> rfl
  have all : ∀ rs : List SimpleRegion, CompoundRegion.renderAll ip (.iter1 { g with dsDc := j }) rs =
      CompoundRegion.renderAll ip (.iter1 g) rs := by
    intro rs
    induction rs with
    | nil => rfl
    | cons r rs ih => rw [CompoundRegion.renderAll, CompoundRegion.renderAll, one, ih]
  simp only [CompoundRegion.toChunks, hj, all]

/-- C94: exactly when the two are the same: on any score without jump and Segno (also with the
jump in the midst of a repeat), with a bar line at the place the D.C. goes back to, the D.S. with the
Segno there is accepted exactly if the D.C. is, there is no lone Coda and the place is not in an
ending other than the last; and then both give the same chunks or the same panic, and no
warning. -/
theorem C94_dc_as_ds_iff (ip : Bool) (tune : Rhythm) (bars : List Bar) (hb : BarsOk bars)
    (hdc : marks bars .Dc = []) (hds : marks bars .Ds = []) (hsg : marks bars .Segno = [])
    (first s d : Nat) (hfirst : firstBarEnd bars = some first) (hfit : 2 * first ≤ U32_MAX)
    (hs : s = dcReturn (openingRhythm tune bars).tickLen first d) (ls : LineAt bars s) (ld : LineAt bars d) :
    ((∃ c w, renderRegion ip tune (marked .Ds d (marked .Segno s bars)) = .ok (c, w)) ↔
      (∃ c w, renderRegion ip tune (marked .Dc d bars) = .ok (c, w)) ∧ (marks bars .Coda).length ≠ 1 ∧
        ∀ ps, Reads none .first 0 (marked .Dc d bars) ps → ∀ a ts b, Passage.endings a ts b ∈ ps → SegnoOk (some s) ts) ∧
    ∀ c1 w1 c2 w2, renderRegion ip tune (marked .Dc d bars) = .ok (c1, w1) →
      renderRegion ip tune (marked .Ds d (marked .Segno s bars)) = .ok (c2, w2) →
      c1.toChunks ip = c2.toChunks ip ∧ w1 = [] ∧ w2 = [] := by
  obtain ⟨m1, m2, m3⟩ := marks_ds hb hds hsg ls ld
  have n1 : marks (marked .Dc d bars) .Dc = [d] := marks_just hb hdc ld
  have n3 : ∀ k, k ≠ .Dc → marks (marked .Dc d bars) k = marks bars k := fun k hk => marks_marked_ne hk d bars
  have hbx : BarsOk (marked .Dc d bars) := marked_barsOk.2 hb
  have hby : BarsOk (marked .Ds d (marked .Segno s bars)) := marked_barsOk.2 (marked_barsOk.2 hb)
  have hfp : 0 < first := by
    have := List.find?_some hfirst
    simpa using this
  generalize hl : (if d = 0 then 0 else first) = len
  have hlen : (if d = 0 then 0 else first) + first ≤ U32_MAX := by split <;> omega
  have bx : GlobalRepeatBuilder.builtOf tune (marked .Dc d bars) = ⟨some (.dc d len), (marks bars .Fine).head?, none,
      GlobalRepeatBuilder.codaOf (marks bars .Coda), some first, openingRhythm tune bars, []⟩ := by
    simp only [GlobalRepeatBuilder.builtOf, GlobalRepeatBuilder.jumpOf, n1, n3 .Fine (by decide), n3 .Segno (by decide),
      n3 .Coda (by decide), hsg, marked_first, hfirst, marked_opening, Option.getD_some, hl, List.head?_nil]
  have by_ : GlobalRepeatBuilder.builtOf tune (marked .Ds d (marked .Segno s bars)) = ⟨some (.ds d), (marks bars .Fine).head?, some s,
      GlobalRepeatBuilder.codaOf (marks bars .Coda), some first, openingRhythm tune bars, []⟩ := by
    simp only [GlobalRepeatBuilder.builtOf, GlobalRepeatBuilder.jumpOf, m1, m2, m3 .Dc (by decide) (by decide), hdc,
      m3 .Fine (by decide) (by decide), m3 .Coda (by decide) (by decide), marked_first, hfirst, marked_opening, List.head?_cons]
  have key : (marks bars .Coda).length ≠ 1 →
      (GlobalRepeatBuilder.builtOf tune (marked .Dc d bars)).build ip =
        ((GlobalRepeatBuilder.builtOf tune (marked .Ds d (marked .Segno s bars))).build ip).map
          (fun p => (p.1.map (fun g => { g with dsDc := .dc d len }), p.2)) := by
    intro hco
    rw [bx, by_]
    refine build_dc_ds ip _ _ first s d len _ ?_ fun o e => ?_
    · rw [hs, ← hl]
      exact GlobalRepeatBuilder.implicitSegno_ok _ d first hfp hlen
    · match k : marks bars .Coda with
      | [] => rw [k] at e; cases e
      | [_] => rw [k] at hco; exact hco rfl
      | _ :: _ :: _ => rw [k] at e; cases e
  have lone : ∀ p, (GlobalRepeatBuilder.builtOf tune (marked .Ds d (marked .Segno s bars))).build ip = .ok p →
      (marks bars .Coda).length ≠ 1 ∧ p.2 = [] ∧ ∃ g : GlobalRepeat, p.1 = some g ∧ g.dsDc = .ds d := by
    intro p hp
    rw [by_] at hp
    simp only [GlobalRepeatBuilder.build, GlobalRepeatBuilder.dsSegno, RR_bind_ok] at hp
    obtain ⟨cd, k1, hp⟩ := (RR_bind_eq_ok _ _ _).1 hp
    obtain ⟨S, _, hp⟩ := (RR_bind_eq_ok _ _ _).1 hp
    cases hp
    refine ⟨fun e => ?_, rfl, _, rfl, rfl⟩
    match k : marks bars .Coda with
    | [] => rw [k] at e; cases e
    | [o] =>
      rw [k] at k1
      cases k1
    | _ :: _ :: _ => rw [k] at e; simp at e
  have tox : ∀ ps, Reads (some s) .first 0 (marked .Ds d (marked .Segno s bars)) ps → Reads none .first 0 (marked .Dc d bars) ps := by
    intro ps hr
    have := reads_alike (sg' := none) hr (bars.map fun x => (markAt .Ds d (markAt .Segno s x), markAt .Dc d x))
      (by rw [List.map_map, marked_eq, marked_eq, List.map_map]; rfl)
      (fun z hz => by obtain ⟨x, _, rfl⟩ := List.mem_map.1 hz; exact alike_symm (alike_pair s d x))
      (fun a ts b _ s first last k => by cases k)
    rw [List.map_map] at this
    exact this
  have toy : ∀ ps, (∀ a ts b, Passage.endings a ts b ∈ ps → SegnoOk (some s) ts) → Reads none .first 0 (marked .Dc d bars) ps →
      Reads (some s) .first 0 (marked .Ds d (marked .Segno s bars)) ps := by
    intro ps hse hr
    have := reads_alike (sg' := some s) hr (bars.map fun x => (markAt .Dc d x, markAt .Ds d (markAt .Segno s x)))
      (by rw [List.map_map, marked_eq]; rfl)
      (fun z hz => by obtain ⟨x, _, rfl⟩ := List.mem_map.1 hz; exact alike_pair s d x) hse
    rw [List.map_map] at this
    rw [marked_eq, marked_eq, List.map_map]
    exact this
  have mk : MarksOk (marked .Ds d (marked .Segno s bars)) ↔ MarksOk (marked .Dc d bars) := by
    simp only [MarksOk, m1, m2, n1, m3 .Dc (by decide) (by decide), m3 .Fine (by decide) (by decide), m3 .Coda (by decide) (by decide),
      n3 .Ds (by decide), n3 .Fine (by decide), n3 .Coda (by decide), n3 .Segno (by decide), hdc, hds, hsg]
    simp
  have hx := fun c w => render_ok_iff hbx.1 ip tune c w
  have hy := fun c w => render_ok_iff hby.1 ip tune c w
  simp only [n3 .Segno (by decide), hsg, List.head?_nil] at hx
  simp only [m2, List.head?_cons] at hy
  refine ⟨⟨?_, ?_⟩, ?_⟩
  · rintro ⟨c, w, h⟩
    obtain ⟨q1, ⟨ps, q2, q3⟩, q4⟩ := (hy c w).1 h
    obtain ⟨l1, _, _⟩ := lone _ q4
    have hk := key l1
    rw [q4] at hk
    refine ⟨⟨⟨c.globalRepeat.map (fun g : GlobalRepeat => { g with dsDc := .dc d len }), c.regions⟩, w, (hx _ _).2 ⟨mk.1 q1, ⟨ps, tox ps q2, q3⟩, hk⟩⟩, l1, fun qs hq => ?_⟩
    rw [Reads_unique hbx hq (tox ps q2)]
    exact reads_segno q2
  · rintro ⟨⟨c, w, h⟩, hco, hse⟩
    obtain ⟨q1, ⟨ps, q2, q3⟩, q4⟩ := (hx c w).1 h
    rw [key hco] at q4
    match k : (GlobalRepeatBuilder.builtOf tune (marked .Ds d (marked .Segno s bars))).build ip with
    | .error e => rw [k] at q4; cases q4
    | .ok (g, w') => exact ⟨⟨g, c.regions⟩, w', (hy _ _).2 ⟨mk.2 q1, ⟨ps, toy ps (hse ps q2) q2, q3⟩, k⟩⟩
  · intro c1 w1 c2 w2 h1 h2
    obtain ⟨q1, ⟨ps, q2, q3⟩, q4⟩ := (hx c1 w1).1 h1
    obtain ⟨r1, ⟨qs, r2, r3⟩, r4⟩ := (hy c2 w2).1 h2
    obtain ⟨l1, l2, g, l3, l4⟩ := lone _ r4
    rw [key l1, r4] at q4
    obtain ⟨gr1, rs1⟩ := c1
    obtain ⟨gr2, rs2⟩ := c2
    dsimp only at l2 l3 q3 r3 q4 r4
    subst l2 l3
    cases q4
    refine ⟨?_, rfl, rfl⟩
    rw [q3, r3, Reads_unique hbx q2 (tox qs r2)]
    exact toChunks_jump ip g (.dc d len) (by rw [l4]; rfl) _

private theorem alike_jump (d : Nat) (x : Bar) : Alike (markAt .Dc d x) (markAt .Ds d x) := by
  obtain ⟨g1, _, g3⟩ := markAt_facts .Ds d x
  obtain ⟨k1, _, k3⟩ := markAt_facts .Dc d x
  refine ⟨g1.trans k1.symm, fun k h1 h2 h3 => ?_, ?_⟩
  · rw [g3, k3]
    simp [h1, h2]
  · rw [g3, g3, k3, k3]
    simp
    constructor
    · rintro (h | h | h)
      · exact .inl (.inl h)
      · exact .inr h
      · exact .inl (.inr h)
    · rintro ((h | h) | h)
      · exact .inl h
      · exact .inr (.inr h)
      · exact .inr (.inl h)

/-- C94: with a Segno in the score a D.C. is a D.S. with a warning: the D.S. is accepted exactly if
the D.C. is and there is no lone Coda, and then both give the same chunks or the same panic. -/
theorem C94_dc_with_segno (ip : Bool) (tune : Rhythm) (bars : List Bar) (hb : BarsOk bars)
    (hdc : marks bars .Dc = []) (hds : marks bars .Ds = []) (first s d : Nat) (hsg : marks bars .Segno = [s])
    (hfirst : firstBarEnd bars = some first) (ld : LineAt bars d) :
    ((∃ c w, renderRegion ip tune (marked .Ds d bars) = .ok (c, w)) ↔
      (∃ c w, renderRegion ip tune (marked .Dc d bars) = .ok (c, w)) ∧ (marks bars .Coda).length ≠ 1) ∧
    ∀ c1 w1 c2 w2, renderRegion ip tune (marked .Dc d bars) = .ok (c1, w1) → renderRegion ip tune (marked .Ds d bars) = .ok (c2, w2) →
      c1.toChunks ip = c2.toChunks ip ∧ w1 = [.segnoAndDcFound s d] ∧ w2 = [] := by
  have m1 : marks (marked .Ds d bars) .Ds = [d] := marks_just hb hds ld
  have m3 : ∀ k, k ≠ .Ds → marks (marked .Ds d bars) k = marks bars k := fun k hk => marks_marked_ne hk d bars
  have n1 : marks (marked .Dc d bars) .Dc = [d] := marks_just hb hdc ld
  have n3 : ∀ k, k ≠ .Dc → marks (marked .Dc d bars) k = marks bars k := fun k hk => marks_marked_ne hk d bars
  have hbx : BarsOk (marked .Dc d bars) := marked_barsOk.2 hb
  have hby : BarsOk (marked .Ds d bars) := marked_barsOk.2 hb
  generalize hl : (if d = 0 then 0 else first) = len
  have bx : GlobalRepeatBuilder.builtOf tune (marked .Dc d bars) = ⟨some (.dc d len), (marks bars .Fine).head?, some s,
      GlobalRepeatBuilder.codaOf (marks bars .Coda), some first, openingRhythm tune bars, []⟩ := by
    simp only [GlobalRepeatBuilder.builtOf, GlobalRepeatBuilder.jumpOf, n1, n3 .Fine (by decide), n3 .Segno (by decide),
      n3 .Coda (by decide), hsg, marked_first, hfirst, marked_opening, Option.getD_some, hl, List.head?_cons]
  have by_ : GlobalRepeatBuilder.builtOf tune (marked .Ds d bars) = ⟨some (.ds d), (marks bars .Fine).head?, some s,
      GlobalRepeatBuilder.codaOf (marks bars .Coda), some first, openingRhythm tune bars, []⟩ := by
    simp only [GlobalRepeatBuilder.builtOf, GlobalRepeatBuilder.jumpOf, m1, m3 .Segno (by decide), hsg, m3 .Dc (by decide), hdc,
      m3 .Fine (by decide), m3 .Coda (by decide), marked_first, hfirst, marked_opening, List.head?_cons]
  have key : (marks bars .Coda).length ≠ 1 →
      (GlobalRepeatBuilder.builtOf tune (marked .Dc d bars)).build ip =
        ((GlobalRepeatBuilder.builtOf tune (marked .Ds d bars)).build ip).map
          (fun p => (p.1.map (fun g => { g with dsDc := .dc d len }), [.segnoAndDcFound s d])) := by
    intro hco
    rw [bx, by_]
    refine build_dc_segno ip _ _ first s d len _ fun o e => ?_
    match k : marks bars .Coda with
    | [] => rw [k] at e; cases e
    | [_] => rw [k] at hco; exact hco rfl
    | _ :: _ :: _ => rw [k] at e; cases e
  have lone : ∀ p, (GlobalRepeatBuilder.builtOf tune (marked .Ds d bars)).build ip = .ok p →
      (marks bars .Coda).length ≠ 1 ∧ p.2 = [] ∧ ∃ g : GlobalRepeat, p.1 = some g ∧ g.dsDc = .ds d := by
    intro p hp
    rw [by_] at hp
    simp only [GlobalRepeatBuilder.build, GlobalRepeatBuilder.dsSegno, RR_bind_ok] at hp
    obtain ⟨cd, k1, hp⟩ := (RR_bind_eq_ok _ _ _).1 hp
    obtain ⟨S, _, hp⟩ := (RR_bind_eq_ok _ _ _).1 hp
    cases hp
    refine ⟨fun e => ?_, rfl, _, rfl, rfl⟩
    match k : marks bars .Coda with
    | [] => rw [k] at e; cases e
    | [o] =>
      rw [k] at k1
      cases k1
    | _ :: _ :: _ => rw [k] at e; simp at e
  have tox : ∀ ps, Reads (some s) .first 0 (marked .Ds d bars) ps → Reads (some s) .first 0 (marked .Dc d bars) ps := by
    intro ps hr
    have := reads_alike (sg' := some s) hr (bars.map fun x => (markAt .Ds d x, markAt .Dc d x))
      (by rw [List.map_map, marked_eq]; rfl)
      (fun z hz => by obtain ⟨x, _, rfl⟩ := List.mem_map.1 hz; exact alike_symm (alike_jump d x)) (reads_segno hr)
    rw [List.map_map] at this
    exact this
  have toy : ∀ ps, Reads (some s) .first 0 (marked .Dc d bars) ps → Reads (some s) .first 0 (marked .Ds d bars) ps := by
    intro ps hr
    have := reads_alike (sg' := some s) hr (bars.map fun x => (markAt .Dc d x, markAt .Ds d x))
      (by rw [List.map_map, marked_eq]; rfl)
      (fun z hz => by obtain ⟨x, _, rfl⟩ := List.mem_map.1 hz; exact alike_jump d x) (reads_segno hr)
    rw [List.map_map] at this
    exact this
  have mk : MarksOk (marked .Ds d bars) ↔ MarksOk (marked .Dc d bars) := by
    simp only [MarksOk, m1, n1, m3 .Dc (by decide), m3 .Fine (by decide), m3 .Coda (by decide), m3 .Segno (by decide),
      n3 .Ds (by decide), n3 .Fine (by decide), n3 .Coda (by decide), n3 .Segno (by decide), hdc, hds, hsg]
    simp
  have hx := fun c w => render_ok_iff hbx.1 ip tune c w
  have hy := fun c w => render_ok_iff hby.1 ip tune c w
  simp only [n3 .Segno (by decide), hsg, List.head?_cons] at hx
  simp only [m3 .Segno (by decide), hsg, List.head?_cons] at hy
  refine ⟨⟨?_, ?_⟩, ?_⟩
  · rintro ⟨c, w, h⟩
    obtain ⟨q1, ⟨ps, q2, q3⟩, q4⟩ := (hy c w).1 h
    obtain ⟨l1, _, _⟩ := lone _ q4
    have hk := key l1
    rw [q4] at hk
    exact ⟨⟨⟨c.globalRepeat.map (fun g : GlobalRepeat => { g with dsDc := .dc d len }), c.regions⟩, [.segnoAndDcFound s d],
      (hx _ _).2 ⟨mk.1 q1, ⟨ps, tox ps q2, q3⟩, hk⟩⟩, l1⟩
  · rintro ⟨⟨c, w, h⟩, hco⟩
    obtain ⟨q1, ⟨ps, q2, q3⟩, q4⟩ := (hx c w).1 h
    rw [key hco] at q4
    match k : (GlobalRepeatBuilder.builtOf tune (marked .Ds d bars)).build ip with
    | .error e => rw [k] at q4; cases q4
    | .ok (g, w') => exact ⟨⟨g, c.regions⟩, w', (hy _ _).2 ⟨mk.2 q1, ⟨ps, toy ps q2, q3⟩, k⟩⟩
  · intro c1 w1 c2 w2 h1 h2
    obtain ⟨q1, ⟨ps, q2, q3⟩, q4⟩ := (hx c1 w1).1 h1
    obtain ⟨r1, ⟨qs, r2, r3⟩, r4⟩ := (hy c2 w2).1 h2
    obtain ⟨l1, l2, g, l3, l4⟩ := lone _ r4
    rw [key l1, r4] at q4
    obtain ⟨gr1, rs1⟩ := c1
    obtain ⟨gr2, rs2⟩ := c2
    dsimp only at l2 l3 q3 r3 q4 r4
    subst l2 l3
    cases q4
    refine ⟨?_, rfl, rfl⟩
    rw [q3, r3, Reads_unique hbx q2 (tox qs r2)]
    exact toChunks_jump ip g (.dc d len) (by rw [l4]; rfl) _

/-- C94: in the midst of a repeat or of endings (other than at the beginning of the score) neither
a D.S. nor a D.C. is accepted, nor is a Segno within an ending other than the last. -/
theorem C94_refused (ip : Bool) (tune : Rhythm) (bars : List Bar) (hb : BarsOk bars) (hdc : marks bars .Dc = [])
    (hds : marks bars .Ds = []) (hsg : marks bars .Segno = []) (ps : List Passage) (hr : Reads none .first 0 bars ps) (s d : Nat)
    (ls : LineAt bars s) (ld : LineAt bars d) :
    ((∃ p ∈ ps.tail, ¬ p.Outside d) → ∀ c w, renderRegion ip tune (marked .Ds d (marked .Segno s bars)) ≠ .ok (c, w) ∧
      renderRegion ip tune (marked .Dc d bars) ≠ .ok (c, w)) ∧
    ((∃ a ts b, Passage.endings a ts b ∈ ps ∧ ¬ SegnoOk (some s) ts) →
      ∀ c w, renderRegion ip tune (marked .Ds d (marked .Segno s bars)) ≠ .ok (c, w)) := by
  obtain ⟨m1, m2, _⟩ := marks_ds hb hds hsg ls ld
  have hds' : ∀ c w, renderRegion ip tune (marked .Ds d (marked .Segno s bars)) = .ok (c, w) →
      Reads (some s) .first 0 (marked .Ds d (marked .Segno s bars)) ps := by
    intro c w h
    obtain ⟨_, ⟨qs, hq, _⟩, _⟩ := (render_ok_iff (marked_barsOk.2 (marked_barsOk.2 hb)).1 ip tune c w).1 h
    rw [m2] at hq
    have e : marked .Ds d (marked .Segno s bars) = bars.map (markAt .Ds d ∘ markAt .Segno s) := by
      rw [marked_eq, marked_eq, List.map_map]
    have hq' := hq
    rw [e] at hq'
    have := reads_without hb hdc hds hsg (fun x => ⟨(puts_ds s d x).1, ((markAt_facts _ _ _).2.1).trans (markAt_facts _ _ _).2.1,
      (markAt_key _ _ _).trans (markAt_key _ _ _), (puts_ds s d x).2.1⟩) hq'
    rw [Reads_unique hb hr this]
    exact hq
  refine ⟨?_, ?_⟩
  · rintro ⟨p, hp, hn⟩ c w
    refine ⟨fun h => ?_, fun h => ?_⟩
    · exact hn (outside_tail (marked_barsOk.2 (marked_barsOk.2 hb)) (hds' c w h) (.inr (by rw [m1]; simp)) p hp)
    · obtain ⟨_, ⟨qs, hq, _⟩, _⟩ := (render_ok_iff (marked_barsOk.2 hb).1 ip tune c w).1 h
      have hq' := hq
      rw [marked_eq] at hq'
      have := reads_without hb hdc hds hsg (fun x => ⟨(puts_dc d x).1, (markAt_facts _ _ _).2.1, markAt_key _ _ _, (puts_dc d x).2.1⟩) hq'
      rw [← Reads_unique hb hr this] at hq
      exact hn (outside_tail (marked_barsOk.2 hb) hq (.inl (by rw [marks_just hb hdc ld]; simp)) p hp)
  · rintro ⟨a, ts, b, hp, hn⟩ c w h
    exact hn (reads_segno (hds' c w h) a ts b hp)

/-- C94: exactly when a D.C. put on a score with neither jump nor Segno is accepted: not in the
midst of a repeat or of endings, the first passage apart, of which only the endings are barred;
the first bar must fit twice, and the Codas must fit. -/
theorem C94_dc_accepts_iff (ip : Bool) (tune : Rhythm) (bars : List Bar) (hb : BarsOk bars) (c : CompoundRegion)
    (w : List RenderRegionWarning) (h : renderRegion ip tune bars = .ok (c, w)) (hdc : marks bars .Dc = [])
    (hds : marks bars .Ds = []) (hsg : marks bars .Segno = []) (ps : List Passage) (hr : Reads none .first 0 bars ps) (d : Nat)
    (ld : LineAt bars d) :
    (∃ c' w', renderRegion ip tune (marked .Dc d bars) = .ok (c', w')) ↔
      (∀ p ∈ ps.tail, p.Outside d) ∧ (∀ a v ts b, ps.head? = some (.endings a (v :: ts) b) → d ≤ v ∨ b ≤ d) ∧
      ∀ first, firstBarEnd bars = some first → (if d = 0 then 0 else first) + first ≤ U32_MAX ∧
        CodasOk ip (dcReturn (openingRhythm tune bars).tickLen first d) bars := by
  have m1 : marks (marked .Dc d bars) .Dc = [d] := marks_just hb hdc ld
  have m3 : ∀ k, k ≠ .Dc → marks (marked .Dc d bars) k = marks bars k := fun k hk => marks_marked_ne hk d bars
  have hmo := ((render_ok_iff hb.1 ip tune c w).1 h).1
  have hm : MarksOk (marked .Dc d bars) := by
    simp only [MarksOk, m1, m3 .Ds (by decide), m3 .Segno (by decide), m3 .Fine (by decide), m3 .Coda (by decide), hds]
    exact ⟨by simp, hmo.2.1, by simp [hsg], hmo.2.2.2⟩
  have hj : JumpOk ip tune (marked .Dc d bars) ↔ ∀ first, firstBarEnd bars = some first →
      (if d = 0 then 0 else first) + first ≤ U32_MAX ∧ CodasOk ip (dcReturn (openingRhythm tune bars).tickLen first d) bars := by
    have ht : ∀ first, dcTarget tune (marked .Dc d bars) first d = dcReturn (openingRhythm tune bars).tickLen first d := by
      intro first
      simp only [dcTarget, m3 .Segno (by decide), hsg, marked_opening]
      rfl
    have hco : ∀ u, CodasOk ip u (marked .Dc d bars) ↔ CodasOk ip u bars := by
      intro u
      simp only [CodasOk, endTick, m3 .Coda (by decide), m3 .Fine (by decide)]
    refine ⟨fun k first hf => ?_, fun k => ⟨fun d' e => ?_, fun d' first e hf => ?_⟩⟩
    · obtain ⟨k1, k2⟩ := k.2 d first m1 ((marked_first ..).trans hf)
      rw [ht, hco] at k2
      exact ⟨k1 ((m3 .Segno (by decide)).trans hsg), k2⟩
    · rw [m3 .Ds (by decide), hds] at e
      cases e
    · rw [m1] at e
      cases e
      rw [marked_first] at hf
      rw [ht, hco]
      exact ⟨fun _ => (k first hf).1, (k first hf).2⟩
  rw [C32_accepts_iff ip tune _ (marked_barsOk.2 hb), hj, m3 .Segno (by decide), hsg, List.head?_nil]
  refine ⟨?_, fun ⟨h1, h2, h3⟩ => ⟨hm, ⟨ps, ?_⟩, h3⟩⟩
  · rintro ⟨_, ⟨qs, hq⟩, k⟩
    have hq' := hq
    rw [marked_eq] at hq'
    have := reads_without hb hdc hds hsg (fun x => ⟨(puts_dc d x).1, (markAt_facts _ _ _).2.1, markAt_key _ _ _, (puts_dc d x).2.1⟩) hq'
    rw [← Reads_unique hb hr this] at hq
    refine ⟨outside_tail (marked_barsOk.2 hb) hq (.inl (by rw [m1]; simp)), fun a v ts b e => ?_, k⟩
    refine outside_head hq (marked_barsOk.2 hb) ?_ e
    obtain ⟨y, y1, y2, y3⟩ := mem_marks.1 (show d ∈ marks (marked .Dc d bars) .Dc by rw [m1]; simp)
    exact ⟨y, y1, .inl y2, y3⟩
  · rw [marked_eq]
    exact (puts_dc d).reads_first hr hb h1 h2 (fun a ts b _ s first last k => by cases k)

/-- C94: exactly when a Segno and a D.S. put on a score with neither jump nor Segno are accepted:
the D.S. as a D.C., the Segno not within an ending other than the last, no lone Coda, and the
Codas must fit. -/
theorem C94_ds_accepts_iff (ip : Bool) (tune : Rhythm) (bars : List Bar) (hb : BarsOk bars) (c : CompoundRegion)
    (w : List RenderRegionWarning) (h : renderRegion ip tune bars = .ok (c, w)) (hdc : marks bars .Dc = [])
    (hds : marks bars .Ds = []) (hsg : marks bars .Segno = []) (ps : List Passage) (hr : Reads none .first 0 bars ps) (s d : Nat)
    (ls : LineAt bars s) (ld : LineAt bars d) :
    (∃ c' w', renderRegion ip tune (marked .Ds d (marked .Segno s bars)) = .ok (c', w')) ↔
      (∀ p ∈ ps.tail, p.Outside d) ∧ (∀ a v ts b, ps.head? = some (.endings a (v :: ts) b) → d ≤ v ∨ b ≤ d) ∧
      (∀ a ts b, Passage.endings a ts b ∈ ps → SegnoOk (some s) ts) ∧ (marks bars .Coda).length ≠ 1 ∧ CodasOk ip s bars := by
  obtain ⟨m1, m2, m3⟩ := marks_ds hb hds hsg ls ld
  have hb' : BarsOk (marked .Ds d (marked .Segno s bars)) := marked_barsOk.2 (marked_barsOk.2 hb)
  have e : marked .Ds d (marked .Segno s bars) = bars.map (markAt .Ds d ∘ markAt .Segno s) := by
    rw [marked_eq, marked_eq, List.map_map]
  have hmo := ((render_ok_iff hb.1 ip tune c w).1 h).1
  have hm : MarksOk (marked .Ds d (marked .Segno s bars)) := by
    simp only [MarksOk, m1, m2, m3 .Dc (by decide) (by decide), m3 .Fine (by decide) (by decide), m3 .Coda (by decide) (by decide), hdc]
    exact ⟨by simp, hmo.2.1, by simp, hmo.2.2.2⟩
  have hco : CodasOk ip s (marked .Ds d (marked .Segno s bars)) ↔ CodasOk ip s bars := by
    simp only [CodasOk, endTick, m3 .Coda (by decide) (by decide), m3 .Fine (by decide) (by decide)]
  have hj : JumpOk ip tune (marked .Ds d (marked .Segno s bars)) ↔ (marks bars .Coda).length ≠ 1 ∧ CodasOk ip s bars := by
    refine ⟨fun k => ?_, fun k => ⟨fun d' _ => ⟨s, m2, by rw [m3 .Coda (by decide) (by decide)]; exact k.1, hco.2 k.2⟩, fun d' first k' => ?_⟩⟩
    · obtain ⟨s', k1, k2, k3⟩ := k.1 d m1
      rw [m2] at k1
      cases k1
      rw [m3 .Coda (by decide) (by decide)] at k2
      exact ⟨k2, hco.1 k3⟩
    · rw [m3 .Dc (by decide) (by decide), hdc] at k'
      cases k'
  rw [C32_accepts_iff ip tune _ hb', hj, m2, List.head?_cons]
  refine ⟨?_, fun ⟨h1, h2, h3, h4⟩ => ⟨hm, ⟨ps, ?_⟩, h4⟩⟩
  · rintro ⟨_, ⟨qs, hq⟩, k⟩
    have hq' := hq
    rw [e] at hq'
    have := reads_without hb hdc hds hsg (fun x => ⟨(puts_ds s d x).1, ((markAt_facts _ _ _).2.1).trans (markAt_facts _ _ _).2.1,
      (markAt_key _ _ _).trans (markAt_key _ _ _), (puts_ds s d x).2.1⟩) hq'
    rw [← Reads_unique hb hr this] at hq
    refine ⟨outside_tail hb' hq (.inr (by rw [m1]; simp)), fun a v ts b e => ?_, reads_segno hq, k⟩
    refine outside_head hq hb' ?_ e
    obtain ⟨y, y1, y2, y3⟩ := mem_marks.1 (show d ∈ marks (marked .Ds d (marked .Segno s bars)) .Ds by rw [m1]; simp)
    exact ⟨y, y1, .inr y2, y3⟩
  · rw [e]
    exact (puts_ds s d).reads_first hr hb h1 h2 h3

/-- The provisos are needed. Within a repeat at the beginning of the score (without a Start), a
D.S. makes the first pass be left out; with a repeat that begins at tick 0, playing panics. -/
theorem C94_proviso (ip : Bool) :
    (let bars := [line 96 {}, line 192 {}, line 288 { end_ := true }];
      performance ip ⟨4, .D4⟩ bars = .ok ([⟨0, 288⟩, ⟨0, 288⟩, ⟨288, U32_MAX⟩], []) ∧
      performance ip ⟨4, .D4⟩ (marked .Ds 192 (marked .Segno 96 bars)) = .ok ([⟨96, 288⟩, ⟨288, U32_MAX⟩], [])) ∧
    (let bars := [line 0 { start := true }, line 96 { end_ := true }, line 192 {}, line 288 {}];
      performance ip ⟨4, .D4⟩ bars = .ok ([⟨0, 0⟩, ⟨0, 96⟩, ⟨0, 96⟩, ⟨96, U32_MAX⟩], []) ∧
      performance ip ⟨4, .D4⟩ (marked .Ds 288 (marked .Segno 192 bars)) = .error (.panic .overflow)) := by
  cases ip <;> decide +kernel

private theorem performed {ip : Bool} {tune : Rhythm} {bars : List Bar} {cs : List Chunk} {w : List RenderRegionWarning}
    (h : performance ip tune bars = .ok (cs, w)) : ∃ c, renderRegion ip tune bars = .ok (c, w) ∧ c.toChunks ip = .ok cs := by
  unfold performance at h
  cases h1 : renderRegion ip tune bars with
  | error f => rw [h1] at h; cases h
  | ok r =>
    obtain ⟨c, w'⟩ := r
    rw [h1] at h
    cases h2 : c.toChunks ip with
    | error f => simp only [RR_bind_ok, h2, liftR] at h; cases h
    | ok cs' =>
      simp only [RR_bind_ok, h2, liftR] at h
      cases h
      exact ⟨c, rfl, h2⟩

/-- A tune of five bars, the second repeated. -/
private def tune5 : List Bar :=
  [line 96 { start := true }, line 192 { end_ := true }, line 288 { fine := true }, line 384 {}]

private theorem tune5_reads : Reads none .first 0 tune5 [.plain 0 96, .repeated 96 192, .plain 192 U32_MAX] := by
  refine Reads.start (inside := []) (x := line 96 { start := true }) (by decide) (by simp) (by decide) (by decide) ?_
  refine Reads.close (inside := []) (x := line 192 { end_ := true }) (by decide) (by simp) (by decide) ?_
  exact Reads.last (by decide) (by rw [show after (line 192 { end_ := true }) = .plain by decide]; simp only [Quiet]; decide)

private theorem tune5_played (ip : Bool) : performance ip ⟨4, .D4⟩ tune5 = .ok ([⟨0, 96⟩, ⟨96, 192⟩, ⟨96, 192⟩, ⟨192, U32_MAX⟩], []) := by
  cases ip <;> decide +kernel

private theorem tune5_outside : ∀ p ∈ [Passage.plain 0 96, .repeated 96 192, .plain 192 U32_MAX], p.Outside 384 := by
  intro p hp
  simp only [List.mem_cons, List.not_mem_nil, or_false] at hp
  rcases hp with rfl | rfl | rfl
  · trivial
  · exact .inr (by decide)
  · trivial

/-- A Segno before the repeated bar, a D.S. after the fourth; D.C. instead. -/
example (ip : Bool) : (∃ c' cs' l, renderRegion ip ⟨4, .D4⟩ (marked .Ds 384 (marked .Segno 96 tune5)) = .ok (c', []) ∧
      c'.toChunks ip = .ok cs' ∧ played cs' = l ++ (span 0 96 ++ (span 96 192 ++ span 192 U32_MAX)).filter
        (fun t => decide (inSecondPass 96 tune5 t))) ∧
    ∃ c' cs' l, renderRegion ip ⟨4, .D4⟩ (marked .Dc 384 tune5) = .ok (c', []) ∧ c'.toChunks ip = .ok cs' ∧
      played cs' = l ++ (span 0 96 ++ (span 96 192 ++ span 192 U32_MAX)).filter
        (fun t => decide (inSecondPass (dcReturn (openingRhythm ⟨4, .D4⟩ tune5).tickLen 96 384) tune5 t)) := by
  obtain ⟨c, h1, h2⟩ := performed (tune5_played ip)
  have hq : QuietStart tune5 := by unfold QuietStart; decide
  have hco : ∀ u, CodasOk ip u tune5 := by intro u; simp only [CodasOk, show marks tune5 .Coda = [] by decide]
  obtain ⟨c', cs', l, _, k1, k2, _, _, _, k3⟩ := C94_ds ip ⟨4, .D4⟩ tune5 ⟨by decide, by decide⟩ c [] _ h1 h2 (by decide) (by decide)
    (by decide) hq _ tune5_reads 96 384 ⟨line 96 { start := true }, by decide, rfl⟩ ⟨line 384 {}, by decide, rfl⟩ tune5_outside
    (fun a ts b h => by simp at h) ⟨by decide, hco _⟩
  obtain ⟨c2, cs2, l2, _, q1, q2, _, _, _, q3⟩ := C94_dc ip ⟨4, .D4⟩ tune5 ⟨by decide, by decide⟩ c [] _ h1 h2 (by decide) (by decide)
    (by decide) hq _ tune5_reads 96 384 (by decide) (by decide) ⟨line 384 {}, by decide, rfl⟩ tune5_outside ⟨by decide, hco _⟩
  exact ⟨⟨c', cs', l, k1, k2, by simpa [Passage.once] using k3⟩, c2, cs2, l2, q1, q2, by simpa [Passage.once] using q3⟩

/-- On this tune with one more bar line, at tick 144, a D.S. there is refused. -/
example (ip : Bool) : let bars := [line 96 { start := true }, line 144 {}, line 192 { end_ := true }]
    (∃ p ∈ [Passage.plain 0 96, .repeated 96 192, .plain 192 U32_MAX].tail, ¬ p.Outside 144) ∧
    LineAt bars 144 ∧ Reads none .first 0 bars [.plain 0 96, .repeated 96 192, .plain 192 U32_MAX] ∧
    performance ip ⟨4, .D4⟩ (marked .Ds 144 (marked .Segno 96 bars)) = .error (.err (.dcDsWhileRepeat 144)) := by
  refine ⟨⟨.repeated 96 192, by simp, by simp [Passage.Outside, Passage.start, Passage.stop]⟩, ⟨line 144 {}, by decide, rfl⟩, ?_, ?_⟩
  · refine Reads.start (inside := []) (x := line 96 { start := true }) (by decide) (by simp) (by decide) (by decide) ?_
    refine Reads.close (inside := [line 144 {}]) (x := line 192 { end_ := true }) (by decide) (by simp only [Quiet]; decide) (by decide) ?_
    exact Reads.last (by decide) (by simp)
  · cases ip <;> decide +kernel

/-- After an upbeat of 96 ticks: the D.C. at 384 and the D.S. with the Segno at 96. -/
example (ip : Bool) : ∃ c1 cs1 c2 cs2, renderRegion ip ⟨4, .D4⟩ (marked .Dc 384 tune5) = .ok (c1, []) ∧ c1.toChunks ip = .ok cs1 ∧
    renderRegion ip ⟨4, .D4⟩ (marked .Ds 384 (marked .Segno 96 tune5)) = .ok (c2, []) ∧ c2.toChunks ip = .ok cs2 ∧
    played cs1 = played cs2 := by
  obtain ⟨c, h1, h2⟩ := performed (tune5_played ip)
  exact C94_dc_as_ds ip ⟨4, .D4⟩ tune5 ⟨by decide, by decide⟩ c [] _ h1 h2 (by decide) (by decide) (by decide)
    (by unfold QuietStart; decide) _ tune5_reads 96 96 384 (by decide) (by decide) (by decide)
    ⟨line 96 { start := true }, by decide, rfl⟩ ⟨line 384 {}, by decide, rfl⟩ tune5_outside (fun a ts b h => by simp at h)
    ⟨by decide, by simp only [CodasOk, show marks tune5 .Coda = [] by decide]⟩

/-- With the jump in the midst of the repeat at the beginning both leave the first pass out. -/
example (ip : Bool) : let bars := [line 96 {}, line 192 {}, line 288 { end_ := true }]
    (∀ c1 w1 c2 w2, renderRegion ip ⟨4, .D4⟩ (marked .Dc 192 bars) = .ok (c1, w1) →
      renderRegion ip ⟨4, .D4⟩ (marked .Ds 192 (marked .Segno 96 bars)) = .ok (c2, w2) →
      c1.toChunks ip = c2.toChunks ip ∧ w1 = [] ∧ w2 = []) ∧
    performance ip ⟨4, .D4⟩ (marked .Dc 192 bars) = .ok ([⟨96, 288⟩, ⟨288, U32_MAX⟩], []) ∧
    performance ip ⟨4, .D4⟩ (marked .Ds 192 (marked .Segno 96 bars)) = .ok ([⟨96, 288⟩, ⟨288, U32_MAX⟩], []) := by
  refine ⟨(C94_dc_as_ds_iff ip ⟨4, .D4⟩ _ ⟨by decide, by decide⟩ (by decide) (by decide) (by decide) 96 96 192 (by decide) (by decide)
    (by decide) ⟨line 96 {}, by decide, rfl⟩ ⟨line 192 {}, by decide, rfl⟩).2, ?_⟩
  cases ip <;> decide +kernel

/-- A Segno at 96 and a jump at 288. -/
example (ip : Bool) : let bars := [line 96 { segno := true }, line 192 {}, line 288 {}]
    (∀ c1 w1 c2 w2, renderRegion ip ⟨4, .D4⟩ (marked .Dc 288 bars) = .ok (c1, w1) →
      renderRegion ip ⟨4, .D4⟩ (marked .Ds 288 bars) = .ok (c2, w2) →
      c1.toChunks ip = c2.toChunks ip ∧ w1 = [.segnoAndDcFound 96 288] ∧ w2 = []) ∧
    performance ip ⟨4, .D4⟩ (marked .Dc 288 bars) = .ok ([⟨0, 288⟩, ⟨96, U32_MAX⟩], [.segnoAndDcFound 96 288]) ∧
    performance ip ⟨4, .D4⟩ (marked .Ds 288 bars) = .ok ([⟨0, 288⟩, ⟨96, U32_MAX⟩], []) := by
  refine ⟨(C94_dc_with_segno ip ⟨4, .D4⟩ _ ⟨by decide, by decide⟩ (by decide) (by decide) 96 96 288 (by decide) (by decide)
    ⟨line 288 {}, by decide, rfl⟩).2, ?_⟩
  cases ip <;> decide +kernel

/-- A score that begins with two endings, from 192 and from 288. -/
private def headEndings : List Bar :=
  [line 96 {}, line 192 { var1 := true }, line 240 { var1 := true }, line 288 { var2 := true }, line 384 {}, line 480 {}]

private theorem headEndings_reads : Reads none .first 0 headEndings [.endings 0 [192, 288] 384, .plain 384 U32_MAX] := by
  refine Reads.endings (inside := [line 96 {}]) (v := line 192 { var1 := true })
    (es := [line 240 { var1 := true }, line 288 { var2 := true }]) (x := line 384 {}) (rest := [line 480 {}])
    (by decide) (by decide) (by simp only [OpensEndings]; decide) ?_ (fun s first last k => by cases k) (by decide) (by decide) ?_
  · exact Endings.more (xs := [line 240 { var1 := true }]) (by simp only [InEnding]; decide) (by simp only [InEnding]; decide)
      (Endings.last (by simp))
  · exact Reads.last (by decide) (by decide)

/-- There a jump is accepted before the endings and where they begin, but not within them. -/
example (ip : Bool) :
    (∃ c w, renderRegion ip ⟨4, .D4⟩ (marked .Dc 192 headEndings) = .ok (c, w)) ∧
    ¬ (∃ c w, renderRegion ip ⟨4, .D4⟩ (marked .Dc 240 headEndings) = .ok (c, w)) ∧
    (∃ c w, renderRegion ip ⟨4, .D4⟩ (marked .Ds 192 (marked .Segno 96 headEndings)) = .ok (c, w)) ∧
    ¬ (∃ c w, renderRegion ip ⟨4, .D4⟩ (marked .Ds 240 (marked .Segno 96 headEndings)) = .ok (c, w)) := by
  have hp : performance ip ⟨4, .D4⟩ headEndings = .ok ([⟨0, 192⟩, ⟨192, 288⟩, ⟨0, 192⟩, ⟨288, 384⟩, ⟨384, U32_MAX⟩], []) := by
    cases ip <;> decide +kernel
  obtain ⟨c, h, _⟩ := performed hp
  have hco : ∀ u, CodasOk ip u headEndings := fun u => by simp only [CodasOk, show marks headEndings .Coda = [] by decide]
  have dc := fun d ld => C94_dc_accepts_iff ip ⟨4, .D4⟩ headEndings ⟨by decide, by decide⟩ c [] h (by decide) (by decide) (by decide)
    _ headEndings_reads d ld
  have ds := fun d ld => C94_ds_accepts_iff ip ⟨4, .D4⟩ headEndings ⟨by decide, by decide⟩ c [] h (by decide) (by decide) (by decide)
    _ headEndings_reads 96 d ⟨line 96 {}, by decide, rfl⟩ ld
  have out : ∀ d, ∀ p ∈ [Passage.endings 0 [192, 288] 384, .plain 384 U32_MAX].tail, p.Outside d := by
    intro d p hp
    simp only [List.tail_cons, List.mem_singleton] at hp
    subst hp
    trivial
  have at192 : ∀ a v ts b, [Passage.endings 0 [192, 288] 384, .plain 384 U32_MAX].head? = some (.endings a (v :: ts) b) →
      192 ≤ v ∨ b ≤ 192 := by
    intro a v ts b e
    cases e
    exact .inl (Nat.le_refl _)
  have at240 : ¬ (∀ a v ts b, [Passage.endings 0 [192, 288] 384, .plain 384 U32_MAX].head? = some (.endings a (v :: ts) b) →
      240 ≤ v ∨ b ≤ 240) := fun k => by have := k _ _ _ _ rfl; omega
  refine ⟨(dc 192 ⟨line 192 { var1 := true }, by decide, rfl⟩).2 ⟨out 192, at192, fun first e => ?_⟩,
    fun k => at240 ((dc 240 ⟨line 240 { var1 := true }, by decide, rfl⟩).1 k).2.1,
    (ds 192 ⟨line 192 { var1 := true }, by decide, rfl⟩).2 ⟨out 192, at192, fun a ts b e => ?_, by decide, hco _⟩,
    fun k => at240 ((ds 240 ⟨line 240 { var1 := true }, by decide, rfl⟩).1 k).2.1⟩
  · rw [show firstBarEnd headEndings = some 96 by decide] at e
    cases e
    exact ⟨by decide, hco _⟩
  · simp only [List.mem_cons, Passage.endings.injEq, reduceCtorEq, List.not_mem_nil, or_false] at e
    obtain ⟨_, rfl, _⟩ := e
    intro s first last e1 e2 e3
    cases e1
    cases e2
    cases e3
    omega

/-- C94: the provisos cannot be dropped: with the place inside a first ending, or with a lone Coda,
the D.C. is played (of the Coda there is a warning) and the D.S. refused. -/
theorem C94_dc_as_ds_proviso (ip : Bool) :
    (let bars := [line 96 { var1 := true }, line 192 { var2 := true }, line 288 {}, line 384 {}];
      performance ip ⟨4, .D4⟩ (marked .Dc 384 bars) = .ok ([⟨0, 96⟩, ⟨96, 192⟩, ⟨0, 96⟩, ⟨192, 288⟩, ⟨288, 384⟩,
        ⟨192, 288⟩, ⟨288, U32_MAX⟩], []) ∧
      performance ip ⟨4, .D4⟩ (marked .Ds 384 (marked .Segno 96 bars)) = .error (.err (.segnoWhileVariation 288))) ∧
    (let bars := [line 96 {}, line 192 { coda := true }, line 384 {}];
      performance ip ⟨4, .D4⟩ (marked .Dc 384 bars) = .ok ([⟨0, 384⟩, ⟨96, U32_MAX⟩], [.orphanCodaFound 192]) ∧
      performance ip ⟨4, .D4⟩ (marked .Ds 384 (marked .Segno 96 bars)) = .error (.err (.onlyOneCoda 192))) := by
  cases ip <;> decide +kernel

end Klavier
