import Verif.Lemmas.Adding
import Verif.Props.RenderError
import Verif.Spec.Figures
import Verif.Spec.Stretch

/-! # C88: what a mark changes -/
set_option autoImplicit false
namespace Klavier
open Spec

private theorem upTo_plain (a b d : Nat) : (Passage.plain a b).upTo d = span a (min b d) := by
  by_cases h : b ≤ d
  · rw [upTo_full (p := .plain a b) h, Nat.min_eq_left h]; rfl
  · rw [upTo_part (p := .plain a b) h, Nat.min_eq_right (by omega)]; rfl

private theorem span_none {a b : Nat} (h : b ≤ a) : span a b = [] := by
  rw [List.eq_nil_iff_forall_not_mem]
  intro t ht
  have := mem_span.1 ht
  omega

/-- C88: a Start and an End put on two bar lines of a plain passage make what is between them
be played twice in place of once, and change nothing else.  If there is a D.C. or D.S., that is
so the first time it is played, before the jump; if the jump comes before it, nothing changes.
The warnings are the same. -/
theorem C88_repeat (ip : Bool) (tune : Rhythm) (bars : List Bar) (hb : BarsOk bars) (c : CompoundRegion)
    (w : List RenderRegionWarning) (cs : List Chunk) (h : renderRegion ip tune bars = .ok (c, w)) (hc : c.toChunks ip = .ok cs)
    (ps : List Passage) (hr : Reads (marks bars .Segno).head? .first 0 bars ps) (p q s e : Nat) (hp : Passage.plain p q ∈ ps)
    (hs : LineAt bars s) (he : LineAt bars e) (hse : s < e) (hps : p ≤ s) (heq : e ≤ q)
    (hmid : ∀ x ∈ bars, s < x.startTick → x.startTick < e → ¬ Has x .Dc ∧ ¬ Has x .Ds ∧ endingNo x = none)
    (h0 : ∀ d target, Jump tune bars d target → 0 < s) :
    ∃ c' cs', renderRegion ip tune (marked .End e (marked .Start s bars)) = .ok (c', w) ∧ c'.toChunks ip = .ok cs' ∧
      ((∀ d target, Jump tune bars d target → e ≤ d) → ∃ l1 l2, (∀ t ∈ l1, t < s) ∧
        played cs = l1 ++ (span s e ++ l2) ∧ played cs' = l1 ++ (span s e ++ (span s e ++ l2))) ∧
      (∀ d target, Jump tune bars d target → d < e → played cs' = played cs) := by
  obtain ⟨pre, x, x', mid, y, y', post, ebars, ex, ey, hx', hy', enew⟩ := marked_repeat hb hs he hse
  have hmid' : ∀ z ∈ mid, Inner z := by
    intro z hz
    subst ebars
    have hr := List.pairwise_cons.1 (List.pairwise_append.1 hb.1).2.1
    have h1 := hr.1 z (by simp [hz])
    have h2 := (List.pairwise_append.1 hr.2).2.2 z hz y (by simp)
    exact hmid z (by simp [hz]) (by omega) (by omega)
  obtain ⟨ps1, ps2, L, R, eps, hr', hL, hR⟩ := reads_repeat hr ebars hb (fun _ => rfl) (fun h => absurd rfl h) hp (by omega) (by omega)
    hmid' hx' hy'
  rw [ex, ey] at hr'
  rw [← enew] at hr'
  rw [ex] at hL
  rw [ey] at hR
  -- the marks that matter to the jump
  obtain ⟨a1, a2, a3, a4⟩ := marked_jump (m := .Start) (.inl rfl) s tune bars
  obtain ⟨b1, b2, b3, b4⟩ := marked_jump (m := .End) (.inr rfl) e tune (marked .Start s bars)
  have hb' : BarsOk (marked .End e (marked .Start s bars)) := marked_barsOk.2 (marked_barsOk.2 hb)
  have esg : marks (marked .End e (marked .Start s bars)) .Segno = marks bars .Segno := by
    rw [marks_marked_ne (by decide), marks_marked_ne (by decide)]
  have hjump : ∀ d target, Jump tune (marked .End e (marked .Start s bars)) d target ↔ Jump tune bars d target :=
    fun d target => (b3 d target).trans (a3 d target)
  have hpass : ∀ target, (fun t => decide (inSecondPass target (marked .End e (marked .Start s bars)) t)) =
      fun t => decide (inSecondPass target bars t) := by
    intro target
    funext t
    exact decide_eq_decide.2 ((b4 target t).trans (a4 target t))
  rw [← esg] at hr'
  obtain ⟨m1, _, m3⟩ := (render_ok_iff hb.1 ip tune c w).1 h
  have h' := (render_ok_iff hb'.1 ip tune ⟨c.globalRepeat, _⟩ w).2 ⟨b2.2 (a2.2 m1), ⟨_, hr', rfl⟩, by rw [b1, a1]; exact m3⟩
  -- the order of the ticks
  have hch := Reads_chain hr (fun _ => rfl) hb (fun h => absurd rfl h)
  have hord : p ≤ s ∧ s < e ∧ e ≤ q := ⟨hps, hse, heq⟩
  have onceL : L.flatMap Passage.once = span p s ∧ L.flatMap Passage.full = span p s ∧
      ∀ d, L.flatMap (Passage.upTo d) = span p (min s d) := by
    rcases hL with rfl | ⟨rfl, rfl, _⟩
    · refine ⟨by simp [Passage.once], by simp [Passage.full], fun d => ?_⟩
      simp [upTo_plain]
    · refine ⟨?_, ?_, fun d => ?_⟩ <;> (rw [span_none (by omega)]; rfl)
  have onceR : R.flatMap Passage.once = span e q ∧ R.flatMap Passage.full = span e q ∧
      ∀ d, R.flatMap (Passage.upTo d) = span e (min q d) := by
    rcases hR with rfl | ⟨rfl, rfl⟩
    · refine ⟨by simp [Passage.once], by simp [Passage.full], fun d => ?_⟩
      simp [upTo_plain]
    · refine ⟨?_, ?_, fun d => ?_⟩ <;> (rw [span_none (by omega)]; rfl)
  have sameOnce : (ps1 ++ (L ++ .repeated s e :: (R ++ ps2))).flatMap Passage.once = ps.flatMap Passage.once := by
    rw [eps]
    simp only [List.flatMap_append, List.flatMap_cons, onceL.1, onceR.1, Passage.once]
    rw [span_append (a := p) (m := s) (b := q) (by omega) (by omega), span_append (a := s) (m := e) (b := q) (by omega) (by omega)]
    simp
  have before : ∀ d, ∀ t ∈ ps1.flatMap (Passage.upTo d) ++ span p s, t < s := by
    intro d t ht
    rcases List.mem_append.1 ht with k | k
    · obtain ⟨r, hr1, hr2⟩ := List.mem_flatMap.1 k
      obtain ⟨k1, k2⟩ := chain_before (eps ▸ hch) (by decide) r hr1
      have k3 : t < r.stop := by
        by_cases hd : r.stop ≤ d
        · rw [upTo_full hd] at hr2
          exact ((mem_full k1 t).1 hr2).2
        · rw [upTo_part hd, mem_span] at hr2
          omega
      simp only [Passage.start] at k2
      omega
    · exact (mem_span.1 k).2
  have beforeFull : ∀ t ∈ ps1.flatMap Passage.full ++ span p s, t < s := by
    intro t ht
    rcases List.mem_append.1 ht with k | k
    · obtain ⟨r, hr1, hr2⟩ := List.mem_flatMap.1 k
      obtain ⟨k1, k2⟩ := chain_before (eps ▸ hch) (by decide) r hr1
      have k3 := ((mem_full k1 t).1 hr2).2
      simp only [Passage.start] at k2
      omega
    · exact (mem_span.1 k).2
  rcases playing hb h hc hr with ⟨hn, e1⟩ | ⟨d, target, hj, hd, hq, hcase⟩
  · obtain ⟨_, cs', k1, k2⟩ := C29_rendered ip tune _ hb' _ w h' (fun d target k => hn d target ((hjump d target).1 k)) _ hr'
    refine ⟨_, cs', h', k1, fun _ => ?_, fun d target k => absurd k (hn d target)⟩
    refine ⟨ps1.flatMap Passage.full ++ span p s, span e q ++ ps2.flatMap Passage.full, beforeFull, ?_, ?_⟩
    · rw [e1, eps]
      simp only [List.flatMap_append, List.flatMap_cons, Passage.full]
      rw [span_append (a := p) (m := s) (b := q) (by omega) (by omega), span_append (a := s) (m := e) (b := q) (by omega) (by omega)]
      simp
    · rw [k2]
      simp only [List.flatMap_append, List.flatMap_cons, onceL.2.1, onceR.2.1, Passage.full]
      simp
  · have hq' : QuietStart (marked .End e (marked .Start s bars)) := by
      intro z hz ez
      have hs0 := h0 d target hj
      rw [marked_eq] at hz
      obtain ⟨z1, hz1, rfl⟩ := List.mem_map.1 hz
      rw [marked_eq] at hz1
      obtain ⟨z2, hz2, rfl⟩ := List.mem_map.1 hz1
      rw [(markAt_facts _ _ _).1, (markAt_facts _ _ _).1] at ez
      have k1 : markAt .Start s z2 = z2 := if_neg (by omega)
      have k2 : markAt .End e z2 = z2 := if_neg (by omega)
      rw [k1, k2]
      exact hq z2 hz2 ez
    have hj' := (hjump d target).2 hj
    have unique : ∀ {d' target' : Nat}, Jump tune bars d' target' → d' = d := fun k => (Jump_unique m1 k hj).1
    -- the jump is not within the new repeat
    have hde : d < e → d ≤ s := by
      intro hlt
      rcases Nat.lt_or_ge s d with hsd | hsd
      · exfalso
        rcases Jump_mem hj with k | k <;> (obtain ⟨z, z1, z2, z3⟩ := mem_marks.1 k)
        · exact (hmid z z1 (by omega) (by omega)).1 z2
        · exact (hmid z z1 (by omega) (by omega)).2.1 z2
      · exact hsd
    rcases hcase with ⟨ho, e1⟩ | ⟨⟨b, hb0, hd0⟩, e1⟩
    · have ho' : ∀ r, (ps1 ++ (L ++ Passage.repeated s e :: (R ++ ps2))).head? = some r → r.Outside d := by
        intro r hr1
        cases ps1 with
        | nil =>
          rcases hL with rfl | ⟨_, _, k⟩
          · obtain rfl : Passage.plain p s = r := by simpa using hr1
            trivial
          · exact absurd rfl k
        | cons r' ps1 =>
          refine ho r ?_
          rw [eps]
          exact hr1
      obtain ⟨_, cs', k1, k2⟩ := C30_rendered ip tune _ hb' _ w h' d target hj' hq' _ hr' ho'
      rw [hpass, sameOnce] at k2
      rw [e1]
      generalize (ps.flatMap Passage.once).filter (fun t => decide (inSecondPass target bars t)) = S at k2
      have eOld : ps.flatMap (Passage.upTo d) = ps1.flatMap (Passage.upTo d) ++ (span p (min q d) ++ ps2.flatMap (Passage.upTo d)) := by
        rw [eps]
        simp only [List.flatMap_append, List.flatMap_cons, upTo_plain]
      simp only [List.flatMap_append, List.flatMap_cons, onceL.2.2, onceR.2.2] at k2
      refine ⟨_, cs', h', k1, fun hall => ?_, fun d' target' hj2 hlt => ?_⟩
      · have hed := hall d target hj
        refine ⟨ps1.flatMap (Passage.upTo d) ++ span p s, span e (min q d) ++ (ps2.flatMap (Passage.upTo d) ++ S), before d, ?_, ?_⟩
        · rw [eOld, span_append (a := p) (m := s) (b := min q d) (by omega) (by omega),
            span_append (a := s) (m := e) (b := min q d) (by omega) (by omega)]
          simp
        · rw [k2, upTo_full (p := .repeated s e) (by simp only [Passage.stop]; omega), Nat.min_eq_left (by omega : s ≤ d)]
          simp [Passage.full]
      · obtain rfl := unique hj2
        have hds := hde hlt
        rw [k2, eOld, upTo_part (p := .repeated s e) (by simp only [Passage.stop]; omega), Nat.min_eq_right hds,
          Nat.min_eq_right (by omega : d' ≤ q), span_none (a := e) (by omega)]
        simp only [Passage.start]
        rw [span_none (a := s) (by omega)]
        simp
    · have hbp : b ≤ p := by
        cases ps1 with
        | nil =>
          rw [eps] at hb0
          simp at hb0
        | cons r ps1 =>
          rw [eps] at hb0
          obtain rfl : r = .repeated 0 b := by simpa using hb0
          exact (chain_before (eps ▸ hch) (by decide) (.repeated 0 b) (by simp)).2
      cases ps1 with
      | nil =>
        rw [eps] at hb0
        simp at hb0
      | cons r ps1 =>
        rw [eps] at hb0
        obtain rfl : r = .repeated 0 b := by simpa using hb0
        obtain ⟨_, cs', k1, k2⟩ := C30_inside_repeat ip tune _ hb' _ w h' d target hj' hq' b _ hr' hd0
        rw [hpass] at k2
        refine ⟨_, cs', h', k1, fun hall => ?_, fun d' target' hj2 hlt => ?_⟩
        · have := hall d target hj
          omega
        · rw [k2, e1]
          exact congrArg (List.filter _) sameOnce

/-- Fine, Segno and Coda do not matter to what is played before the jump. -/
private theorem same_first {ip : Bool} {tune : Rhythm} {bars : List Bar} (hb : BarsOk bars) {c : CompoundRegion}
    {w : List RenderRegionWarning} {cs : List Chunk} (h : renderRegion ip tune bars = .ok (c, w)) (hc : c.toChunks ip = .ok cs)
    {ps : List Passage} (hr : Reads (marks bars .Segno).head? .first 0 bars ps) {d target : Nat} (hj : Jump tune bars d target)
    {f : Bar → Bar} (hf : ∀ x, SameStructure x (f x)) (hsg : marks (bars.map f) .Segno = marks bars .Segno)
    {w' : List RenderRegionWarning} (hw : jumpWarnings (bars.map f) = w')
    (hm : MarksOk (bars.map f)) (hok : JumpOk ip tune (bars.map f)) (hj' : Jump tune (bars.map f) d target) :
    ∃ c' cs' F, renderRegion ip tune (bars.map f) = .ok (c', w') ∧ c'.toChunks ip = .ok cs' ∧
      played cs = F ++ (ps.flatMap Passage.once).filter (fun t => decide (inSecondPass target bars t)) ∧
      played cs' = F ++ (ps.flatMap Passage.once).filter (fun t => decide (inSecondPass target (bars.map f) t)) := by
  have hb' : BarsOk (bars.map f) := by
    rw [barsOk_ticks] at hb ⊢
    rw [List.map_map, show ((·.startTick) ∘ f : Bar → Nat) = (·.startTick) from funext fun x => ((hf x).1).symm]
    exact hb
  have hr' : Reads (marks (bars.map f) .Segno).head? .first 0 (bars.map f) ps := by
    rw [hsg]
    exact Reads_same_segno hf (.inr rfl) hr
  obtain ⟨c', w2, h'⟩ := (C32_accepts_iff ip tune _ hb').2 ⟨hm, ⟨ps, hr'⟩, hok⟩
  obtain rfl : w2 = w' := by
    rw [(rendered_jump hb' h' hj' hr').1, hw]
  have m1 := ((render_ok_iff hb.1 ip tune c w).1 h).1
  rcases playing hb h hc hr with ⟨hn, _⟩ | ⟨d2, target2, hj2, hd, hq, hcase⟩
  · exact absurd hj (hn d target)
  · obtain ⟨rfl, rfl⟩ := Jump_unique m1 hj hj2
    have hq' : QuietStart (bars.map f) := by
      intro z hz ez
      obtain ⟨x, hx, rfl⟩ := List.mem_map.1 hz
      rw [← (hf x).1] at ez
      rw [← (hf x).has .Start, ← (hf x).has .End, ← (hf x).ending]
      exact hq x hx ez
    rcases hcase with ⟨ho, e1⟩ | ⟨⟨b, hb0, hd0⟩, e1⟩
    · obtain ⟨_, cs', k1, k2⟩ := C30_rendered ip tune _ hb' c' _ h' d target hj' hq' ps hr' ho
      exact ⟨c', cs', _, h', k1, e1, k2⟩
    · cases ps with
      | nil => simp at hb0
      | cons r ps =>
        obtain rfl : r = .repeated 0 b := by simpa using hb0
        obtain ⟨_, cs', k1, k2⟩ := C30_inside_repeat ip tune _ hb' c' _ h' d target hj' hq' b ps hr' hd0
        exact ⟨c', cs', [], h', k1, e1, k2⟩

private theorem same_mark {m : Repeat} (h : m = .Fine ∨ m = .Coda) (t : Nat) (x : Bar) : SameStructure x (markAt m t x) := by
  obtain ⟨f1, _, f3⟩ := markAt_facts m t x
  refine ⟨f1.symm, fun k h1 h2 h3 => ?_⟩
  rw [f3]
  have : k ≠ m := by rcases h with rfl | rfl <;> assumption
  simp [this]

private theorem marks_only {m : Repeat} {t : Nat} {bars : List Bar} (hb : BarsOk bars) (h0 : marks bars m = []) (h : LineAt bars t) :
    marks (marked m t bars) m = [t] := by
  refine sorted_ext (GlobalRepeatBuilder.marks_sorted (marked_barsOk.2 hb).1 m) (by simp) fun u => ?_
  rw [mem_marks_marked, h0]
  simp [h]

/-- C88: a Fine put on a bar line of a score with a D.C. or D.S. cuts the second pass there,
and changes nothing else. -/
theorem C88_fine (ip : Bool) (tune : Rhythm) (bars : List Bar) (hb : BarsOk bars) (c : CompoundRegion)
    (w : List RenderRegionWarning) (cs : List Chunk) (h : renderRegion ip tune bars = .ok (c, w)) (hc : c.toChunks ip = .ok cs)
    (ps : List Passage) (hr : Reads (marks bars .Segno).head? .first 0 bars ps) (d target z : Nat) (hj : Jump tune bars d target)
    (hz : LineAt bars z) (hf : marks bars .Fine = [])
    (hcoda : ∀ leave resume, marks bars .Coda = [leave, resume] → resume ≤ z ∧ (ip = true → resume < z)) :
    ∃ c' cs' first, renderRegion ip tune (marked .Fine z bars) = .ok (c', w) ∧ c'.toChunks ip = .ok cs' ∧
      played cs = first ++ (ps.flatMap Passage.once).filter (fun t => decide (inSecondPass target bars t)) ∧
      played cs' = first ++ (ps.flatMap Passage.once).filter (fun t => decide (inSecondPass target bars t ∧ t < z)) := by
  have e1 := marks_marked_ne (m := .Fine) (k := .Dc) (by decide) z bars
  have e2 := marks_marked_ne (m := .Fine) (k := .Ds) (by decide) z bars
  have e3 := marks_only (m := .Fine) hb hf hz
  have e4 := marks_marked_ne (m := .Fine) (k := .Segno) (by decide) z bars
  have e5 := marks_marked_ne (m := .Fine) (k := .Coda) (by decide) z bars
  have m1 := ((render_ok_iff hb.1 ip tune c w).1 h).1
  obtain ⟨_, _, hok⟩ := (C32_accepts_iff ip tune bars hb).1 ⟨c, w, h⟩
  have hend : endTick bars = U32_MAX := by simp [endTick, hf]
  have hend' : endTick (marked .Fine z bars) = z := by simp [endTick, e3]
  have codas : ∀ target, CodasOk ip target bars → CodasOk ip target (marked .Fine z bars) := by
    intro target k
    unfold CodasOk at k ⊢
    rw [e5, hend']
    rcases GlobalRepeatBuilder.codaOf_cases _ m1.2.2.2 with cc | ⟨o, cc⟩ | ⟨l, r, cc⟩
    · rw [cc]; trivial
    · rw [cc]; trivial
    · rw [cc] at k ⊢
      have := hcoda l r cc
      exact ⟨k.1, this.1, fun i => ⟨(k.2.2 i).1, this.2 i⟩⟩
  have hm' : MarksOk (marked .Fine z bars) := by
    unfold MarksOk
    rw [e1, e2, e3, e4, e5]
    exact ⟨m1.1, by simp, m1.2.2⟩
  have hok' : JumpOk ip tune (marked .Fine z bars) := by
    unfold JumpOk
    rw [e1, e2, e4, e5, marked_first]
    refine ⟨fun d' k => ?_, fun d' first k1 k2 => ?_⟩
    · obtain ⟨s, a, b, cc⟩ := hok.1 d' k
      exact ⟨s, a, b, codas s cc⟩
    · obtain ⟨a, b⟩ := hok.2 d' first k1 k2
      refine ⟨a, ?_⟩
      rw [show dcTarget tune (marked .Fine z bars) first d' = dcTarget tune bars first d' by
        simp only [dcTarget, e4, marked_opening]]
      exact codas _ b
  have hj' : Jump tune (marked .Fine z bars) d target := by
    simpa only [Jump, dcTarget, e1, e2, e4, marked_first, marked_opening] using hj
  have hw : jumpWarnings (marked .Fine z bars) = jumpWarnings bars := by
    simp only [jumpWarnings, dcWarnings, e1, e4, e5, marked_first]
  obtain ⟨c', cs', F, k1, k2, k3, k4⟩ := same_first (f := markAt .Fine z) hb h hc hr hj (same_mark (.inl rfl) z) e4
    (hw.trans (rendered_jump hb h hj hr).1.symm) hm' hok' hj'
  refine ⟨c', cs', F, k1, k2, k3, ?_⟩
  rw [k4]
  congr 1
  refine List.filter_congr fun t _ => decide_eq_decide.2 ?_
  have ht : z < U32_MAX := by
    obtain ⟨x, hx, rfl⟩ := hz
    exact hb.2 x hx
  have : inSecondPass target (marked .Fine z bars) t ↔ inSecondPass target bars t ∧ t < z := by
    unfold inSecondPass
    rw [e5, hend', hend]
    rcases GlobalRepeatBuilder.codaOf_cases _ m1.2.2.2 with cc | ⟨o, cc⟩ | ⟨l, r, cc⟩
    · rw [cc]; simp only; omega
    · rw [cc]; simp only; omega
    · rw [cc]
      have := hcoda l r cc
      have hsort := GlobalRepeatBuilder.marks_sorted hb.1 .Coda
      simp only [cc, List.pairwise_cons, List.mem_singleton, forall_eq] at hsort
      simp only
      omega
  exact this

/-- C88: two Codas put on bar lines of a score with a D.C. or D.S., behind the place it goes to,
make the second pass leave out what is between them, and change nothing else. -/
theorem C88_codas (ip : Bool) (tune : Rhythm) (bars : List Bar) (hb : BarsOk bars) (c : CompoundRegion)
    (w : List RenderRegionWarning) (cs : List Chunk) (h : renderRegion ip tune bars = .ok (c, w)) (hc : c.toChunks ip = .ok cs)
    (ps : List Passage) (hr : Reads (marks bars .Segno).head? .first 0 bars ps) (d target u v : Nat) (hj : Jump tune bars d target)
    (hu : LineAt bars u) (hv : LineAt bars v) (huv : u < v) (hcoda : marks bars .Coda = []) (hu0 : 0 < u)
    (htu : target ≤ u ∧ (ip = true → target < u)) (hve : v ≤ endTick bars ∧ (ip = true → v < endTick bars)) :
    ∃ c' cs' first, renderRegion ip tune (marked .Coda v (marked .Coda u bars)) = .ok (c', w) ∧ c'.toChunks ip = .ok cs' ∧
      played cs = first ++ (ps.flatMap Passage.once).filter (fun t => decide (inSecondPass target bars t)) ∧
      played cs' = first ++ (ps.flatMap Passage.once).filter (fun t => decide (inSecondPass target bars t ∧ ¬ (u ≤ t ∧ t < v))) := by
  have e : ∀ k, k ≠ .Coda → marks (marked .Coda v (marked .Coda u bars)) k = marks bars k := by
    intro k hk
    rw [marks_marked_ne hk, marks_marked_ne hk]
  have e1 := e .Dc (by decide)
  have e2 := e .Ds (by decide)
  have e3 := e .Fine (by decide)
  have e4 := e .Segno (by decide)
  have hb' : BarsOk (marked .Coda v (marked .Coda u bars)) := marked_barsOk.2 (marked_barsOk.2 hb)
  have hv' : LineAt (marked .Coda u bars) v := by
    obtain ⟨x, hx, rfl⟩ := hv
    exact ⟨_, List.mem_map_of_mem hx, (markAt_facts .Coda u x).1⟩
  have e5 : marks (marked .Coda v (marked .Coda u bars)) .Coda = [u, v] := by
    refine sorted_ext (GlobalRepeatBuilder.marks_sorted hb'.1 .Coda) (by simpa using huv) fun t => ?_
    rw [mem_marks_marked, mem_marks_marked, hcoda]
    simp [hu, hv']
  have m1 := ((render_ok_iff hb.1 ip tune c w).1 h).1
  obtain ⟨_, _, hok⟩ := (C32_accepts_iff ip tune bars hb).1 ⟨c, w, h⟩
  have hend : endTick (marked .Coda v (marked .Coda u bars)) = endTick bars := by simp only [endTick, e3]
  have codas : CodasOk ip target (marked .Coda v (marked .Coda u bars)) := by
    unfold CodasOk
    rw [e5, hend]
    exact ⟨hu0, hve.1, fun i => ⟨htu.2 i, hve.2 i⟩⟩
  have hm' : MarksOk (marked .Coda v (marked .Coda u bars)) := by
    unfold MarksOk
    rw [e1, e2, e3, e4, e5]
    exact ⟨m1.1, m1.2.1, m1.2.2.1, by simp⟩
  have hj' : Jump tune (marked .Coda v (marked .Coda u bars)) d target := by
    simpa only [Jump, dcTarget, e1, e2, e4, marked_first, marked_opening] using hj
  have hok' : JumpOk ip tune (marked .Coda v (marked .Coda u bars)) := by
    unfold JumpOk
    rw [e1, e2, e4, e5, marked_first, marked_first]
    refine ⟨fun d' k => ?_, fun d' first k1 k2 => ?_⟩
    · obtain ⟨s, a, _, _⟩ := hok.1 d' k
      obtain ⟨_, rfl⟩ := Jump_unique m1 hj (.inl ⟨k, a⟩)
      exact ⟨target, a, by simp, codas⟩
    · obtain ⟨a, _⟩ := hok.2 d' first k1 k2
      refine ⟨a, ?_⟩
      rw [show dcTarget tune (marked .Coda v (marked .Coda u bars)) first d' = dcTarget tune bars first d' by
        simp only [dcTarget, e4, marked_opening]]
      obtain ⟨_, e⟩ := Jump_unique m1 hj (.inr ⟨first, k1, k2, rfl⟩)
      rw [← e]
      exact codas
  have hw : jumpWarnings (marked .Coda v (marked .Coda u bars)) = jumpWarnings bars := by
    simp only [jumpWarnings, dcWarnings, e1, e4, e5, hcoda, marked_first]
  have hmap : marked .Coda v (marked .Coda u bars) = bars.map (fun x => markAt .Coda v (markAt .Coda u x)) := by
    rw [marked_eq, marked_eq, List.map_map]
    rfl
  rw [hmap] at e4 hw hm' hok' hj' ⊢
  obtain ⟨c', cs', F, k1, k2, k3, k4⟩ := same_first hb h hc hr hj (fun x => ⟨(same_mark (.inr rfl) u x).1.trans (same_mark (.inr rfl) v _).1,
    fun k a b cc => ((same_mark (.inr rfl) u x).2 k a b cc).trans ((same_mark (.inr rfl) v _).2 k a b cc)⟩) e4
    (hw.trans (rendered_jump hb h hj hr).1.symm) hm' hok' hj'
  refine ⟨c', cs', F, k1, k2, k3, ?_⟩
  rw [k4]
  congr 1
  refine List.filter_congr fun t _ => decide_eq_decide.2 ?_
  rw [← hmap]
  unfold inSecondPass
  rw [e5, hcoda, hend]
  simp only
  omega

/-- C88: exactly when a score with a D.C. or D.S. is still accepted with a Fine put on it: the Codas,
if any, are before it. -/
theorem C88_fine_accepts_iff (ip : Bool) (tune : Rhythm) (bars : List Bar) (hb : BarsOk bars) (c : CompoundRegion)
    (w : List RenderRegionWarning) (h : renderRegion ip tune bars = .ok (c, w)) (d target z : Nat) (hj : Jump tune bars d target)
    (hz : LineAt bars z) (hf : marks bars .Fine = []) :
    (∃ c' w', renderRegion ip tune (marked .Fine z bars) = .ok (c', w')) ↔
      ∀ leave resume, marks bars .Coda = [leave, resume] → resume ≤ z ∧ (ip = true → resume < z) := by
  have e1 := marks_marked_ne (m := .Fine) (k := .Dc) (by decide) z bars
  have e2 := marks_marked_ne (m := .Fine) (k := .Ds) (by decide) z bars
  have e3 := marks_only (m := .Fine) hb hf hz
  have e4 := marks_marked_ne (m := .Fine) (k := .Segno) (by decide) z bars
  have e5 := marks_marked_ne (m := .Fine) (k := .Coda) (by decide) z bars
  obtain ⟨m1, ⟨ps, hr⟩, hok⟩ := (C32_accepts_iff ip tune bars hb).1 ⟨c, w, h⟩
  have hend' : endTick (marked .Fine z bars) = z := by simp [endTick, e3]
  have ht : ∀ first d', dcTarget tune (marked .Fine z bars) first d' = dcTarget tune bars first d' := by
    intro first d'
    simp only [dcTarget, e4, marked_opening]
  rw [C32_accepts_iff ip tune _ (marked_barsOk.2 hb)]
  refine ⟨?_, fun k => ⟨?_, ⟨ps, ?_⟩, ?_⟩⟩
  · rintro ⟨_, _, k⟩ leave resume hc
    have : CodasOk ip target (marked .Fine z bars) := by
      rcases hj with ⟨j1, j2⟩ | ⟨first, j1, j2, rfl⟩
      · obtain ⟨s, a, _, b⟩ := k.1 d (e2.trans j1)
        rw [e4, j2] at a
        cases a
        exact b
      · have := (k.2 d first (e1.trans j1) ((marked_first ..).trans j2)).2
        rwa [ht] at this
    unfold CodasOk at this
    rw [e5, hc, hend'] at this
    exact ⟨this.2.1, fun i => (this.2.2 i).2⟩
  · unfold MarksOk
    rw [e1, e2, e3, e4, e5]
    exact ⟨m1.1, by simp, m1.2.2⟩
  · rw [e4, marked_eq]
    exact Reads_same_segno (same_mark (.inl rfl) z) (.inr rfl) hr
  · have codas : ∀ u, CodasOk ip u bars → CodasOk ip u (marked .Fine z bars) := by
      intro u k'
      unfold CodasOk at k' ⊢
      rw [e5, hend']
      rcases GlobalRepeatBuilder.codaOf_cases _ m1.2.2.2 with cc | ⟨o, cc⟩ | ⟨l, r, cc⟩
      · rw [cc]; trivial
      · rw [cc]; trivial
      · rw [cc] at k' ⊢
        have := k l r cc
        exact ⟨k'.1, this.1, fun i => ⟨(k'.2.2 i).1, this.2 i⟩⟩
    unfold JumpOk
    rw [e1, e2, e4, e5, marked_first]
    refine ⟨fun d' k' => ?_, fun d' first k1 k2 => ?_⟩
    · obtain ⟨s, a, b, cc⟩ := hok.1 d' k'
      exact ⟨s, a, b, codas s cc⟩
    · obtain ⟨a, b⟩ := hok.2 d' first k1 k2
      rw [ht]
      exact ⟨a, codas _ b⟩

/-- C88: exactly when a score with a D.C. or D.S. is still accepted with two Codas put on it: the
first is not at tick 0 and the second not behind the Fine (in one setting of the interval library,
also: the first behind the target of the jump, the second before the Fine). -/
theorem C88_codas_accepts_iff (ip : Bool) (tune : Rhythm) (bars : List Bar) (hb : BarsOk bars) (c : CompoundRegion)
    (w : List RenderRegionWarning) (h : renderRegion ip tune bars = .ok (c, w)) (d target u v : Nat) (hj : Jump tune bars d target)
    (hu : LineAt bars u) (hv : LineAt bars v) (huv : u < v) (hcoda : marks bars .Coda = []) :
    (∃ c' w', renderRegion ip tune (marked .Coda v (marked .Coda u bars)) = .ok (c', w')) ↔
      0 < u ∧ v ≤ endTick bars ∧ (ip = true → target < u ∧ v < endTick bars) := by
  have e : ∀ k, k ≠ .Coda → marks (marked .Coda v (marked .Coda u bars)) k = marks bars k := by
    intro k hk
    rw [marks_marked_ne hk, marks_marked_ne hk]
  have e1 := e .Dc (by decide)
  have e2 := e .Ds (by decide)
  have e3 := e .Fine (by decide)
  have e4 := e .Segno (by decide)
  have hb' : BarsOk (marked .Coda v (marked .Coda u bars)) := marked_barsOk.2 (marked_barsOk.2 hb)
  have hv' : LineAt (marked .Coda u bars) v := by
    obtain ⟨x, hx, rfl⟩ := hv
    exact ⟨_, List.mem_map_of_mem hx, (markAt_facts .Coda u x).1⟩
  have e5 : marks (marked .Coda v (marked .Coda u bars)) .Coda = [u, v] := by
    refine sorted_ext (GlobalRepeatBuilder.marks_sorted hb'.1 .Coda) (by simpa using huv) fun t => ?_
    rw [mem_marks_marked, mem_marks_marked, hcoda]
    simp [hu, hv']
  obtain ⟨m1, ⟨ps, hr⟩, hok⟩ := (C32_accepts_iff ip tune bars hb).1 ⟨c, w, h⟩
  have hend : endTick (marked .Coda v (marked .Coda u bars)) = endTick bars := by simp only [endTick, e3]
  have ht : ∀ first d', dcTarget tune (marked .Coda v (marked .Coda u bars)) first d' = dcTarget tune bars first d' := by
    intro first d'
    simp only [dcTarget, e4, marked_opening]
  have codas : CodasOk ip target (marked .Coda v (marked .Coda u bars)) ↔
      0 < u ∧ v ≤ endTick bars ∧ (ip = true → target < u ∧ v < endTick bars) := by
    unfold CodasOk
    rw [e5, hend]
  rw [C32_accepts_iff ip tune _ hb', ← codas]
  refine ⟨?_, fun k => ⟨?_, ⟨ps, ?_⟩, ?_⟩⟩
  · rintro ⟨_, _, k⟩
    rcases hj with ⟨j1, j2⟩ | ⟨first, j1, j2, rfl⟩
    · obtain ⟨s, a, _, b⟩ := k.1 d (e2.trans j1)
      rw [e4, j2] at a
      cases a
      exact b
    · have := (k.2 d first (e1.trans j1) (by rw [marked_first, marked_first]; exact j2)).2
      rwa [ht] at this
  · unfold MarksOk
    rw [e1, e2, e3, e4, e5]
    exact ⟨m1.1, m1.2.1, m1.2.2.1, by simp⟩
  · rw [e4, marked_eq, marked_eq, List.map_map]
    exact Reads_same_segno (fun x => ⟨(same_mark (.inr rfl) u x).1.trans (same_mark (.inr rfl) v _).1,
      fun k a b cc => ((same_mark (.inr rfl) u x).2 k a b cc).trans ((same_mark (.inr rfl) v _).2 k a b cc)⟩) (.inr rfl) hr
  · unfold JumpOk
    rw [e1, e2, e4, e5, marked_first, marked_first]
    refine ⟨fun d' k' => ?_, fun d' first k1 k2 => ?_⟩
    · obtain ⟨s, a, _, _⟩ := hok.1 d' k'
      obtain ⟨_, rfl⟩ := Jump_unique m1 hj (.inl ⟨k', a⟩)
      exact ⟨target, a, by simp, k⟩
    · obtain ⟨a, _⟩ := hok.2 d' first k1 k2
      obtain ⟨_, e⟩ := Jump_unique m1 hj (.inr ⟨first, k1, k2, rfl⟩)
      rw [ht, ← e]
      exact ⟨a, k⟩

/-- C88: without a D.C. or D.S. a Fine and up to two Codas change nothing, and there is no warning. -/
theorem C88_idle (ip : Bool) (tune : Rhythm) (bars : List Bar) (hb : BarsOk bars) (c : CompoundRegion)
    (w : List RenderRegionWarning) (cs : List Chunk) (h : renderRegion ip tune bars = .ok (c, w)) (hc : c.toChunks ip = .ok cs)
    (hdc : marks bars .Dc = []) (hds : marks bars .Ds = []) (m : Repeat) (t : Nat) (ht : LineAt bars t)
    (hm : (m = .Fine ∧ marks bars .Fine = []) ∨ (m = .Coda ∧ (marks bars .Coda).length ≤ 1)) :
    ∃ c' cs', renderRegion ip tune (marked m t bars) = .ok (c', []) ∧ c'.toChunks ip = .ok cs' ∧ played cs' = played cs := by
  have hmm : m = .Fine ∨ m = .Coda := hm.imp And.left And.left
  have ne : ∀ k, k ≠ .Fine → k ≠ .Coda → marks (marked m t bars) k = marks bars k := by
    intro k k1 k2
    exact marks_marked_ne (by rcases hmm with rfl | rfl <;> assumption) t bars
  have e1 := (ne .Dc (by decide) (by decide)).trans hdc
  have e2 := (ne .Ds (by decide) (by decide)).trans hds
  have e4 := ne .Segno (by decide) (by decide)
  have hb' : BarsOk (marked m t bars) := marked_barsOk.2 hb
  obtain ⟨m1, ⟨ps, hr⟩, _⟩ := (C32_accepts_iff ip tune bars hb).1 ⟨c, w, h⟩
  have nj : ∀ {l : List Bar}, marks l .Dc = [] → marks l .Ds = [] → ∀ d target, ¬ Jump tune l d target := by
    intro l k1 k2 d target k
    rcases k with ⟨k, _⟩ | ⟨_, k, _⟩
    · rw [k2] at k; cases k
    · rw [k1] at k; cases k
  have hm' : MarksOk (marked m t bars) := by
    unfold MarksOk
    rw [e1, e2, e4]
    rcases hm with ⟨rfl, hf⟩ | ⟨rfl, hf⟩
    · rw [marks_only hb hf ht, marks_marked_ne (by decide)]
      exact ⟨by simp, by simp, m1.2.2⟩
    · rw [marks_marked_ne (k := .Fine) (by decide)]
      refine ⟨by simp, m1.2.1, m1.2.2.1, ?_⟩
      match k : marks bars .Coda with
      | [] => rw [marks_only hb k ht]; simp
      | _ :: _ :: _ => rw [k] at hf; simp at hf
      | [o] =>
        have mem : ∀ x, x ∈ marks (marked .Coda t bars) .Coda ↔ x = o ∨ x = t := by
          intro x
          rw [mem_marks_marked, k]
          simp [ht]
        have srt := GlobalRepeatBuilder.marks_sorted hb'.1 .Coda
        rcases Nat.lt_trichotomy t o with lt | rfl | lt
        · rw [sorted_ext srt (m := [t, o]) (by simpa using lt) fun x => by rw [mem]; simp [or_comm]]; simp
        · rw [sorted_ext srt (m := [t]) (by simp) fun x => by rw [mem]; simp]; simp
        · rw [sorted_ext srt (m := [o, t]) (by simpa using lt) fun x => by rw [mem]; simp]; simp
  have hr' : Reads (marks (marked m t bars) .Segno).head? .first 0 (marked m t bars) ps := by
    rw [e4, marked_eq]
    exact Reads_same_segno (same_mark hmm t) (.inr rfl) hr
  obtain ⟨c', w', h'⟩ := (C32_accepts_iff ip tune _ hb').2 ⟨hm', ⟨ps, hr'⟩,
    ⟨fun d k => (by rw [e2] at k; cases k), fun d first k => (by rw [e1] at k; cases k)⟩⟩
  obtain ⟨rfl, cs', k1, k2⟩ := C29_rendered ip tune _ hb' c' w' h' (nj e1 e2) ps hr'
  obtain ⟨_, cs2, k3, k4⟩ := C29_rendered ip tune bars hb c w h (nj hdc hds) ps hr
  rw [hc] at k3
  cases k3
  exact ⟨c', cs', h', k1, k2.trans k4.symm⟩

/-- C88: a lone Coda put on a score is refused if there is a D.S.; if there is a D.C. it changes
nothing, and there is a warning of it. -/
theorem C88_coda_alone (ip : Bool) (tune : Rhythm) (bars : List Bar) (hb : BarsOk bars) (c : CompoundRegion)
    (w : List RenderRegionWarning) (h : renderRegion ip tune bars = .ok (c, w)) (d target u : Nat) (hj : Jump tune bars d target)
    (hu : LineAt bars u) (hcoda : marks bars .Coda = []) :
    (marks bars .Ds = [d] → ∀ c' w', renderRegion ip tune (marked .Coda u bars) ≠ .ok (c', w')) ∧
    (marks bars .Dc = [d] → ∀ cs, c.toChunks ip = .ok cs →
      ∃ c' cs', renderRegion ip tune (marked .Coda u bars) = .ok (c', w ++ [.orphanCodaFound u]) ∧ c'.toChunks ip = .ok cs' ∧
        played cs' = played cs) := by
  have e : ∀ k, k ≠ .Coda → marks (marked .Coda u bars) k = marks bars k := fun k hk => marks_marked_ne hk u bars
  have e1 := e .Dc (by decide)
  have e2 := e .Ds (by decide)
  have e3 := e .Fine (by decide)
  have e4 := e .Segno (by decide)
  have e5 := marks_only (m := .Coda) hb hcoda hu
  obtain ⟨m1, ⟨ps, hr⟩, hok⟩ := (C32_accepts_iff ip tune bars hb).1 ⟨c, w, h⟩
  refine ⟨fun hds c' w' h' => ?_, fun hdc cs hc => ?_⟩
  · obtain ⟨_, _, k⟩ := (C32_accepts_iff ip tune _ (marked_barsOk.2 hb)).1 ⟨c', w', h'⟩
    obtain ⟨_, _, k2, _⟩ := k.1 d (e2.trans hds)
    rw [e5] at k2
    exact k2 rfl
  · have hds : marks bars .Ds = [] := by
      have := m1.1
      rw [hdc, List.length_singleton] at this
      exact List.eq_nil_of_length_eq_zero (by omega)
    have hm' : MarksOk (marked .Coda u bars) := by
      unfold MarksOk
      rw [e1, e2, e3, e4, e5]
      exact ⟨m1.1, m1.2.1, m1.2.2.1, by simp⟩
    have hok' : JumpOk ip tune (marked .Coda u bars) := by
      unfold JumpOk
      rw [e1, e2, e4, e5, marked_first]
      refine ⟨fun d' k => ?_, fun d' first k1 k2 => ⟨(hok.2 d' first k1 k2).1, ?_⟩⟩
      · rw [hds] at k
        cases k
      · unfold CodasOk
        rw [e5]
        trivial
    have hj' : Jump tune (marked .Coda u bars) d target := by
      simpa only [Jump, dcTarget, e1, e2, e4, marked_first, marked_opening] using hj
    have hw : jumpWarnings (marked .Coda u bars) = w ++ [.orphanCodaFound u] := by
      rw [(rendered_jump hb h hj hr).1]
      rcases hj with ⟨k, _⟩ | ⟨first, _, k, _⟩
      · rw [hds] at k
        cases k
      · simp only [jumpWarnings, dcWarnings, e1, e4, e5, hdc, hcoda, marked_first, k, List.append_nil]
    obtain ⟨c', cs', F, k1, k2, k3, k4⟩ := same_first (f := markAt .Coda u) hb h hc hr hj (same_mark (.inr rfl) u) e4 hw hm' hok' hj'
    refine ⟨c', cs', k1, k2, ?_⟩
    rw [k3, k4]
    congr 1
    refine List.filter_congr fun t _ => decide_eq_decide.2 ?_
    have : inSecondPass target (marked .Coda u bars) t ↔ inSecondPass target bars t := by
      unfold inSecondPass
      rw [e5, hcoda]
      simp only [endTick, e3]
    exact this

/-- The proviso on the Codas is needed: before the place the jump goes to they make the second
pass longer, not shorter. -/
theorem C88_codas_proviso : let bars := [line 960 {}, line 1920 {}, line 2880 { segno := true }, line 3840 { ds := true }]
    performance false ⟨4, .D4⟩ bars = .ok ([⟨0, 3840⟩, ⟨2880, U32_MAX⟩], []) ∧
    performance false ⟨4, .D4⟩ (marked .Coda 1920 (marked .Coda 960 bars)) = .ok ([⟨0, 3840⟩, ⟨1920, U32_MAX⟩], []) := by
  decide +kernel

/-- The provisos on the repeat are needed: in a passage that is repeated already it is refused;
at the beginning of a score with a D.S. playing panics. -/
theorem C88_repeat_proviso (ip : Bool) :
    (let bars := [line 960 {}, line 1920 {}, line 2880 { end_ := true }];
      performance ip ⟨4, .D4⟩ bars = .ok ([⟨0, 2880⟩, ⟨0, 2880⟩, ⟨2880, U32_MAX⟩], []) ∧
      performance ip ⟨4, .D4⟩ (marked .End 1920 (marked .Start 960 bars)) = .error (.err (.orphanRepeatEnd 2880))) ∧
    (let bars := [line 0 {}, line 960 {}, line 1920 { segno := true }, line 2880 { ds := true }];
      performance ip ⟨4, .D4⟩ bars = .ok ([⟨0, 2880⟩, ⟨1920, U32_MAX⟩], []) ∧
      performance ip ⟨4, .D4⟩ (marked .End 960 (marked .Start 0 bars)) = .error (.panic .overflow)) := by
  cases ip <;> decide +kernel

private theorem performed' {ip : Bool} {tune : Rhythm} {bars : List Bar} {cs : List Chunk} {w : List RenderRegionWarning}
    (h : performance ip tune bars = .ok (cs, w)) : ∃ c, renderRegion ip tune bars = .ok (c, w) ∧ c.toChunks ip = .ok cs := by
  unfold performance at h
  cases h1 : renderRegion ip tune bars with
  | error f => rw [h1] at h; cases h
  | ok r =>
    obtain ⟨c, w'⟩ := r
    rw [h1] at h
    cases h2 : c.toChunks ip with
    | error p => simp only [RR_bind_ok, h2, liftR] at h; cases h
    | ok cs' =>
      simp only [RR_bind_ok, h2, liftR] at h
      cases h
      exact ⟨c, rfl, h2⟩

/-- A tune of six bars, from the last of which it goes back to the Segno at the second. -/
private def addBars : List Bar :=
  [line 96 { segno := true }, line 192 {}, line 288 {}, line 384 {}, line 480 {}, line 576 { ds := true }]

private theorem addPlayed (ip : Bool) : performance ip ⟨4, .D4⟩ addBars = .ok ([⟨0, 576⟩, ⟨96, U32_MAX⟩], []) := by
  cases ip <;> decide +kernel

private theorem addReads : Reads (marks addBars .Segno).head? .first 0 addBars [.plain 0 U32_MAX] :=
  Reads.last (by decide) (by simp only [Quiet]; decide)

private theorem addJump : Jump ⟨4, .D4⟩ addBars 576 96 := .inl ⟨by decide, by decide⟩

private theorem addUnique {d target : Nat} (h : Jump ⟨4, .D4⟩ addBars d target) : d = 576 := by
  rcases h with ⟨k, _⟩ | ⟨_, k, _⟩
  · rw [show marks addBars .Ds = [576] by decide] at k
    exact ((List.cons.inj k).1).symm
  · rw [show marks addBars .Dc = [] by decide] at k
    cases k

/-- The fourth and fifth bars repeated. -/
example (ip : Bool) : ∃ c cs c' cs' l1 l2, renderRegion ip ⟨4, .D4⟩ addBars = .ok (c, []) ∧ c.toChunks ip = .ok cs ∧
    renderRegion ip ⟨4, .D4⟩ (marked .End 480 (marked .Start 288 addBars)) = .ok (c', []) ∧ c'.toChunks ip = .ok cs' ∧
    played cs = l1 ++ (span 288 480 ++ l2) ∧ played cs' = l1 ++ (span 288 480 ++ (span 288 480 ++ l2)) := by
  obtain ⟨c, h1, h2⟩ := performed' (addPlayed ip)
  obtain ⟨c', cs', k1, k2, k3, _⟩ := C88_repeat ip ⟨4, .D4⟩ addBars ⟨by decide, by decide⟩ c [] _ h1 h2 _ addReads 0 U32_MAX 288 480
    (by simp) ⟨line 288 {}, by decide, rfl⟩ ⟨line 480 {}, by decide, rfl⟩ (by decide) (by decide) (by decide) (by decide) (fun _ _ _ => by decide)
  obtain ⟨l1, l2, _, e1, e2⟩ := k3 fun d target hj => by rw [addUnique hj]; decide
  exact ⟨c, _, c', cs', l1, l2, h1, h2, k1, k2, e1, e2⟩

/-- A Fine put at the end of the fourth bar. -/
example (ip : Bool) : ∃ c cs c' cs' first, renderRegion ip ⟨4, .D4⟩ addBars = .ok (c, []) ∧ c.toChunks ip = .ok cs ∧
    renderRegion ip ⟨4, .D4⟩ (marked .Fine 384 addBars) = .ok (c', []) ∧ c'.toChunks ip = .ok cs' ∧
    played cs = first ++ (span 0 U32_MAX).filter (fun t => decide (inSecondPass 96 addBars t)) ∧
    played cs' = first ++ (span 0 U32_MAX).filter (fun t => decide (inSecondPass 96 addBars t ∧ t < 384)) := by
  obtain ⟨c, h1, h2⟩ := performed' (addPlayed ip)
  obtain ⟨c', cs', F, k1, k2, k3, k4⟩ := C88_fine ip ⟨4, .D4⟩ addBars ⟨by decide, by decide⟩ c [] _ h1 h2 _ addReads 576 96 384
    addJump ⟨line 384 {}, by decide, rfl⟩ (by decide) (by rw [show marks addBars .Coda = [] by decide]; exact fun _ _ e => nomatch e)
  exact ⟨c, _, c', cs', F, h1, h2, k1, k2, by simpa [Passage.once] using k3, by simpa [Passage.once] using k4⟩

/-- Codas put at the beginnings of the third and the fifth bar. -/
example (ip : Bool) : ∃ c cs c' cs' first, renderRegion ip ⟨4, .D4⟩ addBars = .ok (c, []) ∧ c.toChunks ip = .ok cs ∧
    renderRegion ip ⟨4, .D4⟩ (marked .Coda 384 (marked .Coda 192 addBars)) = .ok (c', []) ∧ c'.toChunks ip = .ok cs' ∧
    played cs = first ++ (span 0 U32_MAX).filter (fun t => decide (inSecondPass 96 addBars t)) ∧
    played cs' = first ++ (span 0 U32_MAX).filter (fun t => decide (inSecondPass 96 addBars t ∧ ¬ (192 ≤ t ∧ t < 384))) := by
  obtain ⟨c, h1, h2⟩ := performed' (addPlayed ip)
  obtain ⟨c', cs', F, k1, k2, k3, k4⟩ := C88_codas ip ⟨4, .D4⟩ addBars ⟨by decide, by decide⟩ c [] _ h1 h2 _ addReads 576 96 192 384
    addJump ⟨line 192 {}, by decide, rfl⟩ ⟨line 384 {}, by decide, rfl⟩ (by decide) (by decide) (by decide) ⟨by decide, fun _ => by decide⟩ ⟨by decide, fun _ => by decide⟩
  exact ⟨c, _, c', cs', F, h1, h2, k1, k2, by simpa [Passage.once] using k3, by simpa [Passage.once] using k4⟩

/-- With these Codas a Fine between them is refused, and one behind them is not. -/
example (ip : Bool) :
    (∃ c w, renderRegion ip ⟨4, .D4⟩ (marked .Fine 480 (marked .Coda 384 (marked .Coda 192 addBars))) = .ok (c, w)) ∧
    ¬ ∃ c w, renderRegion ip ⟨4, .D4⟩ (marked .Fine 288 (marked .Coda 384 (marked .Coda 192 addBars))) = .ok (c, w) := by
  obtain ⟨c, h1, _⟩ := performed' (addPlayed ip)
  obtain ⟨c', w', k⟩ := (C88_codas_accepts_iff ip ⟨4, .D4⟩ addBars ⟨by decide, by decide⟩ c [] h1 576 96 192 384 addJump
    ⟨line 192 {}, by decide, rfl⟩ ⟨line 384 {}, by decide, rfl⟩ (by decide) (by decide)).2 ⟨by decide, by decide, fun _ => by decide⟩
  have key := fun z hz => C88_fine_accepts_iff ip ⟨4, .D4⟩ (marked .Coda 384 (marked .Coda 192 addBars)) ⟨by decide, by decide⟩ c' w' k
    576 96 z (.inl ⟨by decide, by decide⟩) hz (by decide)
  rw [show marks (marked .Coda 384 (marked .Coda 192 addBars)) .Coda = [192, 384] by decide] at key
  refine ⟨(key 480 ⟨line 480 {}, by decide, rfl⟩).2 fun l r e => ?_, fun k => ?_⟩
  · cases e
    exact ⟨by decide, fun _ => by decide⟩
  · have := ((key 288 ⟨line 288 {}, by decide, rfl⟩).1 k 192 384 rfl).1
    omega

/-- A Fine and a Coda in a score that is played straight through. -/
example (ip : Bool) (m : Repeat) (hm : m = .Fine ∨ m = .Coda) : ∃ c' cs',
    renderRegion ip ⟨4, .D4⟩ (marked m 192 [line 96 {}, line 192 {}]) = .ok (c', []) ∧ c'.toChunks ip = .ok cs' ∧
      played cs' = played [⟨0, U32_MAX⟩] := by
  have hp : performance ip ⟨4, .D4⟩ [line 96 {}, line 192 {}] = .ok ([⟨0, U32_MAX⟩], []) := by cases ip <;> decide +kernel
  obtain ⟨c, h1, h2⟩ := performed' hp
  exact C88_idle ip ⟨4, .D4⟩ _ ⟨by decide, by decide⟩ c [] _ h1 h2 (by decide) (by decide) m 192 ⟨line 192 {}, by decide, rfl⟩
    (hm.imp (⟨·, by decide⟩) (⟨·, by decide⟩))

/-- A lone Coda, with a D.S. and with a D.C. -/
example (ip : Bool) : (∀ c w, renderRegion ip ⟨4, .D4⟩ (marked .Coda 192 addBars) ≠ .ok (c, w)) ∧
    ∃ c cs, renderRegion ip ⟨4, .D4⟩ (marked .Coda 192 [line 96 {}, line 192 {}, line 288 { dc := true }]) = .ok (c, [.orphanCodaFound 192]) ∧
      c.toChunks ip = .ok cs ∧ played cs = played [⟨0, 288⟩, ⟨96, U32_MAX⟩] := by
  have hp : performance ip ⟨4, .D4⟩ [line 96 {}, line 192 {}, line 288 { dc := true }] = .ok ([⟨0, 288⟩, ⟨96, U32_MAX⟩], []) := by
    cases ip <;> decide +kernel
  obtain ⟨c, h1, _⟩ := performed' (addPlayed ip)
  obtain ⟨c2, h2, h3⟩ := performed' hp
  exact ⟨(C88_coda_alone ip ⟨4, .D4⟩ addBars ⟨by decide, by decide⟩ c [] h1 576 96 192 addJump ⟨line 192 {}, by decide, rfl⟩ (by decide)).1 (by decide),
    (C88_coda_alone ip ⟨4, .D4⟩ _ ⟨by decide, by decide⟩ c2 [] h2 288 96 192 (.inr ⟨96, by decide, by decide, by decide⟩)
      ⟨line 192 {}, by decide, rfl⟩ (by decide)).2 (by decide) _ h3⟩

end Klavier
