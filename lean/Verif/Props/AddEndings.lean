import Verif.Lemmas.AddEndings
import Verif.Props.RenderError
import Verif.Spec.Figures
import Verif.Spec.Stretch

/-! # C95: numbered endings put on a score -/
set_option autoImplicit false
namespace Klavier
open Spec

private theorem upTo_plain (a b d : Nat) : (Passage.plain a b).upTo d = span a (min b d) := by
  by_cases h : b ≤ d
  · rw [upTo_full (p := .plain a b) h, Nat.min_eq_left h]; rfl
  · rw [upTo_part (p := .plain a b) h, Nat.min_eq_right (by omega)]; rfl

private theorem span_none {a b : Nat} (h : b ≤ a) : span a b = [] := by
  rw [List.eq_nil_iff_forall_not_mem]
  intro t ht
  have := mem_span.1 ht
  omega

/-- C95: a Start and numbered endings put on bar lines of a plain passage make what is before the
endings be played once with each of them, and change nothing else: what was played as
`span s e` is played as the common part and the first ending, the common part and the second, and so
on.  After a D.C. or D.S. all the endings but the last are left out.  If the jump comes before the
endings, what is played before the jump stays as it was.  The warnings are the same. -/
theorem C95_endings (ip : Bool) (tune : Rhythm) (bars : List Bar) (hb : BarsOk bars) (c : CompoundRegion)
    (w : List RenderRegionWarning) (cs : List Chunk) (h : renderRegion ip tune bars = .ok (c, w)) (hc : c.toChunks ip = .ok cs)
    (ps : List Passage) (hr : Reads (marks bars .Segno).head? .first 0 bars ps) (p q s v e : Nat) (ts : List Nat)
    (hp : Passage.plain p q ∈ ps) (hps : p ≤ s) (heq : e ≤ q) (hsv : s < v) (hts : (v :: ts).Pairwise (· < ·)) (hlen : ts.length ≤ 3)
    (hte : ∀ t ∈ v :: ts, t < e) (hs : LineAt bars s) (he : LineAt bars e) (hl : ∀ t ∈ v :: ts, LineAt bars t)
    (hmid : ∀ x ∈ bars, s < x.startTick → x.startTick < e → ¬ Has x .Dc ∧ ¬ Has x .Ds ∧ endingNo x = none)
    (hend : ∀ x ∈ bars, x.startTick = e → endingNo x = none)
    (hsg : ∀ x ∈ bars, Has x .Segno → ¬ (v ≤ x.startTick ∧ x.startTick < (v :: ts).getLastD v))
    (h0 : ∀ d target, Jump tune bars d target → 0 < s) :
    ∃ c' cs' first first' second, renderRegion ip tune (withEndings s v ts e bars) = .ok (c', w) ∧ c'.toChunks ip = .ok cs' ∧
      played cs = first ++ second ∧
      played cs' = first' ++ second.filter (fun t => decide (¬ (v ≤ t ∧ t < (v :: ts).getLastD v))) ∧
      ((∀ d target, ¬ Jump tune bars d target) → second = []) ∧
      (∀ d target, Jump tune bars d target → second = (ps.flatMap Passage.once).filter (fun t => decide (inSecondPass target bars t))) ∧
      ((∀ d target, Jump tune bars d target → e ≤ d) → ∃ l1 l2, (∀ t ∈ l1, t < s) ∧
        first = l1 ++ (span s e ++ l2) ∧ first' = l1 ++ ((endingParts v ts e).flatMap (fun part => span s v ++ part) ++ l2)) ∧
      (∀ d target, Jump tune bars d target → d < e → first' = first) := by
  have hve := hte v (by simp)
  have hsg' : ∀ g, (marks bars .Segno).head? = some g → ¬ (v ≤ g ∧ g < (v :: ts).getLastD v) := by
    intro g hg
    obtain ⟨x, x1, x2, rfl⟩ := mem_marks.1 (List.mem_of_head? hg)
    exact hsg x x1 x2
  obtain ⟨ps1, ps2, L, R, eps, hr', hL, hR⟩ := reads_endings hr hb hp hps heq hsv hts hlen hte hs he hl hmid hend hsg'
  obtain ⟨esg, a1, a2, a3, a4⟩ := kept_jump (endAt_facts s v ts e) tune bars
  rw [← withEndings_eq] at esg a1 a2 a3 a4
  have hb' : BarsOk (withEndings s v ts e bars) := by
    rw [barsOk_ticks] at hb ⊢
    rw [withEndings_eq, List.map_map,
      show ((·.startTick) ∘ endAt s v ts e : Bar → Nat) = (·.startTick) from funext fun x => (endAt_facts s v ts e x).1]
    exact hb
  have hpass : ∀ target, (fun t => decide (inSecondPass target (withEndings s v ts e bars) t)) =
      fun t => decide (inSecondPass target bars t) := by
    intro target
    funext t
    exact decide_eq_decide.2 (a4 target t)
  rw [← esg] at hr'
  obtain ⟨m1, _, m3⟩ := (render_ok_iff hb.1 ip tune c w).1 h
  have h' := (render_ok_iff hb'.1 ip tune ⟨c.globalRepeat, _⟩ w).2 ⟨a2.2 m1, ⟨_, hr', rfl⟩, by rw [a1]; exact m3⟩
  have hch := Reads_chain hr (fun _ => rfl) hb (fun h => absurd rfl h)
  have hch' := Reads_chain hr' (fun _ => rfl) hb' (fun h => absurd rfl h)
  have partsL : L.flatMap Passage.full = span p s ∧ ∀ d, L.flatMap (Passage.upTo d) = span p (min s d) := by
    rcases hL with rfl | ⟨rfl, rfl, _⟩
    · exact ⟨by simp [Passage.full], fun d => by simp [upTo_plain]⟩
    · refine ⟨?_, fun d => ?_⟩ <;> (rw [span_none (by omega)]; rfl)
  have partsR : R.flatMap Passage.full = span e q ∧ ∀ d, R.flatMap (Passage.upTo d) = span e (min q d) := by
    rcases hR with rfl | ⟨rfl, rfl⟩
    · exact ⟨by simp [Passage.full], fun d => by simp [upTo_plain]⟩
    · refine ⟨?_, fun d => ?_⟩ <;> (rw [span_none (by omega)]; rfl)
  -- the second pass leaves out the endings but the last
  have left : ∀ t, LeftOut (ps1 ++ (L ++ .endings s (v :: ts) e :: (R ++ ps2))) t ↔
      LeftOut ps t ∨ (v ≤ t ∧ t < (v :: ts).getLastD v) := by
    intro t
    have elast : (v :: ts).getLast? = some ((v :: ts).getLastD v) := by
      rw [List.getLastD_eq_getLast?]
      cases k : (v :: ts).getLast? with
      | none => simp at k
      | some z => rfl
    have notL : ∀ a us b, Passage.endings a us b ∉ L := by
      intro a us b k
      rcases hL with rfl | ⟨rfl, _⟩ <;> simp at k
    have notR : ∀ a us b, Passage.endings a us b ∉ R := by
      intro a us b k
      rcases hR with rfl | ⟨rfl, _⟩ <;> simp at k
    have mem : ∀ a us b, Passage.endings a us b ∈ ps1 ++ (L ++ .endings s (v :: ts) e :: (R ++ ps2)) ↔
        Passage.endings a us b ∈ ps ∨ Passage.endings a us b = .endings s (v :: ts) e := by
      intro a us b
      rw [eps]
      simp only [List.mem_append, List.mem_cons, notL, notR, false_or, reduceCtorEq]
      constructor
      · rintro (k | k | k)
        · exact .inl (.inl k)
        · exact .inr k
        · exact .inl (.inr k)
      · rintro ((k | k) | k)
        · exact .inl k
        · exact .inr (.inr k)
        · exact .inr (.inl k)
    constructor
    · rintro ⟨a, us, b, f, g, k1, k2, k3, k4⟩
      rcases (mem a us b).1 k1 with k | k
      · exact .inl ⟨a, us, b, f, g, k, k2, k3, k4⟩
      · cases k
        obtain rfl : v = f := by simpa using k2
        obtain rfl : (v :: ts).getLastD v = g := by
          rw [elast] at k3
          exact Option.some.inj k3
        exact .inr k4
    · rintro (⟨a, us, b, f, g, k1, k⟩ | k)
      · exact ⟨a, us, b, f, g, (mem a us b).2 (.inl k1), k⟩
      · exact ⟨s, v :: ts, e, v, _, (mem _ _ _).2 (.inr rfl), rfl, elast, k⟩
  have newOnce : (ps1 ++ (L ++ .endings s (v :: ts) e :: (R ++ ps2))).flatMap Passage.once =
      (ps.flatMap Passage.once).filter (fun t => decide (¬ (v ≤ t ∧ t < (v :: ts).getLastD v))) := by
    refine sorted_ext (once_all_sorted _ 0 (by decide) hch').1 ((once_all_sorted _ 0 (by decide) hch).1.filter _) fun t => ?_
    rw [List.mem_filter, mem_once hch' (by decide), mem_once hch (by decide), left, decide_eq_true_eq, not_or]
    constructor
    · rintro ⟨k1, k2, k3, k4⟩
      exact ⟨⟨k1, k2, k3⟩, k4⟩
    · rintro ⟨⟨k1, k2, k3⟩, k4⟩
      exact ⟨k1, k2, k3, k4⟩
  have newSecond : ∀ target, ((ps1 ++ (L ++ .endings s (v :: ts) e :: (R ++ ps2))).flatMap Passage.once).filter
        (fun t => decide (inSecondPass target bars t)) =
      ((ps.flatMap Passage.once).filter (fun t => decide (inSecondPass target bars t))).filter
        (fun t => decide (¬ (v ≤ t ∧ t < (v :: ts).getLastD v))) := by
    intro target
    rw [newOnce, List.filter_filter, List.filter_filter]
    exact List.filter_congr fun t _ => Bool.and_comm _ _
  have early : ∀ r ∈ ps1, r.Ordered ∧ r.stop ≤ p := fun r hr1 => chain_before (r := .plain p q) (eps ▸ hch) (by decide) r hr1
  have before : ∀ d, ∀ t ∈ ps1.flatMap (Passage.upTo d) ++ span p s, t < s := by
    intro d t ht
    rcases List.mem_append.1 ht with k | k
    · obtain ⟨r, hr1, hr2⟩ := List.mem_flatMap.1 k
      obtain ⟨k1, k2⟩ := early r hr1
      have k3 : t < r.stop := by
        by_cases hd : r.stop ≤ d
        · rw [upTo_full hd] at hr2
          exact ((mem_full k1 t).1 hr2).2
        · rw [upTo_part hd, mem_span] at hr2
          omega
      omega
    · exact (mem_span.1 k).2
  have beforeFull : ∀ t ∈ ps1.flatMap Passage.full ++ span p s, t < s := by
    intro t ht
    rcases List.mem_append.1 ht with k | k
    · obtain ⟨r, hr1, hr2⟩ := List.mem_flatMap.1 k
      obtain ⟨k1, k2⟩ := early r hr1
      have k3 := ((mem_full k1 t).1 hr2).2
      omega
    · exact (mem_span.1 k).2
  rcases playing hb h hc hr with ⟨hn, e1⟩ | ⟨d, target, hj, hd, hq, hcase⟩
  · obtain ⟨_, cs', k1, k2⟩ := C29_rendered ip tune _ hb' _ w h' (fun d target k => hn d target ((a3 d target).1 k)) _ hr'
    refine ⟨_, cs', _, _, [], h', k1, (List.append_nil _).symm, (List.append_nil _).symm, fun _ => rfl, fun d target k => absurd k (hn d target),
      fun _ => ⟨ps1.flatMap Passage.full ++ span p s, span e q ++ ps2.flatMap Passage.full, beforeFull, ?_, ?_⟩,
      fun d target k => absurd k (hn d target)⟩
    · rw [e1, eps]
      simp only [List.flatMap_append, List.flatMap_cons, Passage.full]
      rw [span_append (a := p) (m := s) (b := q) (by omega) (by omega), span_append (a := s) (m := e) (b := q) (by omega) (by omega)]
      simp
    · rw [k2]
      simp only [List.flatMap_append, List.flatMap_cons, partsL.1, partsR.1, Passage.full]
      simp
  · have hq' : QuietStart (withEndings s v ts e bars) := by
      intro z hz ez
      have hs0 := h0 d target hj
      rw [withEndings_eq] at hz
      obtain ⟨z1, hz1, rfl⟩ := List.mem_map.1 hz
      rw [(endAt_facts s v ts e z1).1] at ez
      have k1 : endAt s v ts e z1 = z1 := by
        unfold endAt
        rw [if_neg (by omega), if_neg (by omega)]
      rw [k1]
      exact hq z1 hz1 ez
    have hj' := (a3 d target).2 hj
    have unique : ∀ {d' target' : Nat}, Jump tune bars d' target' → d' = d ∧ target' = target := fun k => Jump_unique m1 k hj
    have hde : d < e → d ≤ s := by
      intro hlt
      rcases Nat.lt_or_ge s d with hsd | hsd
      · exfalso
        rcases Jump_mem hj with k | k <;> (obtain ⟨z, z1, z2, z3⟩ := mem_marks.1 k)
        · exact (hmid z z1 (by omega) (by omega)).1 z2
        · exact (hmid z z1 (by omega) (by omega)).2.1 z2
      · exact hsd
    rcases hcase with ⟨ho, e1⟩ | ⟨⟨b, hb0, hd0⟩, e1⟩
    · have ho' : ∀ r, (ps1 ++ (L ++ Passage.endings s (v :: ts) e :: (R ++ ps2))).head? = some r → r.Outside d := by
        intro r hr1
        cases ps1 with
        | nil =>
          rcases hL with rfl | ⟨_, _, k⟩
          · obtain rfl : Passage.plain p s = r := by simpa using hr1
            trivial
          · exact absurd rfl k
        | cons r' ps1 =>
          refine ho r ?_
          rw [eps]
          exact hr1
      obtain ⟨_, cs', k1, k2⟩ := C30_rendered ip tune _ hb' _ w h' d target hj' hq' _ hr' ho'
      rw [hpass, newSecond] at k2
      have eOld : ps.flatMap (Passage.upTo d) = ps1.flatMap (Passage.upTo d) ++ (span p (min q d) ++ ps2.flatMap (Passage.upTo d)) := by
        rw [eps]
        simp only [List.flatMap_append, List.flatMap_cons, upTo_plain]
      simp only [List.flatMap_append, List.flatMap_cons, partsL.2, partsR.2] at k2
      refine ⟨_, cs', _, _, _, h', k1, e1, k2, fun hn => absurd hj (hn d target), fun d' target' hj2 => ?_, fun hall => ?_,
        fun d' target' hj2 hlt => ?_⟩
      · rw [(unique hj2).2]
      · have hed := hall d target hj
        refine ⟨ps1.flatMap (Passage.upTo d) ++ span p s, span e (min q d) ++ ps2.flatMap (Passage.upTo d), before d, ?_, ?_⟩
        · rw [eOld, span_append (a := p) (m := s) (b := min q d) (by omega) (by omega),
            span_append (a := s) (m := e) (b := min q d) (by omega) (by omega)]
          simp
        · rw [upTo_full (p := .endings s (v :: ts) e) (by simp only [Passage.stop]; omega), Nat.min_eq_left (by omega : s ≤ d)]
          simp [Passage.full]
      · obtain ⟨rfl, rfl⟩ := unique hj2
        have hds := hde hlt
        rw [eOld, upTo_part (p := .endings s (v :: ts) e) (by simp only [Passage.stop]; omega), Nat.min_eq_right hds,
          Nat.min_eq_right (by omega : d' ≤ q), span_none (a := e) (by omega)]
        simp only [Passage.start]
        rw [span_none (a := s) (by omega)]
        simp
    · cases ps1 with
      | nil =>
        rw [eps] at hb0
        simp at hb0
      | cons r ps1 =>
        rw [eps] at hb0
        obtain rfl : r = .repeated 0 b := by simpa using hb0
        have hbp : b ≤ p := (early (.repeated 0 b) (by simp)).2
        obtain ⟨_, cs', k1, k2⟩ := C30_inside_repeat ip tune _ hb' _ w h' d target hj' hq' b _ hr' hd0
        rw [hpass] at k2
        refine ⟨_, cs', [], [], (ps.flatMap Passage.once).filter (fun t => decide (inSecondPass target bars t)), h', k1, e1, ?_,
          fun hn => absurd hj (hn d target), fun d' target' hj2 => ?_, fun hall => ?_, fun _ _ _ _ => rfl⟩
        · rw [k2]
          exact newSecond target
        · rw [(unique hj2).2]
        · have := hall d target hj
          omega

/-- The provisos are needed. A Segno in an ending that is left out on the second pass is refused;
with a D.C., endings whose common part begins at tick 0 make playing panic; and a bar line behind
the endings that has a number of its own makes the last ending longer. -/
theorem C95_proviso (ip : Bool) :
    (let bars := [line 96 {}, line 192 { segno := true }, line 288 {}, line 384 {}, line 480 { ds := true }];
      performance ip ⟨4, .D4⟩ bars = .ok ([⟨0, 480⟩, ⟨192, U32_MAX⟩], []) ∧
      performance ip ⟨4, .D4⟩ (withEndings 96 192 [288] 384 bars) = .error (.err (.segnoWhileVariation 384))) ∧
    (let bars := [line 0 {}, line 96 {}, line 192 {}, line 288 {}, line 384 {}, line 480 { dc := true }];
      performance ip ⟨4, .D4⟩ bars = .ok ([⟨0, 480⟩, ⟨96, U32_MAX⟩], []) ∧
      performance ip ⟨4, .D4⟩ (withEndings 0 96 [192] 384 bars) = .error (.panic .overflow)) ∧
    (let bars := [line 96 { start := true }, line 192 { end_ := true }, line 288 {}, line 384 {}, line 480 { var2 := true }, line 576 {}];
      performance ip ⟨4, .D4⟩ bars = .ok ([⟨0, 96⟩, ⟨96, 192⟩, ⟨96, 192⟩, ⟨192, U32_MAX⟩], []) ∧
      performance ip ⟨4, .D4⟩ (withEndings 192 288 [384] 480 bars) =
        .ok ([⟨0, 96⟩, ⟨96, 192⟩, ⟨96, 192⟩, ⟨192, 288⟩, ⟨288, 384⟩, ⟨192, 288⟩, ⟨384, 576⟩, ⟨576, U32_MAX⟩], [])) := by
  cases ip <;> decide +kernel

private theorem performed {ip : Bool} {tune : Rhythm} {bars : List Bar} {cs : List Chunk} {w : List RenderRegionWarning}
    (h : performance ip tune bars = .ok (cs, w)) : ∃ c, renderRegion ip tune bars = .ok (c, w) ∧ c.toChunks ip = .ok cs := by
  unfold performance at h
  cases h1 : renderRegion ip tune bars with
  | error f => rw [h1] at h; cases h
  | ok r =>
    obtain ⟨c, w'⟩ := r
    rw [h1] at h
    cases h2 : c.toChunks ip with
    | error f => simp only [RR_bind_ok, h2, liftR] at h; cases h
    | ok cs' =>
      simp only [RR_bind_ok, h2, liftR] at h
      cases h
      exact ⟨c, rfl, h2⟩

/-- Six bars with a D.S. behind the fifth to the second. -/
private def six : List Bar := [line 96 { segno := true }, line 192 {}, line 288 {}, line 384 {}, line 480 { ds := true }]

private theorem six_reads : Reads (some 96) .first 0 six [.plain 0 U32_MAX] :=
  Reads.last (by decide) (by simp only [Quiet]; decide)

/-- The third bar as first and the fourth as second ending, the second bar before each. -/
example (ip : Bool) : ∃ c' cs' first' l1 l2, renderRegion ip ⟨4, .D4⟩ (withEndings 96 192 [288] 384 six) = .ok (c', []) ∧
    c'.toChunks ip = .ok cs' ∧ (∀ t ∈ l1, t < 96) ∧
    first' = l1 ++ (span 96 192 ++ (span 192 288 ++ (span 96 192 ++ (span 288 384 ++ l2)))) ∧
    played cs' = first' ++ ((span 0 U32_MAX).filter (fun t => decide (inSecondPass 96 six t))).filter (fun t => decide (¬ (192 ≤ t ∧ t < 288))) := by
  have hp : performance ip ⟨4, .D4⟩ six = .ok ([⟨0, 480⟩, ⟨96, U32_MAX⟩], []) := by cases ip <;> decide +kernel
  obtain ⟨c, h1, h2⟩ := performed hp
  have hb : BarsOk six := ⟨by decide, by decide⟩
  have hj : Jump ⟨4, .D4⟩ six 480 96 := by
    refine .inl ?_
    decide
  have m1 := ((render_ok_iff hb.1 ip ⟨4, .D4⟩ c []).1 h1).1
  obtain ⟨c', cs', _, first', second, k1, k2, _, k4, _, k6, k7, _⟩ := C95_endings ip ⟨4, .D4⟩ six hb c [] _ h1 h2 _ six_reads
    0 U32_MAX 96 192 384 [288] (by simp) (by decide) (by decide) (by decide) (by decide) (by decide) (by decide)
    ⟨line 96 { segno := true }, by decide, rfl⟩ ⟨line 384 {}, by decide, rfl⟩
    (by
      intro t ht
      simp only [List.mem_cons, List.not_mem_nil, or_false] at ht
      rcases ht with rfl | rfl
      · exact ⟨line 192 {}, by decide, rfl⟩
      · exact ⟨line 288 {}, by decide, rfl⟩)
    (by decide) (by decide) (by decide) (fun _ _ _ => by decide)
  obtain ⟨l1, l2, q1, _, q3⟩ := k7 (fun d target k => by rw [(Jump_unique m1 k hj).1]; decide)
  refine ⟨c', cs', first', l1, l2, k1, k2, q1, ?_, ?_⟩
  · rw [q3]
    simp [endingParts]
  · rw [k4, k6 480 96 hj]
    simp [Passage.once]

/-- Four endings on a score without a jump. -/
example (ip : Bool) : performance ip ⟨4, .D4⟩ (withEndings 96 192 [288, 384, 480] 576
      [line 96 {}, line 192 {}, line 288 {}, line 384 {}, line 480 {}, line 576 {}]) =
    .ok ([⟨0, 96⟩, ⟨96, 192⟩, ⟨192, 288⟩, ⟨96, 192⟩, ⟨288, 384⟩, ⟨96, 192⟩, ⟨384, 480⟩, ⟨96, 192⟩, ⟨480, 576⟩, ⟨576, U32_MAX⟩], []) := by
  cases ip <;> decide +kernel

end Klavier
