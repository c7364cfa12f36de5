import Verif.Lemmas.Playing
import Verif.Spec.Figures
import Verif.Spec.Stretch

/-! # C86, C87: how playing moves through the score -/
set_option autoImplicit false
namespace Klavier
open Spec

private theorem flow {ip : Bool} {tune : Rhythm} {bars : List Bar} (hb : BarsOk bars) {c : CompoundRegion}
    {w : List RenderRegionWarning} {cs : List Chunk} (h : renderRegion ip tune bars = .ok (c, w)) (hc : c.toChunks ip = .ok cs) :
    (∀ t, (played cs).head? = some t → Arrives bars t) ∧ (∀ t, (played cs).getLast? = some t → Stops bars (t + 1)) ∧
      (∀ l1 t u l2, played cs = l1 ++ t :: u :: l2 → u = t + 1 ∨ (Leaves bars (t + 1) ∧ Arrives bars u)) := by
  obtain ⟨ps, hr, _⟩ := C29_reads_uniquely ip tune bars hb c w h
  have hch := Reads_chain hr (fun _ => rfl) hb (fun h => absurd rfl h)
  have first : ∀ d, d ≤ U32_MAX → _ := fun d hd => walk_facts (reads_walk (d := d) hr (fun _ h => h) (fun _ => .inl rfl)
    (by decide) hch (Nat.zero_le d) hd)
  rcases playing hb h hc hr with ⟨_, e⟩ | ⟨d, target, hj, hd, _, ⟨_, e⟩ | ⟨_, e⟩⟩
  · rw [e, ← upTo_end hch (by decide)]
    obtain ⟨i1, i2, i3⟩ := first U32_MAX (Nat.le_refl _)
    refine ⟨fun t ht => ?_, fun t ht => ?_, i3⟩
    · rcases i1 t ht with k | k
      · exact .inl k
      · exact k.2
    · rcases i2 t ht with k | k
      · exact .inl k
      · exact .inr (.inr k)
  · obtain ⟨i1, i2, i3⟩ := first d (Nat.le_of_lt hd)
    obtain ⟨j1, j2, j3⟩ := second_facts hb hr hj
    rw [e]
    generalize ps.flatMap (Passage.upTo d) = A at *
    generalize (ps.flatMap Passage.once).filter _ = B at *
    have lastA : ∀ t, A.getLast? = some t → Leaves bars (t + 1) := by
      intro t ht
      rcases i2 t ht with k | k
      · exact k ▸ leaves_jump hj
      · exact k
    refine ⟨?_, ?_, ?_⟩
    · intro t ht
      rw [List.head?_append] at ht
      cases hA : A.head? with
      | none => rw [hA] at ht; exact j1 t ht
      | some x =>
        rw [hA] at ht
        obtain rfl := Option.some.inj ht
        rcases i1 x hA with k | k
        · exact .inl k
        · exact k.2
    · intro t ht
      rw [List.getLast?_append] at ht
      cases hB : B.getLast? with
      | none => rw [hB] at ht; exact .inr (.inr (lastA t ht))
      | some x =>
        rw [hB] at ht
        obtain rfl := Option.some.inj ht
        exact j2 x hB
    · intro l1 t u l2 e
      rcases List.append_eq_append_iff.1 e with ⟨m, e1, e2⟩ | ⟨m, e1, e2⟩
      · exact j3 m t u l2 e2
      · cases m with
        | nil =>
          simp only [List.nil_append] at e2
          exact j3 [] t u l2 e2.symm
        | cons x m =>
          obtain ⟨ex, e3⟩ := List.cons.inj e2
          subst ex
          clear e2
          cases m with
          | nil =>
            have e2 : u :: l2 = B := e3
            refine .inr ⟨lastA t (by rw [e1]; simp), j1 u ?_⟩
            rw [← e2]
            rfl
          | cons y m =>
            obtain ⟨ey, _⟩ := List.cons.inj e3
            subst ey
            exact i3 l1 t u m e1
  · rw [e]
    exact second_facts hb hr hj

/-- C86: playing goes from tick to tick.  If it goes on elsewhere, it leaves at a bar line with
an End, an ending number, a Coda, a D.C. or a D.S., and goes on at the beginning, at a bar line
with a Start, an ending number, a Coda or a Segno, or (D.C. without Segno) after the first
bar. -/
theorem C86_jumps (ip : Bool) (tune : Rhythm) (bars : List Bar) (hb : BarsOk bars) (c : CompoundRegion)
    (w : List RenderRegionWarning) (cs : List Chunk) (h : renderRegion ip tune bars = .ok (c, w)) (hc : c.toChunks ip = .ok cs)
    (l1 l2 : List Nat) (t u : Nat) (e : played cs = l1 ++ t :: u :: l2) : u = t + 1 ∨ (Leaves bars (t + 1) ∧ Arrives bars u) :=
  (flow hb h hc).2.2 l1 t u l2 e

/-- C86: where playing begins and ends. -/
theorem C86_ends (ip : Bool) (tune : Rhythm) (bars : List Bar) (hb : BarsOk bars) (c : CompoundRegion)
    (w : List RenderRegionWarning) (cs : List Chunk) (h : renderRegion ip tune bars = .ok (c, w)) (hc : c.toChunks ip = .ok cs) :
    (∀ t, (played cs).head? = some t → Arrives bars t) ∧ (∀ t, (played cs).getLast? = some t → Stops bars (t + 1)) :=
  ⟨(flow hb h hc).1, (flow hb h hc).2.1⟩

private theorem neighbours {α : Type} {l : List α} {i : Nat} {t u : α} (h1 : l[i]? = some t) (h2 : l[i + 1]? = some u) :
    ∃ l1 l2, l = l1 ++ t :: u :: l2 := by
  obtain ⟨k1, e1⟩ := List.getElem?_eq_some_iff.1 h1
  obtain ⟨k2, e2⟩ := List.getElem?_eq_some_iff.1 h2
  refine ⟨l.take i, l.drop (i + 2), ?_⟩
  rw [← e1, ← e2, List.getElem_cons_drop, List.getElem_cons_drop, List.take_append_drop]

private theorem arrives_line {bars : List Bar} {t : Nat} (h : Arrives bars t) (h0 : t ≠ 0) : ∃ x ∈ bars, x.startTick = t := by
  rcases h with rfl | ⟨x, hx, e, _⟩ | ⟨_, _, e⟩
  · exact absurd rfl h0
  · exact ⟨x, hx, e⟩
  · have := List.mem_of_find?_eq_some e
    simpa using this

/-- C86: a bar that is begun is played to its end, and one that is heard is heard from its
beginning.  After a tick the next one is played unless there is a bar line between them, and
before a tick the previous one. -/
theorem C86_whole (ip : Bool) (tune : Rhythm) (bars : List Bar) (hb : BarsOk bars) (c : CompoundRegion)
    (w : List RenderRegionWarning) (cs : List Chunk) (h : renderRegion ip tune bars = .ok (c, w)) (hc : c.toChunks ip = .ok cs)
    (i t : Nat) (hi : (played cs)[i]? = some t) :
    (t + 1 < U32_MAX → (∀ x ∈ bars, x.startTick ≠ t + 1) → (played cs)[i + 1]? = some (t + 1)) ∧
    (0 < t → (∀ x ∈ bars, x.startTick ≠ t) → ∃ j, i = j + 1 ∧ (played cs)[j]? = some (t - 1)) := by
  obtain ⟨f1, f2, f3⟩ := flow hb h hc
  constructor
  · intro hlt hno
    have notLeave : ¬ Leaves bars (t + 1) := by
      rintro ⟨x, hx, e, _⟩
      exact hno x hx e
    cases hu : (played cs)[i + 1]? with
    | none =>
      exfalso
      have hl : (played cs).length = i + 1 := by
        have := (List.getElem?_eq_some_iff.1 hi).1
        have := List.getElem?_eq_none_iff.1 hu
        omega
      have := f2 t (by rw [List.getLast?_eq_getElem?, hl]; exact hi)
      rcases this with e | ⟨x, hx, e, _⟩ | k
      · omega
      · exact hno x hx e
      · exact notLeave k
    | some u =>
      obtain ⟨l1, l2, e⟩ := neighbours hi hu
      rcases f3 l1 t u l2 e with rfl | k
      · rfl
      · exact absurd k.1 notLeave
  · intro h0 hno
    have notArrive : ¬ Arrives bars t := by
      intro k
      obtain ⟨x, hx, e⟩ := arrives_line k (by omega)
      exact hno x hx e
    cases i with
    | zero => exact absurd (f1 t (by rw [List.head?_eq_getElem?]; exact hi)) notArrive
    | succ j =>
      refine ⟨j, rfl, ?_⟩
      have hlt := (List.getElem?_eq_some_iff.1 hi).1
      have hj : (played cs)[j]? = some (played cs)[j] := List.getElem?_eq_getElem (by omega)
      obtain ⟨l1, l2, e⟩ := neighbours hj hi
      rcases f3 l1 _ t l2 e with k | k
      · rw [hj, k]
        rfl
      · exact absurd k.2 notArrive

/-! ## C87 -/

/-- C87: without a D.C. or D.S. everything is heard. -/
theorem C87_straight (ip : Bool) (tune : Rhythm) (bars : List Bar) (hb : BarsOk bars) (c : CompoundRegion)
    (w : List RenderRegionWarning) (cs : List Chunk) (h : renderRegion ip tune bars = .ok (c, w)) (hc : c.toChunks ip = .ok cs)
    (hj : ∀ d target, ¬ Jump tune bars d target) (t : Nat) : t ∈ played cs ↔ t < U32_MAX := by
  obtain ⟨ps, hr, _⟩ := C29_reads_uniquely ip tune bars hb c w h
  have hch := Reads_chain hr (fun _ => rfl) hb (fun h => absurd rfl h)
  rcases playing hb h hc hr with ⟨_, e⟩ | ⟨d, target, hj', _⟩
  · rw [e, ← upTo_end hch (by decide), mem_upTo hch (by decide) (Nat.le_refl _)]
    simp
  · exact absurd hj' (hj d target)

/-- C87: with a D.C. or D.S. at `d`, what is heard is everything before `d` (unless it is in the
midst of a first repeat) and what the second pass plays, which leaves out all endings but the
last. -/
theorem C87_jump_partial (ip : Bool) (tune : Rhythm) (bars : List Bar) (hb : BarsOk bars) (c : CompoundRegion)
    (w : List RenderRegionWarning) (cs : List Chunk) (h : renderRegion ip tune bars = .ok (c, w)) (hc : c.toChunks ip = .ok cs)
    (d target : Nat) (hj : Jump tune bars d target) (ps : List Passage) (hr : Reads (marks bars .Segno).head? .first 0 bars ps) (t : Nat) :
    t ∈ played cs ↔ (t < d ∧ ∀ b, ps.head? = some (.repeated 0 b) → ¬ (0 < d ∧ d < b)) ∨
      (t < U32_MAX ∧ inSecondPass target bars t ∧ ¬ LeftOut ps t) := by
  have hch := Reads_chain hr (fun _ => rfl) hb (fun h => absurd rfl h)
  have second : t ∈ (ps.flatMap Passage.once).filter (fun t => decide (inSecondPass target bars t)) ↔
      t < U32_MAX ∧ inSecondPass target bars t ∧ ¬ LeftOut ps t := by
    rw [List.mem_filter, mem_once hch (by decide), decide_eq_true_eq]
    constructor
    · rintro ⟨⟨_, h1, h2⟩, h3⟩; exact ⟨h1, h3, h2⟩
    · rintro ⟨h1, h3, h2⟩; exact ⟨⟨Nat.zero_le _, h1, h2⟩, h3⟩
  rcases playing hb h hc hr with ⟨hn, _⟩ | ⟨d', target', hj', hd, _, hcase⟩
  · exact absurd hj (hn d target)
  · obtain ⟨rfl, rfl⟩ := Jump_unique ((render_ok_iff hb.1 ip tune c w).1 h).1 hj hj'
    rcases hcase with ⟨ho, e⟩ | ⟨⟨b, hb, hd0⟩, e⟩
    · rw [e, List.mem_append, mem_upTo hch (by decide) (Nat.le_of_lt hd), second]
      refine or_congr ⟨fun k => ⟨k.2, ?_⟩, fun k => ⟨Nat.zero_le _, k.1⟩⟩ Iff.rfl
      intro b hb
      have : d ≤ 0 ∨ b ≤ d := ho _ hb
      omega
    · rw [e, second]
      refine ⟨.inr, ?_⟩
      rintro (⟨_, k⟩ | k)
      · exact absurd hd0 (k b hb)
      · exact k

/-- C87: everything before the D.C. or D.S. is heard, unless it is in a first repeat; and
without Fine, Codas and endings everything from the target on. -/
theorem C87_before_partial (ip : Bool) (tune : Rhythm) (bars : List Bar) (hb : BarsOk bars) (c : CompoundRegion)
    (w : List RenderRegionWarning) (cs : List Chunk) (h : renderRegion ip tune bars = .ok (c, w)) (hc : c.toChunks ip = .ok cs)
    (d target : Nat) (hj : Jump tune bars d target) (t : Nat) :
    ((∀ x ∈ bars, x.startTick < d ∨ ¬ Has x .End) → t < d → t ∈ played cs) ∧
    ((∀ x ∈ bars, ¬ Has x .Fine ∧ ¬ Has x .Coda ∧ endingNo x = none) → target ≤ t → t < U32_MAX → t ∈ played cs) := by
  obtain ⟨ps, hr, _⟩ := C29_reads_uniquely ip tune bars hb c w h
  rw [C87_jump_partial ip tune bars hb c w cs h hc d target hj ps hr]
  constructor
  · intro he ht
    refine .inl ⟨ht, ?_⟩
    intro b hps hd
    cases hr with
    | last => simp at hps
    | start => simp at hps
    | endings => simp at hps
    | @close _ _ inside rest x ps _ _ h1 _ =>
      obtain rfl : x.startTick = b := by simpa using hps
      rcases he x (by simp) with k | k
      · omega
      · exact k h1
  · intro hx ht hlt
    refine .inr ⟨hlt, ?_, ?_⟩
    · have hf : marks bars .Fine = [] := marks_nil fun x hb => (hx x hb).1
      have hco : marks bars .Coda = [] := marks_nil fun x hb => (hx x hb).2.1
      unfold inSecondPass endTick
      rw [hco, hf]
      exact ⟨ht, hlt⟩
    · rintro ⟨a, ts, b, first, last, h1, h2, _⟩
      obtain ⟨x, hb, _, e⟩ := reads_lines hr a ts b h1 first (List.mem_of_head? h2)
      exact e (hx x hb).2.2

private theorem performed {ip : Bool} {tune : Rhythm} {bars : List Bar} {cs : List Chunk} {w : List RenderRegionWarning}
    (h : performance ip tune bars = .ok (cs, w)) : ∃ c, renderRegion ip tune bars = .ok (c, w) ∧ c.toChunks ip = .ok cs := by
  unfold performance at h
  cases h1 : renderRegion ip tune bars with
  | error f => rw [h1] at h; cases h
  | ok r =>
    obtain ⟨c, w'⟩ := r
    rw [h1] at h
    cases h2 : c.toChunks ip with
    | error p => simp only [RR_bind_ok, h2, liftR] at h; cases h
    | ok cs' =>
      simp only [RR_bind_ok, h2, liftR] at h
      cases h
      exact ⟨c, rfl, h2⟩

/-- C87, false for endings after the D.C.: the first one is never heard. -/
theorem C87_ending_false (ip : Bool) : ∃ (bars : List Bar) (c : CompoundRegion) (cs : List Chunk), BarsOk bars ∧
    renderRegion ip ⟨4, .D4⟩ bars = .ok (c, []) ∧ c.toChunks ip = .ok cs ∧ (∀ x ∈ bars, ¬ Has x .Fine ∧ ¬ Has x .Coda) ∧
    Has ⟨2880, none, none, { var1 := true }⟩ .Var1 ∧ ⟨2880, none, none, { var1 := true }⟩ ∈ bars ∧
    ∀ t, 2880 ≤ t → t < 3840 → t ∉ played cs := by
  have h : performance ip ⟨4, .D4⟩ [line 960 { dc := true }, line 1920 { start := true }, line 2880 { var1 := true },
      line 3840 { var2 := true }, line 4800 {}] =
      .ok ([⟨0, 960⟩, ⟨0, 1920⟩, ⟨1920, 2880⟩, ⟨3840, 4800⟩, ⟨4800, U32_MAX⟩], []) := by cases ip <;> decide +kernel
  obtain ⟨c, h1, h2⟩ := performed h
  refine ⟨_, c, _, ⟨by decide, by decide⟩, h1, h2, by decide, by decide, by decide, ?_⟩
  intro t ht1 ht2 hm
  simp only [played, List.flatMap_cons, List.flatMap_nil, List.append_nil, List.mem_append, mem_span, U32_MAX] at hm
  omega

/-- C87, false for a D.C. in the midst of a first repeat: what is before its target is never
heard. -/
theorem C87_before_false (ip : Bool) : ∃ (bars : List Bar) (c : CompoundRegion) (cs : List Chunk), BarsOk bars ∧
    renderRegion ip ⟨4, .D4⟩ bars = .ok (c, []) ∧ c.toChunks ip = .ok cs ∧ (∀ x ∈ bars, ¬ Has x .Fine ∧ ¬ Has x .Coda) ∧
    ∀ t, t < 300 → t ∉ played cs := by
  have h : performance ip ⟨4, .D4⟩ [line 300 {}, line 1260 { dc := true }, line 2220 { end_ := true }] =
      .ok ([⟨300, 2220⟩, ⟨2220, U32_MAX⟩], []) := by cases ip <;> decide +kernel
  obtain ⟨c, h1, h2⟩ := performed h
  refine ⟨_, c, _, ⟨by decide, by decide⟩, h1, h2, by decide, ?_⟩
  intro t ht hm
  simp only [played, List.flatMap_cons, List.flatMap_nil, List.append_nil, List.mem_append, mem_span, U32_MAX] at hm
  omega

/-! ### Examples -/

/-- A repeat with two endings and a D.S. to a Segno, with a Fine. -/
private def flowBars : List Bar := [line 96 { start := true }, line 192 { var1 := true }, line 288 { var2 := true },
  line 384 { segno := true }, line 480 { fine := true }, line 576 { ds := true }]

private theorem flowPlayed (ip : Bool) : performance ip ⟨4, .D4⟩ flowBars =
    .ok ([⟨0, 96⟩, ⟨96, 192⟩, ⟨192, 288⟩, ⟨96, 192⟩, ⟨288, 384⟩, ⟨384, 576⟩, ⟨384, 480⟩], []) := by
  cases ip <;> decide +kernel

/-- Neighbours as in the theorem: from the end of the first ending back to the Start. -/
example (ip : Bool) : ∃ c cs l1 l2, BarsOk flowBars ∧ renderRegion ip ⟨4, .D4⟩ flowBars = .ok (c, []) ∧ c.toChunks ip = .ok cs ∧
    played cs = l1 ++ 287 :: 96 :: l2 ∧ Leaves flowBars 288 ∧ Arrives flowBars 96 := by
  obtain ⟨c, h1, h2⟩ := performed (flowPlayed ip)
  refine ⟨c, _, span 0 287, span 97 192 ++ (span 288 384 ++ (span 384 576 ++ span 384 480)), ⟨by decide, by decide⟩, h1, h2, ?_,
    ⟨line 288 { var2 := true }, by decide, rfl, .inr (.inl (by decide))⟩,
    .inr (.inl ⟨line 96 { start := true }, by decide, rfl, .inl (by decide)⟩)⟩
  decide +kernel

/-- Tick 100 is played a second time, and is followed by 101. -/
example (ip : Bool) : ∃ c cs, renderRegion ip ⟨4, .D4⟩ flowBars = .ok (c, []) ∧ c.toChunks ip = .ok cs ∧
    (played cs)[292]? = some 100 ∧ (played cs)[292 + 1]? = some (100 + 1) := by
  obtain ⟨c, h1, h2⟩ := performed (flowPlayed ip)
  have hi : (played [⟨0, 96⟩, ⟨96, 192⟩, ⟨192, 288⟩, ⟨96, 192⟩, ⟨288, 384⟩, ⟨384, 576⟩, ⟨384, 480⟩])[292]? = some 100 := by
    decide +kernel
  exact ⟨c, _, h1, h2, hi, (C86_whole ip ⟨4, .D4⟩ flowBars ⟨by decide, by decide⟩ c [] _ h1 h2 292 100 hi).1
    (by decide) (by decide)⟩

/-- It begins at tick 0 and ends at the Fine. -/
example (ip : Bool) : ∃ c cs, renderRegion ip ⟨4, .D4⟩ flowBars = .ok (c, []) ∧ c.toChunks ip = .ok cs ∧
    (played cs).head? = some 0 ∧ (played cs).getLast? = some 479 ∧ Stops flowBars 480 := by
  obtain ⟨c, h1, h2⟩ := performed (flowPlayed ip)
  exact ⟨c, _, h1, h2, by decide +kernel, by decide +kernel, .inr (.inl ⟨line 480 { fine := true }, by decide, rfl, by decide⟩)⟩

/-- What is heard of it: everything up to the D.S. -/
example (ip : Bool) : ∃ c cs, renderRegion ip ⟨4, .D4⟩ flowBars = .ok (c, []) ∧ c.toChunks ip = .ok cs ∧
    Jump ⟨4, .D4⟩ flowBars 576 384 ∧ ∀ t, t < 576 → t ∈ played cs := by
  obtain ⟨c, h1, h2⟩ := performed (flowPlayed ip)
  have hj : Jump ⟨4, .D4⟩ flowBars 576 384 := .inl ⟨by decide, by decide⟩
  exact ⟨c, _, h1, h2, hj, fun t => (C87_before_partial ip ⟨4, .D4⟩ flowBars ⟨by decide, by decide⟩ c [] _ h1 h2 576 384 hj t).1
    (by decide)⟩

/-- And nothing after it: tick 600 is not heard. -/
example (ip : Bool) : ∃ c cs, renderRegion ip ⟨4, .D4⟩ flowBars = .ok (c, []) ∧ c.toChunks ip = .ok cs ∧
    200 ∈ played cs ∧ 600 ∉ played cs := by
  obtain ⟨c, h1, h2⟩ := performed (flowPlayed ip)
  have hr : Reads (marks flowBars .Segno).head? .first 0 flowBars [.plain 0 96, .endings 96 [192, 288] 384, .plain 384 U32_MAX] := by
    refine .start (inside := []) (by decide) (by simp) (by decide) (by decide) ?_
    refine .endings (inside := []) (es := [line 288 { var2 := true }]) (x := line 384 { segno := true }) (by decide) (by decide)
      (by simp only [OpensEndings]; decide) (.more (xs := []) (by simp) (by simp only [InEnding]; decide) (.last (by simp))) ?_
      (by decide) (by decide) (.last (by decide) (by decide))
    intro s first last h1 h2 h3
    obtain rfl : 384 = s := Option.some.inj (h1 ▸ by decide)
    obtain rfl : 288 = last := Option.some.inj h3
    omega
  have key := C87_jump_partial ip ⟨4, .D4⟩ flowBars ⟨by decide, by decide⟩ c [] _ h1 h2 576 384 (.inl ⟨by decide, by decide⟩) _ hr
  refine ⟨c, _, h1, h2, (key 200).2 (.inl ⟨by decide, by simp⟩), fun hm => ?_⟩
  rcases (key 600).1 hm with ⟨h, -⟩ | ⟨-, h, -⟩
  · exact absurd h (by decide)
  · revert h; decide

/-- A score without a jump. -/
example (ip : Bool) : let bars := [line 960 { start := true }, line 1920 { end_ := true }]
    ∃ c cs, renderRegion ip ⟨4, .D4⟩ bars = .ok (c, []) ∧ c.toChunks ip = .ok cs ∧ (∀ d target, ¬ Jump ⟨4, .D4⟩ bars d target) ∧
      100000 ∈ played cs := by
  intro bars
  have h : performance ip ⟨4, .D4⟩ bars = .ok ([⟨0, 960⟩, ⟨960, 1920⟩, ⟨960, 1920⟩, ⟨1920, U32_MAX⟩], []) := by
    cases ip <;> decide +kernel
  obtain ⟨c, h1, h2⟩ := performed h
  have hj : ∀ d target, ¬ Jump ⟨4, .D4⟩ bars d target := by
    rintro d target (⟨k, _⟩ | ⟨_, k, _⟩)
    · rw [show marks bars .Ds = [] by decide] at k; cases k
    · rw [show marks bars .Dc = [] by decide] at k; cases k
  exact ⟨c, _, h1, h2, hj, (C87_straight ip ⟨4, .D4⟩ bars ⟨by decide, by decide⟩ c [] _ h1 h2 hj 100000).2 (by decide)⟩

end Klavier
