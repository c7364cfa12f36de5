import Verif.Lemmas.Fewest
import Verif.Lemmas.Notate
import Verif.Spec.Stretch
import Verif.Spec.Figures

/-! # C97: the merged chunks are the fewest -/
set_option autoImplicit false
namespace Klavier
open Spec

private theorem performance_split {ip : Bool} {tune : Rhythm} {bars : List Bar} {cs : List Chunk} {w : List RenderRegionWarning}
    (h : performance ip tune bars = .ok (cs, w)) : ∃ c, renderRegion ip tune bars = .ok (c, w) ∧ c.toChunks ip = .ok cs := by
  unfold performance at h
  cases hr : renderRegion ip tune bars with
  | error e => rw [hr] at h; cases h
  | ok x =>
    obtain ⟨c, w'⟩ := x
    rw [hr] at h
    cases hc : c.toChunks ip with
    | error e =>
      have h : (liftR (c.toChunks ip) >>= fun chunks => pure (chunks, w')) = (.ok (cs, w) : RR _) := h
      rw [hc] at h
      cases h
    | ok l =>
      have h : (liftR (c.toChunks ip) >>= fun chunks => pure (chunks, w')) = (.ok (cs, w) : RR _) := h
      rw [hc] at h
      cases h
      exact ⟨c, rfl, hc⟩

/-- C97: a list of chunks that each play something, of which none runs on into the next, is
the only such list that plays what it plays. -/
theorem C97_one_list (cs ds : List Chunk) (hc : ∀ c ∈ cs, c.startTick < c.endTick) (hd : ∀ d ∈ ds, d.startTick < d.endTick)
    (jc : ∀ (i : Nat) (a b : Chunk), cs[i]? = some a → cs[i + 1]? = some b → a.endTick ≠ b.startTick)
    (jd : ∀ (i : Nat) (a b : Chunk), ds[i]? = some a → ds[i + 1]? = some b → a.endTick ≠ b.startTick)
    (h : played cs = played ds) : cs = ds := by
  have gen : ∀ l : List Chunk, (∀ c ∈ l, c.startTick < c.endTick) →
      (∀ (i : Nat) (a b : Chunk), l[i]? = some a → l[i + 1]? = some b → a.endTick ≠ b.startTick) → Tight l := by
    intro l
    induction l with
    | nil => intro _ _; trivial
    | cons c l ih =>
      intro h1 h2
      have := ih (fun d hd => h1 d (by simp [hd])) (fun i a b ha hb => h2 (i + 1) a b ha hb)
      cases l with
      | nil => exact h1 c (by simp)
      | cons d l => exact ⟨h1 c (by simp), h2 0 c d rfl rfl, this⟩
  exact Tight_unique cs ds (gen cs hc jc) (gen ds hd jd) h

example : played [⟨0, 3⟩, ⟨1, 4⟩] = [0, 1, 2, 1, 2, 3] ∧ played [⟨0, 2⟩, ⟨2, 3⟩, ⟨1, 4⟩] = [0, 1, 2, 1, 2, 3] := by decide

example : ([⟨0, 3⟩, ⟨1, 4⟩] : List Chunk) = Chunk.optimize [⟨0, 2⟩, ⟨2, 3⟩, ⟨1, 4⟩] :=
  C97_one_list _ _ (by decide) (by decide)
    (by intro i a b ha hb
        rcases i with _ | _ | i <;> simp at ha hb
        subst ha hb
        decide)
    (by intro i a b ha hb
        have e : Chunk.optimize [⟨0, 2⟩, ⟨2, 3⟩, ⟨1, 4⟩] = [⟨0, 3⟩, ⟨1, 4⟩] := by decide
        rw [e] at ha hb
        rcases i with _ | _ | i <;> simp at ha hb
        subst ha hb
        decide)
    (by decide)

/-- C97: merging leaves chunks that play nothing exactly in the scores that have two or more
endings and nothing before them. -/
theorem C97_silent_iff (ip : Bool) (tune : Rhythm) (bars : List Bar) (hb : BarsOk bars) (cs : List Chunk)
    (w : List RenderRegionWarning) (h : performance ip tune bars = .ok (cs, w)) :
    (∃ c ∈ Chunk.optimize cs, ¬ c.startTick < c.endTick) ↔ EndingsAtOnce bars := by
  obtain ⟨c, hr, hc⟩ := performance_split h
  obtain ⟨_, ⟨ps, hps, hreg⟩, _⟩ := (render_ok_iff hb.1 ip tune c w).1 hr
  have hch := Reads_chain hps (fun _ => rfl) hb (fun h => absurd rfl h)
  have ho := Chain_mem hch (by decide)
  have hiff : EndingsAtOnce bars ↔ ∃ t ts b, Passage.endings 0 (0 :: t :: ts) b ∈ ps := by
    constructor
    · rintro ⟨qs, t, ts, b, hq, hm⟩
      rw [Reads_unique hb hq hps] at hm
      exact ⟨t, ts, b, hm⟩
    · rintro ⟨t, ts, b, hm⟩
      exact ⟨ps, t, ts, b, hps, hm⟩
  rw [hiff]
  cases hg : c.globalRepeat with
  | none =>
    simp only [CompoundRegion.toChunks, hg, hreg] at hc
    constructor
    · rintro ⟨x, hx, hn⟩
      apply Classical.byContradiction
      intro hno
      obtain ⟨s, d, r, rfl, _⟩ := full_smooth ip ps 0 cs (by decide) hch (fun t ts b hm => hno ⟨t, ts, b, hm⟩) hc
      exact hn (Smooth_optimizeFrom r d s x hx)
    · rintro ⟨t, ts, b, hm⟩
      have ht : 0 < t := by
        obtain ⟨_, o2, _, _⟩ := (ho _ hm).1
        exact (List.pairwise_cons.1 o2).1 t (by simp)
      obtain ⟨l, z, r, rfl, hz, hl⟩ := full_gap ip ps t ts b cs hm hc
      cases l with
      | nil => exact absurd rfl hl
      | cons d l =>
        refine ⟨⟨0, 0⟩, optimizeFrom_stays ⟨0, t⟩ ⟨0, 0⟩ z r ?_ ?_ l d, by simp⟩
        · show t ≠ 0
          omega
        · show 0 ≠ z.startTick
          omega
  | some g =>
    simp only [CompoundRegion.toChunks, hg, hreg] at hc
    rw [R_bind_eq_ok] at hc
    obtain ⟨a, ha, hc⟩ := hc
    rw [R_bind_eq_ok] at hc
    obtain ⟨b, hbb, hc⟩ := hc
    cases hc
    obtain ⟨hpos, hall⟩ := jump_strict hb hps ha hbb
    constructor
    · rintro ⟨x, hx, hn⟩
      have ht := Tight_optimize hall
      exfalso
      revert hx ht
      generalize Chunk.optimize (a ++ b) = l
      intro hx ht
      induction l with
      | nil => simp at hx
      | cons d l ih =>
        rcases List.mem_cons.1 hx with rfl | hx
        · exact hn (Tight_head ht)
        · exact ih hx (Tight_tail ht)
    · rintro ⟨t, ts, b, hm⟩
      have := (hpos _ hm).2 0 (by simp)
      omega

private theorem merged_tight {cs : List Chunk} (h : ∀ c ∈ Chunk.optimize cs, c.startTick < c.endTick) : Tight (Chunk.optimize cs) := by
  have gen : ∀ (l : List Chunk) (c : Chunk), (∀ x ∈ Chunk.optimizeFrom c l, x.startTick < x.endTick) → Tight (Chunk.optimizeFrom c l) := by
    intro l
    induction l with
    | nil => intro c h; exact h c (by simp [Chunk.optimizeFrom])
    | cons d l ih =>
      intro c h
      rw [Chunk.optimizeFrom] at h ⊢
      by_cases e : c.endTick = d.startTick
      · rw [if_pos e] at h ⊢
        exact ih _ h
      · rw [if_neg e] at h ⊢
        have := ih d (fun x hx => h x (by simp [hx]))
        obtain ⟨x, r, hx⟩ := optimizeFrom_head l d
        rw [hx] at this ⊢
        exact ⟨h c (by simp), e, this⟩
  cases cs with
  | nil => trivial
  | cons c l => exact gen l c h

private theorem merged_played {ip : Bool} {tune : Rhythm} {bars : List Bar} (hb : BarsOk bars) {cs : List Chunk}
    {w : List RenderRegionWarning} (h : performance ip tune bars = .ok (cs, w)) : played (Chunk.optimize cs) = played cs := by
  obtain ⟨c, hr, hc⟩ := performance_split h
  have hok := (render_general hb hr hc).1.1
  cases cs with
  | nil => rfl
  | cons c cs =>
    rw [Chunk.optimize, optimizeFrom_played cs c (hok c (by simp)).1 (fun d hd => (hok d (by simp [hd])).1), played_cons]

/-- C97: of all lists of chunks that play what a score plays, the merged one is the only one
with the fewest chunks, unless the score has two or more endings and nothing before them. -/
theorem C97_fewest_partial (ip : Bool) (tune : Rhythm) (bars : List Bar) (hb : BarsOk bars) (hn : ¬ EndingsAtOnce bars)
    (cs : List Chunk) (w : List RenderRegionWarning) (h : performance ip tune bars = .ok (cs, w)) (es : List Chunk)
    (he : played es = played cs) :
    (Chunk.optimize cs).length ≤ es.length ∧ (es.length = (Chunk.optimize cs).length → es = Chunk.optimize cs) := by
  refine Tight_shortest (merged_tight fun c hc => ?_) (he.trans (merged_played hb h).symm)
  apply Classical.byContradiction
  intro q
  exact hn ((C97_silent_iff ip tune bars hb cs w h).1 ⟨c, hc, q⟩)

/-- C97: and in such a score it is not. -/
theorem C97_fewest_iff (ip : Bool) (tune : Rhythm) (bars : List Bar) (hb : BarsOk bars) (cs : List Chunk)
    (w : List RenderRegionWarning) (h : performance ip tune bars = .ok (cs, w)) :
    (∀ es : List Chunk, played es = played cs → (Chunk.optimize cs).length ≤ es.length) ↔ ¬ EndingsAtOnce bars := by
  constructor
  · intro hall hn
    obtain ⟨c, hc, q⟩ := (C97_silent_iff ip tune bars hb cs w h).2 hn
    have h1 := hall (sounding (Chunk.optimize cs)) ((played_sounding _).trans (merged_played hb h))
    have h2 : sounding (Chunk.optimize cs) = Chunk.optimize cs :=
      List.Sublist.eq_of_length List.filter_sublist (Nat.le_antisymm (List.length_filter_le _ _) h1)
    rw [← h2] at hc
    exact q (sounding_all c hc)
  · intro hn es he
    exact (C97_fewest_partial ip tune bars hb hn cs w h es he).1

/-- C97: the claim without the proviso is false: here the endings begin at tick 0. -/
theorem C97_fewest_false (ip : Bool) :
    performance ip ⟨4, .D4⟩ [line 0 { var1 := true }, line 960 { var2 := true }, line 1920 {}] =
      .ok ([⟨0, 0⟩, ⟨0, 960⟩, ⟨0, 0⟩, ⟨960, 1920⟩, ⟨1920, U32_MAX⟩], []) ∧
    Chunk.optimize [⟨0, 0⟩, ⟨0, 960⟩, ⟨0, 0⟩, ⟨960, 1920⟩, ⟨1920, U32_MAX⟩] = [⟨0, 960⟩, ⟨0, 0⟩, ⟨960, U32_MAX⟩] ∧
    played [⟨0, U32_MAX⟩] = played [⟨0, 0⟩, ⟨0, 960⟩, ⟨0, 0⟩, ⟨960, 1920⟩, ⟨1920, U32_MAX⟩] := by
  refine ⟨by cases ip <;> decide +kernel, by decide, ?_⟩
  simp only [played_cons, played_nil, List.append_nil]
  rw [show span 0 0 = [] from rfl, List.nil_append, List.nil_append, ← List.append_assoc, ← span_append (by decide) (by decide),
    ← span_append (by decide) (by decide)]

/-- C97: scores that play the same have the same merged chunks and the same index of start
positions. -/
theorem C97_same_partial (ip : Bool) (tune tune' : Rhythm) (bars bars' : List Bar) (hb : BarsOk bars) (hb' : BarsOk bars')
    (hn : ¬ EndingsAtOnce bars) (hn' : ¬ EndingsAtOnce bars') (cs cs' : List Chunk) (w w' : List RenderRegionWarning)
    (h : performance ip tune bars = .ok (cs, w)) (h' : performance ip tune' bars' = .ok (cs', w')) :
    (Chunk.optimize cs = Chunk.optimize cs' ↔ played cs = played cs') ∧
    (played cs = played cs' → Chunk.byAccumTick (Chunk.optimize cs) = Chunk.byAccumTick (Chunk.optimize cs')) := by
  have key : played cs = played cs' → Chunk.optimize cs = Chunk.optimize cs' := by
    intro e
    have k := C97_fewest_partial ip tune bars hb hn cs w h (Chunk.optimize cs') ((merged_played hb' h').trans e.symm)
    have k' := C97_fewest_partial ip tune' bars' hb' hn' cs' w' h' (Chunk.optimize cs) ((merged_played hb h).trans e)
    exact (k.2 (by omega)).symm
  refine ⟨⟨fun e => ?_, key⟩, fun e => by rw [key e]⟩
  rw [← merged_played hb h, ← merged_played hb' h', e]

/-- A repeat written with an End alone, and one written with a Start at tick 0. -/
private theorem repeats_read : ¬ EndingsAtOnce [line 960 { end_ := true }] ∧ ¬ EndingsAtOnce [line 0 { start := true }, line 960 { end_ := true }] := by
  have b1 : BarsOk [line 960 { end_ := true }] := ⟨by decide, by decide⟩
  have b2 : BarsOk [line 0 { start := true }, line 960 { end_ := true }] := ⟨by decide, by decide⟩
  constructor
  · rw [← C97_silent_iff true ⟨4, .D4⟩ _ b1 [⟨0, 960⟩, ⟨0, 960⟩, ⟨960, U32_MAX⟩] [] (by decide +kernel)]
    decide
  · rw [← C97_silent_iff true ⟨4, .D4⟩ _ b2 [⟨0, 0⟩, ⟨0, 960⟩, ⟨0, 960⟩, ⟨960, U32_MAX⟩] [] (by decide +kernel)]
    decide

example : Chunk.optimize [⟨0, 960⟩, ⟨0, 960⟩, ⟨960, U32_MAX⟩] = Chunk.optimize [⟨0, 0⟩, ⟨0, 960⟩, ⟨0, 960⟩, ⟨960, U32_MAX⟩] :=
  (C97_same_partial true ⟨4, .D4⟩ ⟨4, .D4⟩ [line 960 { end_ := true }] [line 0 { start := true }, line 960 { end_ := true }]
    ⟨by decide, by decide⟩ ⟨by decide, by decide⟩ repeats_read.1 repeats_read.2 _ _ [] [] (by decide +kernel) (by decide +kernel)).1.2
    (by simp only [played_cons]; rfl)

example (es : List Chunk) (h : played es = played [⟨0, 960⟩, ⟨0, 960⟩, ⟨960, U32_MAX⟩]) : 2 ≤ es.length ∧
    (es.length = 2 → es = [⟨0, 960⟩, ⟨0, U32_MAX⟩]) :=
  C97_fewest_partial true ⟨4, .D4⟩ [line 960 { end_ := true }] ⟨by decide, by decide⟩ repeats_read.1 _ [] (by decide +kernel) es h

end Klavier
