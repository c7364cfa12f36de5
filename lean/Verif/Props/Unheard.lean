import Verif.Lemmas.Unheard
import Verif.Props.Project
import Verif.Lemmas.Edit
import Verif.Spec.Figures

/-! # C79: what of a score is not heard -/
set_option autoImplicit false
namespace Klavier
open Spec GlobalRepeatBuilder Project

/-- C79: keys and time signatures do not matter to the order of play, nor to what is
reported: two scores with the same bar lines and the same marks are rendered alike (panics
included), if a bar line at tick 0 has the same time signature in both. -/
theorem C79_signatures (ip : Bool) (tune : Rhythm) (bars bars' : List Bar) (h : SameMarks bars bars') :
    renderRegion ip tune bars = renderRegion ip tune bars' := by
  have gen : ∀ (bars bars' : List Bar), SameMarks bars bars' → ∀ (g : GlobalRepeatBuilder) (st : RenderState),
      renderLoop g st bars = renderLoop g st bars' := by
    intro bars bars' h
    induction h with
    | nil => intro g st; rfl
    | cons x y xs ys h1 h2 h3 _ ih =>
      intro g st
      obtain ⟨t, r, k, m⟩ := x
      obtain ⟨t', r', k', m'⟩ := y
      simp only at h1 h2 h3
      subst h1 h2
      have hn : g.noteFirstBar ⟨t, r, k, m⟩ = g.noteFirstBar ⟨t, r', k', m⟩ := by
        unfold noteFirstBar
        cases g.firstBarLen with
        | some l => rfl
        | none =>
          by_cases h0 : t = 0
          · rw [h3 h0]
          · simp [h0]
      have ho : g.onBar ⟨t, r, k, m⟩ = g.onBar ⟨t, r', k', m⟩ := by unfold onBar; rw [hn]
      have hs : ∀ sg, renderStep sg st ⟨t, r, k, m⟩ = renderStep sg st ⟨t, r', k', m⟩ := fun _ => rfl
      simp only [renderLoop, ho, hs, ih]
  rw [renderRegion_close, renderRegion_close, gen bars bars' h]

example : SameMarks [⟨0, some ⟨3, .D4⟩, none, {}⟩, ⟨720, some ⟨2, .D4⟩, none, { end_ := true }⟩]
    [⟨0, some ⟨3, .D4⟩, some ⟨-1⟩, {}⟩, ⟨720, none, some ⟨2⟩, { end_ := true }⟩] :=
  .cons _ _ _ _ rfl rfl (fun _ => rfl) (.cons _ _ _ _ rfl rfl (fun h => by simp at h) .nil)

/-- C79: the time signature of the tune matters at most to a D.C. without a Segno, in a
score that does not begin with a time signature of its own. -/
theorem C79_tune (ip : Bool) (tune tune' : Rhythm) (bars : List Bar)
    (h : ¬ Carries bars .Dc ∨ Carries bars .Segno ∨
      ∃ x rest r, bars = x :: rest ∧ x.startTick = 0 ∧ x.rhythm = some r) :
    renderRegion ip tune bars = renderRegion ip tune' bars := by
  rw [renderRegion_close, renderRegion_close]
  rcases h with h | h | ⟨x, rest, r, rfl, h0, hr⟩
  · refine closeRegion_both ip (P := Sim) (fun g g' hg => sim_build ip hg)
      (loop_both (fun g g' hg => hg.segno) bars (fun x hx g g' hg => sim_onBar hg x ?_) _ _ _
        ⟨rfl, rfl, rfl, rfl, rfl, by intro t l e; cases e⟩)
    cases hc : x.repeats.contains .Dc with
    | false => rfl
    | true => exact absurd ⟨x, hx, hc⟩ h
  · have hb := loop_both (P := SimT) (fun g g' hg => hg.segno) bars (fun x _ g g' hg => simT_onBar hg x)
      (GlobalRepeatBuilder.new tune) (GlobalRepeatBuilder.new tune') .idle ⟨rfl, rfl, rfl, rfl, rfl, rfl⟩
    have hb := hb.also (Q := fun v => v.1.segno ≠ none) (fun v hv => loop_segno (.inr h) hv)
    refine closeRegion_both ip (P := fun g g' => SimT g g' ∧ g.segno ≠ none)
      (fun g g' hg => simT_build ip hg.1 (.inl hg.2)) ?_
    generalize renderLoop (GlobalRepeatBuilder.new tune) .idle bars = a at hb
    generalize renderLoop (GlobalRepeatBuilder.new tune') .idle bars = b at hb
    cases hb with
    | error e => exact .error e
    | ok a b hab => exact .ok a b ⟨⟨hab.1.1, hab.2⟩, hab.1.2⟩
  · have : ∀ tune, (GlobalRepeatBuilder.new tune).onBar x = (GlobalRepeatBuilder.new r).onBar x := by
      intro tune
      unfold onBar
      simp only [noteFirstBar, GlobalRepeatBuilder.new, h0, hr, if_true]
    simp only [renderLoop, this]

example (ip : Bool) := C79_tune ip ⟨4, .D4⟩ ⟨3, .D4⟩ [line 960 { segno := true }, line 1920 { fine := true }, line 2880 { dc := true }]
  (.inr (.inl ⟨line 960 { segno := true }, by decide, by decide⟩))

/-- C79 (partial: false for a line that ends the first bar before a D.C., and for one inside
an ending, see below): a bar line without marks does not matter to the order of play, nor
to what is reported. -/
theorem C79_line_partial (ip : Bool) (tune : Rhythm) (pre post : List Bar) (x : Bar) (hx : x.repeats = {})
    (he : ∀ y, pre.getLast? = some y → ¬ Numbered y)
    (hf : (∃ y ∈ pre, y.startTick ≠ 0) ∨ (x.startTick = 0 ∧ x.rhythm = none) ∨ ¬ Carries (pre ++ post) .Dc) :
    renderRegion ip tune (pre ++ x :: post) = renderRegion ip tune (pre ++ post) := by
  rw [renderRegion_close, renderRegion_close, loop_append, loop_append]
  cases hl : renderLoop (GlobalRepeatBuilder.new tune) .idle pre with
  | error e => rfl
  | ok o =>
    obtain ⟨g, rs, st⟩ := o
    change closeRegion ip (renderLoop g st (x :: post) >>= _) = closeRegion ip (renderLoop g st post >>= _)
    rw [loop_unmarked hx g (loop_closed he hl) post]
    have same : g.noteFirstBar x = g → closeRegion ip (renderLoop (g.noteFirstBar x) st post >>= fun b =>
        pure (b.1, rs ++ b.2.1, b.2.2)) = closeRegion ip (renderLoop g st post >>= fun b => pure (b.1, rs ++ b.2.1, b.2.2)) := by
      intro e; rw [e]
    rcases hf with hf | ⟨h0, hr⟩ | hd
    · refine same ?_
      have := loop_firstKnown (.inr hf) hl
      unfold noteFirstBar
      cases hg : g.firstBarLen with
      | none => exact absurd hg this
      | some l => rfl
    · refine same ?_
      unfold noteFirstBar
      cases g.firstBarLen <;> simp [h0, hr]
    · have nd : ∀ z ∈ pre ++ post, z.repeats.contains .Dc = false := by
        intro z hz
        cases hc : z.repeats.contains .Dc with
        | false => rfl
        | true => exact absurd ⟨z, hz, hc⟩ hd
      have hs : Sim g g := by
        have := loop_both (P := Sim) (fun g g' hg => hg.segno) pre
          (fun z hz g g' hg => sim_onBar hg z (nd z (List.mem_append_left _ hz)))
          (GlobalRepeatBuilder.new tune) (GlobalRepeatBuilder.new tune) .idle
          ⟨rfl, rfl, rfl, rfl, rfl, by intro t l e; cases e⟩
        rw [hl] at this
        cases this with
        | ok a b hab => exact hab.1
      have hs' : Sim (g.noteFirstBar x) g := by
        have := sim_note hs x ⟨0, none, none, {}⟩
        have e : g.noteFirstBar ⟨0, none, none, {}⟩ = g := by unfold noteFirstBar; cases g.firstBarLen <;> rfl
        rwa [e] at this
      refine closeRegion_both ip (P := Sim) (fun g g' hg => sim_build ip hg)
        (Both.bind (loop_both (fun g g' hg => hg.segno) post
          (fun z hz g g' hg => sim_onBar hg z (nd z (List.mem_append_right _ hz))) _ _ st hs') ?_)
      rintro ⟨g1, r1, s1⟩ ⟨g2, r2, s2⟩ ⟨h1, h2⟩
      cases h2
      exact .ok _ _ ⟨h1, rfl⟩

example (ip : Bool) : renderRegion ip ⟨4, .D4⟩ [line 960 {}, line 1440 {}, line 1920 { end_ := true, fine := true }, line 2880 { dc := true }] =
    renderRegion ip ⟨4, .D4⟩ [line 960 {}, line 1920 { end_ := true, fine := true }, line 2880 { dc := true }] :=
  C79_line_partial ip ⟨4, .D4⟩ [line 960 {}] [line 1920 { end_ := true, fine := true }, line 2880 { dc := true }] (line 1440 {}) rfl
    (by decide) (.inl ⟨line 960 {}, by decide, by decide⟩)

/-- C79, negation: a bar line without marks that ends the first bar earlier moves the
place a D.C. goes back to. -/
theorem C79_first_false (ip : Bool) :
    (renderRegion ip ⟨4, .D4⟩ [line 960 {}, line 1920 { dc := true }]).map (fun r => r.1.globalRepeat.map (·.segno)) = .ok (some 0) ∧
    (renderRegion ip ⟨4, .D4⟩ [line 240 {}, line 960 {}, line 1920 { dc := true }]).map (fun r => r.1.globalRepeat.map (·.segno)) =
      .ok (some 240) := by
  cases ip <;> decide +kernel

/-- C79, negation: a bar line without marks inside an ending cuts the ending short; here
the second ending, which began with the next bar line, is no longer one. -/
theorem C79_ending_false (ip : Bool) :
    (renderRegion ip ⟨4, .D4⟩ [line 960 { var1 := true }, line 1920 { var2 := true }, line 2880 {}]).map (fun r => r.1.regions) =
      .ok [.var ⟨0, 960⟩ [⟨960, 1920⟩, ⟨1920, 2880⟩], .seq ⟨2880, U32_MAX⟩] ∧
    (renderRegion ip ⟨4, .D4⟩ [line 960 { var1 := true }, line 1440 {}, line 1920 { var2 := true }, line 2880 {}]).map (fun r => r.1.regions) =
      .ok [.var ⟨0, 960⟩ [⟨960, 1440⟩], .seq ⟨1440, U32_MAX⟩] := by
  cases ip <;> decide +kernel

/-- Plain bar lines at the end of a score. -/
private theorem plain_end (ip : Bool) (tune : Rhythm) (bars new : List Bar) (hn : ∀ x ∈ new, x.repeats = {})
    (he : ∀ y, bars.getLast? = some y → ¬ Numbered y)
    (hf : (∃ y ∈ bars, y.startTick ≠ 0) ∨ ¬ Carries bars .Dc) :
    renderRegion ip tune (bars ++ new) = renderRegion ip tune bars := by
  induction new generalizing bars with
  | nil => rw [List.append_nil]
  | cons x xs ih =>
    have hx := hn x (by simp)
    have hd : ¬ Carries [x] .Dc := by
      rintro ⟨y, hy, hc⟩
      rw [List.mem_singleton.1 hy, hx] at hc
      cases hc
    rw [show bars ++ x :: xs = (bars ++ [x]) ++ xs by simp,
      ih (bars ++ [x]) (fun y hy => hn y (by simp [hy]))
        (by
          intro y hy
          rw [List.getLast?_append] at hy
          simp at hy
          subst hy
          unfold Numbered
          rw [hx]
          decide)
        (by
          rcases hf with ⟨y, hy, h0⟩ | hf
          · exact .inl ⟨y, by simp [hy], h0⟩
          · refine .inr ?_
            rintro ⟨y, hy, hc⟩
            rcases List.mem_append.1 hy with hy | hy
            · exact hf ⟨y, hy, hc⟩
            · exact hd ⟨y, hy, hc⟩),
      C79_line_partial ip tune bars [] x hx he (by
        rcases hf with hf | hf
        · exact .inl hf
        · exact .inr (.inr (by rwa [List.append_nil]))),
      List.append_nil]

/-- Completing adds plain bars at the end. -/
private theorem replenish_plain {p p' : Project} {bs : List Bar} (h : WF p) (hc : p.replenishBars = .ok (p', bs)) :
    p'.rhythm = p.rhythm ∧ ∃ new : List Bar, p'.bars.map (·.2) = p.bars.map (·.2) ++ new ∧ ∀ x ∈ new, x.repeats = {} := by
  rw [replenish_unfold h] at hc
  rw [R_bind_eq_ok] at hc
  obtain ⟨o, -, hc⟩ := hc
  dsimp only at hc
  split at hc
  · cases hc
    exact ⟨rfl, [], by simp, by simp⟩
  · rw [R_bind_eq_ok] at hc
    obtain ⟨r, -, hc⟩ := hc
    rw [R_bind_eq_ok] at hc
    obtain ⟨bs', h1, hc⟩ := hc
    cases hc
    refine ⟨rfl, bs, ?_, ?_⟩
    all_goals
      by_cases h0 : r.tickLen = 0
      · rw [h0, newBars_zero (by omega)] at h1; cases h1
      obtain ⟨k, -, -, h3, h4⟩ := newBars_spec r.tickLen _ (by omega) _ (lastBarTick p.bars) rfl (lastBarTick_le h)
      by_cases hb : lastBarTick p.bars + k * r.tickLen ≤ U32_MAX
      case neg => rw [h4 (by omega)] at h1; cases h1
      rw [h3 hb] at h1
      cases h1
    · simp only
      rw [addBars_regular _ (by omega) _ _ _ (le_lastBarTick h), List.map_append, List.map_map,
        show ((fun q : Nat × Bar => q.2) ∘ fun b : Bar => (b.startTick, b)) = id from rfl, List.map_id]
    · intro x hx
      simp only [regularBars, List.mem_map] at hx
      obtain ⟨i, -, rfl⟩ := hx
      rfl

/-- C79: completing the bars of a project leaves the order of play alone, unless the score
ends inside an ending or has a D.C. but no first bar. -/
theorem C79_completed_partial (ip : Bool) (p p' : Project) (bs : List Bar) (h : WF p)
    (hc : p.replenishBars = .ok (p', bs)) (he : ∀ y, (p.bars.map (·.2)).getLast? = some y → ¬ Numbered y)
    (hf : (∃ y ∈ p.bars.map (·.2), y.startTick ≠ 0) ∨ ¬ Carries (p.bars.map (·.2)) .Dc) :
    renderRegion ip p'.rhythm (p'.bars.map (·.2)) = renderRegion ip p.rhythm (p.bars.map (·.2)) := by
  obtain ⟨h1, new, h2, h3⟩ := replenish_plain h hc
  rw [h1, h2]
  exact plain_end ip p.rhythm _ _ h3 he hf

private theorem setRhythm_only {p p' : Project} {e : Edit} {a b : Rhythm} (h : p.exec e = .ok (some (p', .setRhythm a b))) :
    ∃ r, e = .setRhythm r := by
  cases e with
  | setRhythm r => exact ⟨r, rfl⟩
  | setKey k => cases h
  | setGrid g => cases h
  | addBar x s => cases h
  | bulkRemove m md => cases h
  | tuplize ns =>
    simp only [exec, Project.tuplize] at h
    split at h
    · simp only [R_bind_eq_ok] at h
      obtain ⟨_, _, ⟨_, _⟩, _, h⟩ := h
      cases h
    · cases h
  | _ =>
    simp only [exec, addNote, addTempo, addDumper, addSoft, Project.bulkAdd, Project.change, R_bind_eq_ok] at h
    obtain ⟨_, ⟨⟨_, _⟩, _, h1⟩, h2⟩ := h
    cases h1
    cases h2

/-- C79: an edit that neither puts in nor takes out bar lines, and does not set the time
signature, leaves the order of play and what is reported alone, unless the score ends
inside an ending or has a D.C. but no first bar. -/
theorem C79_edit_partial (ip : Bool) (p p' : Project) (e : Edit) (c : ProjectCmd) (h : WF p) (ht : EditTicks32 e)
    (hx : p.exec e = .ok (some (p', c))) (hi : (introduced e).bars = []) (hw : (withdrawn e).bars = [])
    (hr : ∀ r, e ≠ .setRhythm r) (he : ∀ y, (p.bars.map (·.2)).getLast? = some y → ¬ Numbered y)
    (hf : (∃ y ∈ p.bars.map (·.2), y.startTick ≠ 0) ∨ ¬ Carries (p.bars.map (·.2)) .Dc) :
    renderRegion ip p'.rhythm (p'.bars.map (·.2)) = renderRegion ip p.rhythm (p.bars.map (·.2)) := by
  rcases exec_shape hx with ⟨r, _, hc, _⟩ | ⟨_, h1, _, _⟩ | ⟨_, h1, _, _⟩ | ⟨f, A, bs, hs, _, a1, a2, a3, a4, _, hf'⟩
  · rw [hc] at hx
    obtain ⟨r, h1⟩ := setRhythm_only hx
    exact absurd h1 (hr r)
  · rw [h1]
  · rw [h1]
  · have hb : (p.swap f A).bars = p.bars := by
      change addItems Bar.startTick (removeItems Bar.startTick p.bars f.bars) A.bars = p.bars
      rw [a1, hi, hf', hw]
      rfl
    rcases hs with ⟨-, -, h1⟩ | ⟨-, h1⟩
    · rw [h1, hb]; rfl
    · have hq := swap_wf h f A (ticks32_of_introduced ht.introduced a1 a2 a3 a4)
      have := C79_completed_partial ip _ _ _ hq h1 (by rw [hb]; exact he) (by rw [hb]; exact hf)
      rw [this, hb]
      rfl

/-- A project with one bar line and one tempo, which lies after it. -/
private def unfinished (b : Bar) : Project :=
  { Project.default with bars := [(b.startTick, b)], tempos := [(1000, ⟨1000, ⟨120⟩⟩)] }

private theorem unfinished_wf {b : Bar} (h : b.startTick ≤ U32_MAX) : WF (unfinished b) := by
  refine ⟨?_, ?_, ?_, ?_, ?_, ?_, ?_, ?_, ?_, ?_⟩ <;>
    simp [unfinished, Project.default, SortedBag, SortedStore, Keyed, h, U32_MAX]

private theorem unfinished_completed {b : Bar} {r : Rhythm} {bars : Store Bar} {bs : List Bar}
    (h : ((unfinished b).replenishBars.map fun o => (o.1.rhythm, o.1.bars, o.2)) = .ok (r, bars, bs)) :
    ∃ p', (unfinished b).replenishBars = .ok (p', bs) ∧ p'.rhythm = r ∧ p'.bars = bars := by
  cases hc : (unfinished b).replenishBars with
  | error e => rw [hc] at h; cases h
  | ok o => rw [hc] at h; cases h; exact ⟨o.1, rfl, rfl, rfl⟩

example (ip : Bool) : ∃ p' bs, (unfinished (line 960 { end_ := true })).replenishBars = .ok (p', bs) ∧ bs ≠ [] ∧
    renderRegion ip p'.rhythm (p'.bars.map (·.2)) = renderRegion ip ⟨4, .D4⟩ [line 960 { end_ := true }] := by
  obtain ⟨p', h, -, -⟩ := unfinished_completed (b := line 960 { end_ := true }) (r := ⟨4, .D4⟩)
    (bars := [(960, line 960 { end_ := true }), (1920, { startTick := 1920 })]) (bs := [{ startTick := 1920 }]) (by decide +kernel)
  exact ⟨p', _, h, by simp, C79_completed_partial ip _ _ _ (unfinished_wf (by decide)) h (by decide)
    (.inl ⟨line 960 { end_ := true }, by simp [unfinished, line], by decide⟩)⟩

example (ip : Bool) : ∃ p' c, (unfinished (line 960 { end_ := true })).exec (.setKey ⟨2⟩) = .ok (some (p', c)) ∧
    renderRegion ip p'.rhythm (p'.bars.map (·.2)) = renderRegion ip ⟨4, .D4⟩ [line 960 { end_ := true }] :=
  ⟨_, _, rfl, C79_edit_partial ip (unfinished (line 960 { end_ := true })) _ (.setKey ⟨2⟩) _ (unfinished_wf (by decide))
    ⟨⟨by simp [introduced], by simp [introduced], by simp [introduced], by simp [introduced]⟩,
      ⟨by simp [withdrawn], by simp [withdrawn], by simp [withdrawn], by simp [withdrawn]⟩⟩
    rfl rfl rfl (by intro r h; cases h) (by decide) (.inl ⟨line 960 { end_ := true }, by simp [unfinished, line], by decide⟩)⟩

/-- C79, negation for completion: a score that ends inside an ending is refused, but played
after the completion that a new event brings; and a D.C. at tick 0, which means nothing in a
score without a first bar, is one after the completion. -/
theorem C79_completed_false (ip : Bool) :
    (∃ p' bs, (unfinished (line 960 { var1 := true })).replenishBars = .ok (p', bs) ∧
      renderRegion ip ⟨4, .D4⟩ [line 960 { var1 := true }] = .error (.err (.variationNotClosed 960)) ∧
      (renderRegion ip p'.rhythm (p'.bars.map (·.2))).isOk = true) ∧
    (∃ p' bs, (unfinished (line 0 { dc := true })).replenishBars = .ok (p', bs) ∧
      (renderRegion ip ⟨4, .D4⟩ [line 0 { dc := true }]).map (fun r => r.1.globalRepeat.isSome) = .ok false ∧
      (renderRegion ip p'.rhythm (p'.bars.map (·.2))).map (fun r => r.1.globalRepeat.isSome) = .ok true) := by
  obtain ⟨p1, h1, h2, h3⟩ := unfinished_completed (b := line 960 { var1 := true }) (r := ⟨4, .D4⟩)
    (bars := [(960, line 960 { var1 := true }), (1920, { startTick := 1920 })]) (bs := [{ startTick := 1920 }]) (by decide +kernel)
  obtain ⟨p2, g1, g2, g3⟩ := unfinished_completed (b := line 0 { dc := true }) (r := ⟨4, .D4⟩)
    (bars := [(0, line 0 { dc := true }), (960, { startTick := 960 }), (1920, { startTick := 1920 })])
    (bs := [{ startTick := 960 }, { startTick := 1920 }]) (by decide +kernel)
  refine ⟨⟨p1, _, h1, ?_, ?_⟩, ⟨p2, _, g1, ?_, ?_⟩⟩
  · cases ip <;> decide +kernel
  · rw [h2, h3]; cases ip <;> decide +kernel
  · cases ip <;> decide +kernel
  · rw [g2, g3]; cases ip <;> decide +kernel

end Klavier
