import Verif.Lemmas.BarByBar
import Verif.Props.Moments

/-! # C92: a score is played bar by bar -/
set_option autoImplicit false
namespace Klavier
open Spec

private theorem performance_split {ip : Bool} {tune : Rhythm} {bars : List Bar} {cs : List Chunk} {w : List RenderRegionWarning}
    (h : performance ip tune bars = .ok (cs, w)) : ∃ c, renderRegion ip tune bars = .ok (c, w) ∧ c.toChunks ip = .ok cs := by
  unfold performance at h
  cases hr : renderRegion ip tune bars with
  | error e => rw [hr] at h; cases h
  | ok x =>
    obtain ⟨c, w'⟩ := x
    rw [hr] at h
    cases hc : c.toChunks ip with
    | error e =>
      simp only [RR_bind_ok, hc, liftR] at h
      cases h
    | ok cs' =>
      simp only [RR_bind_ok, hc, liftR] at h
      cases h
      exact ⟨c, rfl, hc⟩

/-- C92: every score that can be played is played as a sequence of whole bars, and the
sequence of their numbers is that of every score with the same marks on bar lines at
other ticks (a D.C. without Segno under the proviso of C82). -/
theorem C92_order (ip : Bool) (tune : Rhythm) (bars : List Bar) (hb : BarsOk bars) (cs : List Chunk)
    (w : List RenderRegionWarning) (h : performance ip tune bars = .ok (cs, w)) :
    ∃ order : List Nat, (∀ i ∈ order, i ≤ bars.length) ∧ played cs = barsPlayed bars order ∧
      ∀ (tune' : Rhythm) (bars' : List Bar) (φ : Nat → Nat), KeepsOrder φ bars → Moved φ bars bars' →
        (¬ Carries bars .Dc ∨ Carries bars .Segno ∨ FirstAlike tune tune' bars bars' φ) →
        ∃ cs' w', performance ip tune' bars' = .ok (cs', w') ∧ played cs' = barsPlayed bars' order := by
  obtain ⟨c, hr, hc⟩ := performance_split h
  have hok : ChunksOk cs := (render_general hb hr hc).1
  have hl := C82_lines ip tune bars cs w hb h
  obtain ⟨order, o1, o2⟩ := chunks_bars hb cs (fun x hx => ⟨hl x hx, (hok.1 x hx).1⟩)
  refine ⟨order, o1, ?_, fun tune' bars' φ hφ hm hd => ?_⟩
  · have := o2 (fun t => t) ⟨rfl, rfl, fun _ _ _ _ => Iff.rfl⟩
    have e : cs.map (chunkAt fun t => t) = cs := by
      have : (chunkAt fun t => t) = id := by funext x; rfl
      rw [this, List.map_id]
    rw [e] at this
    exact this
  · refine ⟨_, _, (C82_lengths ip tune tune' bars bars' φ hb hφ hm hd).trans (by rw [h]; rfl), ?_⟩
    rw [o2 φ hφ]
    unfold barsPlayed
    congr 1
    funext i
    rw [moved_barLine hφ hm, moved_barLine hφ hm]

/-- C92: to start in a bar when it is played the `k`-th time is to start after the bars
played before, as far into it as the tick asked for. -/
theorem C92_position (ip : Bool) (tune : Rhythm) (bars : List Bar) (hb : BarsOk bars) (cs : List Chunk)
    (w : List RenderRegionWarning) (h : performance ip tune bars = .ok (cs, w)) (idx : Store Chunk)
    (hidx : Chunk.byAccumTick cs = .ok idx) (order : List Nat) (ho : played cs = barsPlayed bars order)
    (i k j d : Nat) (hj : IsOccurrence order i k j) (hd : barLine bars i + d < barLine bars (i + 1))
    (hfit : barsLength bars (order.take j) + d + (barLine bars i + d) ≤ U32_MAX) :
    (PlayStartTick.new (barLine bars i + d) k).toAccumTick idx = .ok (.ok (barsLength bars (order.take j) + d)) := by
  obtain ⟨c, hr, hc⟩ := performance_split h
  have hocc := barsPlayed_occurrence hb hj hd
  rw [← ho] at hocc
  obtain ⟨k', h1, h5, ha, _⟩ := C91_every ip tune bars hb c w cs hr hc idx hidx _ _ hocc.1 hfit
  have hok : ChunksOk cs := (render_general hb hr hc).1
  have := (answer_occurrence hok hidx h1 h5 ha).2
  have hk := hocc.2
  have : k' = k := by omega
  rw [← this]
  exact ha

/-- C92: the number of times a tick is played is the number of times its bar is. -/
theorem C92_times (ip : Bool) (tune : Rhythm) (bars : List Bar) (hb : BarsOk bars) (cs : List Chunk)
    (w : List RenderRegionWarning) (h : performance ip tune bars = .ok (cs, w)) (idx : Store Chunk)
    (hidx : Chunk.byAccumTick cs = .ok idx) (order : List Nat) (ho : played cs = barsPlayed bars order)
    (i k d : Nat) (hd : barLine bars i + d < barLine bars (i + 1)) :
    (played cs).count (barLine bars i + d) = order.count i ∧ order.count i ≤ 5 ∧
    (order.count i < k → k ≤ 5 → (PlayStartTick.new (barLine bars i + d) k).toAccumTick idx = .ok (.error ⟨k, order.count i⟩)) := by
  obtain ⟨c, hr, hc⟩ := performance_split h
  have hcount : (played cs).count (barLine bars i + d) = order.count i := by
    rw [ho]
    exact barsPlayed_count hb ⟨by omega, hd⟩ order
  refine ⟨hcount, by rw [← hcount]; exact C49_five ip tune bars hb c w cs hr hc _, fun hk h5 => ?_⟩
  obtain ⟨_, b⟩ := C36_position_partial cs (render_general hb hr hc).1 idx hidx (barLine bars i + d) k
  have e : max 1 (min k 5) = k := by omega
  rw [e, hcount] at b
  exact b hk

/-- C92: there is only one such sequence, if the bars in it are not empty (only the first
can be, if there is a bar line at tick 0). -/
theorem C92_unique (bars : List Bar) (hb : BarsOk bars) (order order' : List Nat)
    (h : ∀ i ∈ order ++ order', barLine bars i < barLine bars (i + 1))
    (e : barsPlayed bars order = barsPlayed bars order') : order = order' := by
  induction order generalizing order' with
  | nil =>
    cases order' with
    | nil => rfl
    | cons i l =>
      have hi := h i (by simp)
      have := congrArg List.length e
      rw [barsPlayed_length, barsPlayed_length] at this
      simp only [barsLength, List.map_nil, List.sum_nil, List.map_cons, List.sum_cons] at this
      omega
  | cons i l ih =>
    have hi := h i (by simp)
    cases order' with
    | nil =>
      have := congrArg List.length e
      rw [barsPlayed_length, barsPlayed_length] at this
      simp only [barsLength, List.map_nil, List.sum_nil, List.map_cons, List.sum_cons] at this
      omega
    | cons i' l' =>
      have hi' := h i' (by simp)
      have e1 : span (barLine bars i) (barLine bars (i + 1)) ++ barsPlayed bars l =
          span (barLine bars i') (barLine bars (i' + 1)) ++ barsPlayed bars l' := e
      have g := span_get (a := barLine bars i) (b := barLine bars (i + 1)) (t := barLine bars i) ⟨Nat.le_refl _, hi⟩
      have g' := span_get (a := barLine bars i') (b := barLine bars (i' + 1)) (t := barLine bars i') ⟨Nat.le_refl _, hi'⟩
      rw [Nat.sub_self] at g g'
      have e2 := congrArg (fun l : List Nat => l[0]?) e1
      rw [List.getElem?_append_left (by rw [span_length]; omega), List.getElem?_append_left (by rw [span_length]; omega), g, g'] at e2
      have e3 := Option.some.inj e2
      have : i = i' := by
        rcases Nat.lt_trichotomy i i' with hl | he | hg
        · have := mono_of_step (barLine_step hb) (i := i + 1) (j := i') (by omega)
          omega
        · exact he
        · have := mono_of_step (barLine_step hb) (i := i' + 1) (j := i) (by omega)
          omega
      subst this
      rw [ih l' (fun m hm => h m ?_) (List.append_cancel_left e1)]
      simp only [List.mem_append, List.cons_append, List.mem_cons] at hm ⊢
      rcases hm with hm | hm
      · exact .inr (.inl hm)
      · exact .inr (.inr (.inr hm))

/-- A score with a repeat: bar 1 is played twice, and to start in it the second time is to
start after bars 0 and 1.  The bars are longer in the other score, the order is the same. -/
example : let bars : List Bar := [⟨96, none, none, RepeatSet.EMPTY.set .Start true⟩, ⟨192, none, none, RepeatSet.EMPTY.set .End true⟩]
    let bars' : List Bar := [⟨100, none, none, RepeatSet.EMPTY.set .Start true⟩, ⟨250, none, none, RepeatSet.EMPTY.set .End true⟩]
    BarsOk bars ∧ ∃ cs cs' idx idx', performance true ⟨4, .D4⟩ bars = .ok (cs, []) ∧ performance true ⟨4, .D4⟩ bars' = .ok (cs', []) ∧
      Chunk.byAccumTick cs = .ok idx ∧ Chunk.byAccumTick cs' = .ok idx' ∧
      played cs = barsPlayed bars [0, 1, 1, 2] ∧ played cs' = barsPlayed bars' [0, 1, 1, 2] ∧
      IsOccurrence [0, 1, 1, 2] 1 2 2 ∧ barsLength bars [0, 1] = 192 ∧ barsLength bars' [0, 1] = 250 ∧
      (PlayStartTick.new (96 + 4) 2).toAccumTick idx = .ok (.ok (192 + 4)) ∧
      (PlayStartTick.new (100 + 4) 2).toAccumTick idx' = .ok (.ok (250 + 4)) ∧
      (PlayStartTick.new (96 + 4) 3).toAccumTick idx = .ok (.error ⟨3, 2⟩) := by
  refine ⟨⟨by decide, by decide⟩, [⟨0, 96⟩, ⟨96, 192⟩, ⟨96, 192⟩, ⟨192, U32_MAX⟩], [⟨0, 100⟩, ⟨100, 250⟩, ⟨100, 250⟩, ⟨250, U32_MAX⟩],
    _, _, by decide +kernel, by decide +kernel, rfl, rfl, ?_, ?_, ⟨rfl, rfl⟩, by decide, by decide, by decide, by decide, by decide⟩
  · simp [played, barsPlayed, barLine]
  · simp [played, barsPlayed, barLine]

end Klavier
