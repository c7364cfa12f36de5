import Verif.Props.Jump
import Verif.Spec.Figures

/-! # C66: the figures of docs/repeat/examples.md

Each figure shows bars A, B, ... and the order in which they are to be played. The
bars may have any lengths: the bar lines are at ticks `t1 < t2 < ...`. -/
set_option autoImplicit false
namespace Klavier
open Spec

private theorem has_line (t : Nat) (s : RepeatSet) (m : Repeat) : Has (line t s) m ↔ s.contains m = true := Iff.rfl

private theorem ending_line (t : Nat) (s : RepeatSet) : endingNo (line t s) =
    if s.contains .Var1 then some 1 else if s.contains .Var2 then some 2 else if s.contains .Var3 then some 3
    else if s.contains .Var4 then some 4 else none := rfl

private theorem after_line (t : Nat) (s : RepeatSet) : after (line t s) = if s.contains .Start then .opened else .plain := rfl

private theorem filter_range (a b lo hi : Nat) :
    (span a b).filter (fun t => decide (lo ≤ t ∧ t < hi)) = span (max a lo) (min b hi) := by
  refine sorted_ext ((span_sorted a b).sublist (List.filter_sublist ..)) (span_sorted _ _) ?_
  intro t
  simp only [List.mem_filter, mem_span, decide_eq_true_eq]
  omega

local macro "figure" : tactic =>
  `(tactic| simp [BarsOk, MarksOk, marks, has_line, ending_line, after_line, Quiet, OpensEndings, InEnding,
      RepeatSet.contains, SegnoOk] <;> try simp [line] <;> try omega)

private theorem Plays.same {ip : Bool} {tune : Rhythm} {bars : List Bar} {w w' : List RenderRegionWarning} {o o' : List Nat}
    (h : Plays ip tune bars w o) (h' : Plays ip tune bars w' o') : o = o' := by
  obtain ⟨c, cs, p1, p2, p3⟩ := h
  obtain ⟨c', cs', q1, q2, q3⟩ := h'
  rw [p1] at q1
  cases q1
  rw [p2] at q2
  cases q2
  exact p3.symm.trans q3

/-- Figure 1: A. -/
theorem C66_fig1 (ip : Bool) (tune : Rhythm) (t1 : Nat) (h : 0 < t1 ∧ t1 < U32_MAX) :
    Plays ip tune [line t1 {}] []
      (order [t1] [A] ++ span t1 U32_MAX) := by
  have hb : BarsOk [line t1 {}] := by figure
  have hr : Reads none .first 0 [line t1 {}]
      [.plain 0 U32_MAX] := by
    exact .last (by figure) (by figure)
  have hm : MarksOk [line t1 {}] := by figure
  have := C29_plays ip tune _ _ hb hm rfl rfl hr
  simpa [Passage.full, endingParts, order, barTicks,
    @span_append 0 t1 U32_MAX (by omega) (by omega)] using this

example (ip : Bool) := C66_fig1 ip ⟨4, .D4⟩ 960 (by decide)

/-- Figure 2: A B. -/
theorem C66_fig2 (ip : Bool) (tune : Rhythm) (t1 t2 : Nat) (h : 0 < t1 ∧ t1 < t2 ∧ t2 < U32_MAX) :
    Plays ip tune [line t1 {}, line t2 {}] []
      (order [t1, t2] [A, B] ++ span t2 U32_MAX) := by
  have hb : BarsOk [line t1 {}, line t2 {}] := by figure
  have hr : Reads none .first 0 [line t1 {}, line t2 {}]
      [.plain 0 U32_MAX] := by
    exact .last (by figure) (by figure)
  have hm : MarksOk [line t1 {}, line t2 {}] := by figure
  have := C29_plays ip tune _ _ hb hm rfl rfl hr
  simpa [Passage.full, endingParts, order, barTicks,
    @span_append 0 t1 U32_MAX (by omega) (by omega),
    @span_append t1 t2 U32_MAX (by omega) (by omega)] using this

example (ip : Bool) := C66_fig2 ip ⟨4, .D4⟩ 960 1920 (by decide)

/-- Figure 3: A |: B C :| D. -/
theorem C66_fig3 (ip : Bool) (tune : Rhythm) (t1 t2 t3 : Nat) (h : 0 < t1 ∧ t1 < t2 ∧ t2 < t3 ∧ t3 < U32_MAX) :
    Plays ip tune [line t1 { start := true }, line t2 {}, line t3 { end_ := true }] []
      (order [t1, t2, t3] [A, B, C, B, C, D]) := by
  have hb : BarsOk [line t1 { start := true }, line t2 {}, line t3 { end_ := true }] := by figure
  have hr : Reads none .first 0 [line t1 { start := true }, line t2 {}, line t3 { end_ := true }]
      [.plain 0 t1, .repeated t1 t3, .plain t3 U32_MAX] := by
    refine .start (inside := []) (x := line t1 { start := true }) (by figure) (by figure) rfl (by figure) ?_
    refine .close (inside := [line t2 {}]) (x := line t3 { end_ := true }) (by figure) (by figure) rfl ?_
    exact .last (by figure) (by figure)
  have hm : MarksOk [line t1 { start := true }, line t2 {}, line t3 { end_ := true }] := by figure
  have := C29_plays ip tune _ _ hb hm rfl rfl hr
  simpa [Passage.full, endingParts, order, barTicks,
    @span_append t1 t2 t3 (by omega) (by omega)] using this

example (ip : Bool) := C66_fig3 ip ⟨4, .D4⟩ 960 1920 2880 (by decide)

/-- Figure 4: A |: B C :|: D E :|. -/
theorem C66_fig4 (ip : Bool) (tune : Rhythm) (t1 t2 t3 t4 t5 : Nat) (h : 0 < t1 ∧ t1 < t2 ∧ t2 < t3 ∧ t3 < t4 ∧ t4 < t5 ∧ t5 < U32_MAX) :
    Plays ip tune [line t1 { start := true }, line t2 {}, line t3 { start := true, end_ := true }, line t4 {}, line t5 { end_ := true }] []
      (order [t1, t2, t3, t4, t5] [A, B, C, B, C, D, E, D, E] ++ span t5 U32_MAX) := by
  have hb : BarsOk [line t1 { start := true }, line t2 {}, line t3 { start := true, end_ := true }, line t4 {}, line t5 { end_ := true }] := by figure
  have hr : Reads none .first 0 [line t1 { start := true }, line t2 {}, line t3 { start := true, end_ := true }, line t4 {}, line t5 { end_ := true }]
      [.plain 0 t1, .repeated t1 t3, .repeated t3 t5, .plain t5 U32_MAX] := by
    refine .start (inside := []) (x := line t1 { start := true }) (by figure) (by figure) rfl (by figure) ?_
    refine .close (inside := [line t2 {}]) (x := line t3 { start := true, end_ := true }) (by figure) (by figure) rfl ?_
    refine .close (inside := [line t4 {}]) (x := line t5 { end_ := true }) (by figure) (by figure) rfl ?_
    exact .last (by figure) (by figure)
  have hm : MarksOk [line t1 { start := true }, line t2 {}, line t3 { start := true, end_ := true }, line t4 {}, line t5 { end_ := true }] := by figure
  have := C29_plays ip tune _ _ hb hm rfl rfl hr
  simpa [Passage.full, endingParts, order, barTicks,
    @span_append t1 t2 t3 (by omega) (by omega),
    @span_append t3 t4 t5 (by omega) (by omega)] using this

example (ip : Bool) := C66_fig4 ip ⟨4, .D4⟩ 960 1920 2880 3840 4800 (by decide)

/-- Figure 5: A B C :|: D E :|. -/
theorem C66_fig5 (ip : Bool) (tune : Rhythm) (t1 t2 t3 t4 t5 : Nat) (h : 0 < t1 ∧ t1 < t2 ∧ t2 < t3 ∧ t3 < t4 ∧ t4 < t5 ∧ t5 < U32_MAX) :
    Plays ip tune [line t1 {}, line t2 {}, line t3 { start := true, end_ := true }, line t4 {}, line t5 { end_ := true }] []
      (order [t1, t2, t3, t4, t5] [A, B, C, A, B, C, D, E, D, E] ++ span t5 U32_MAX) := by
  have hb : BarsOk [line t1 {}, line t2 {}, line t3 { start := true, end_ := true }, line t4 {}, line t5 { end_ := true }] := by figure
  have hr : Reads none .first 0 [line t1 {}, line t2 {}, line t3 { start := true, end_ := true }, line t4 {}, line t5 { end_ := true }]
      [.repeated 0 t3, .repeated t3 t5, .plain t5 U32_MAX] := by
    refine .close (inside := [line t1 {}, line t2 {}]) (x := line t3 { start := true, end_ := true }) (by figure) (by figure) rfl ?_
    refine .close (inside := [line t4 {}]) (x := line t5 { end_ := true }) (by figure) (by figure) rfl ?_
    exact .last (by figure) (by figure)
  have hm : MarksOk [line t1 {}, line t2 {}, line t3 { start := true, end_ := true }, line t4 {}, line t5 { end_ := true }] := by figure
  have := C29_plays ip tune _ _ hb hm rfl rfl hr
  simpa [Passage.full, endingParts, order, barTicks,
    @span_append 0 t1 t3 (by omega) (by omega),
    @span_append t1 t2 t3 (by omega) (by omega),
    @span_append t3 t4 t5 (by omega) (by omega)] using this

example (ip : Bool) := C66_fig5 ip ⟨4, .D4⟩ 960 1920 2880 3840 4800 (by decide)

/-- Figure 6: A B |1 C D |2 E, each bar line of an ending carrying its number. -/
theorem C66_fig6 (ip : Bool) (tune : Rhythm) (t1 t2 t3 t4 t5 : Nat) (h : 0 < t1 ∧ t1 < t2 ∧ t2 < t3 ∧ t3 < t4 ∧ t4 < t5 ∧ t5 < U32_MAX) :
    Plays ip tune [line t1 {}, line t2 { var1 := true }, line t3 { var1 := true }, line t4 { var2 := true }, line t5 {}] []
      (order [t1, t2, t3, t4, t5] [A, B, C, D, A, B, E] ++ span t5 U32_MAX) := by
  have hb : BarsOk [line t1 {}, line t2 { var1 := true }, line t3 { var1 := true }, line t4 { var2 := true }, line t5 {}] := by figure
  have hr : Reads none .first 0 [line t1 {}, line t2 { var1 := true }, line t3 { var1 := true }, line t4 { var2 := true }, line t5 {}]
      [.endings 0 [t2, t4] t5, .plain t5 U32_MAX] := by
    refine .endings (inside := [line t1 {}]) (v := line t2 { var1 := true }) (es := [line t3 { var1 := true }, line t4 { var2 := true }]) (x := line t5 {})
      (by figure) (by figure) (by figure) (.more (xs := [line t3 { var1 := true }]) (ys := []) (by figure) (by figure) (.last (by simp))) (by figure) (by figure) (by figure) ?_
    exact .last (by figure) (by figure)
  have hm : MarksOk [line t1 {}, line t2 { var1 := true }, line t3 { var1 := true }, line t4 { var2 := true }, line t5 {}] := by figure
  have := C29_plays ip tune _ _ hb hm rfl rfl hr
  simpa [Passage.full, endingParts, order, barTicks,
    @span_append 0 t1 t2 (by omega) (by omega),
    @span_append t2 t3 t4 (by omega) (by omega)] using this

example (ip : Bool) := C66_fig6 ip ⟨4, .D4⟩ 960 1920 2880 3840 4800 (by decide)

/-- Figure 7: A B :|: C |1 D E |2 F. -/
theorem C66_fig7 (ip : Bool) (tune : Rhythm) (t1 t2 t3 t4 t5 t6 : Nat) (h : 0 < t1 ∧ t1 < t2 ∧ t2 < t3 ∧ t3 < t4 ∧ t4 < t5 ∧ t5 < t6 ∧ t6 < U32_MAX) :
    Plays ip tune [line t1 {}, line t2 { start := true, end_ := true }, line t3 { var1 := true }, line t4 { var1 := true }, line t5 { var2 := true }, line t6 {}] []
      (order [t1, t2, t3, t4, t5, t6] [A, B, A, B, C, D, E, C, F] ++ span t6 U32_MAX) := by
  have hb : BarsOk [line t1 {}, line t2 { start := true, end_ := true }, line t3 { var1 := true }, line t4 { var1 := true }, line t5 { var2 := true }, line t6 {}] := by figure
  have hr : Reads none .first 0 [line t1 {}, line t2 { start := true, end_ := true }, line t3 { var1 := true }, line t4 { var1 := true }, line t5 { var2 := true }, line t6 {}]
      [.repeated 0 t2, .endings t2 [t3, t5] t6, .plain t6 U32_MAX] := by
    refine .close (inside := [line t1 {}]) (x := line t2 { start := true, end_ := true }) (by figure) (by figure) rfl ?_
    refine .endings (inside := []) (v := line t3 { var1 := true }) (es := [line t4 { var1 := true }, line t5 { var2 := true }]) (x := line t6 {})
      (by figure) (by figure) (by figure) (.more (xs := [line t4 { var1 := true }]) (ys := []) (by figure) (by figure) (.last (by simp))) (by figure) (by figure) (by figure) ?_
    exact .last (by figure) (by figure)
  have hm : MarksOk [line t1 {}, line t2 { start := true, end_ := true }, line t3 { var1 := true }, line t4 { var1 := true }, line t5 { var2 := true }, line t6 {}] := by figure
  have := C29_plays ip tune _ _ hb hm rfl rfl hr
  simpa [Passage.full, endingParts, order, barTicks,
    @span_append 0 t1 t2 (by omega) (by omega),
    @span_append t3 t4 t5 (by omega) (by omega)] using this

example (ip : Bool) := C66_fig7 ip ⟨4, .D4⟩ 960 1920 2880 3840 4800 5760 (by decide)

/-- Two bars of a time signature whose numerator is a `u8` fit 32 bits. -/
private theorem fits {tune : Rhythm} {t : Nat} (hn : tune.numerator ≤ 255) (h : t ≤ tune.tickLen) : 2 * t ≤ U32_MAX := by
  have : tune.tickLen ≤ tune.numerator * 240 * 4 := Nat.div_le_self _ _
  simp only [U32_MAX]
  omega

/-- Figure 8: A B :| C D E F, Fine at the repeat, D.C. at the end, the first bar a full one. -/
theorem C66_fig8 (ip : Bool) (tune : Rhythm) (t1 t2 t3 t4 t5 t6 : Nat) (h : 0 < t1 ∧ t1 < t2 ∧ t2 < t3 ∧ t3 < t4 ∧ t4 < t5 ∧ t5 < t6 ∧ t6 < U32_MAX)
    (hf : t1 = tune.tickLen) (hn : tune.numerator ≤ 255) :
    Plays ip tune [line t1 {}, line t2 { end_ := true, fine := true }, line t3 {}, line t4 {}, line t5 {}, line t6 { dc := true }] []
      (order [t1, t2, t3, t4, t5, t6] [A, B, A, B, C, D, E, F, A, B]) := by
  have hl : 2 * t1 ≤ U32_MAX := fits hn (by omega)
  have hb : BarsOk [line t1 {}, line t2 { end_ := true, fine := true }, line t3 {}, line t4 {}, line t5 {}, line t6 { dc := true }] := by figure
  have hr : Reads none .first 0 [line t1 {}, line t2 { end_ := true, fine := true }, line t3 {}, line t4 {}, line t5 {}, line t6 { dc := true }]
      [.repeated 0 t2, .plain t2 U32_MAX] := by
    refine .close (inside := [line t1 {}]) (x := line t2 { end_ := true, fine := true }) (by figure) (by figure) rfl ?_
    exact .last (by figure) (by figure)
  have hm : MarksOk [line t1 {}, line t2 { end_ := true, fine := true }, line t3 {}, line t4 {}, line t5 {}, line t6 { dc := true }] := by figure
  have e1 : dcTarget tune [line t1 {}, line t2 { end_ := true, fine := true }, line t3 {}, line t4 {}, line t5 {}, line t6 { dc := true }] t1 t6 = 0 := by
    have e : openingRhythm tune [line t1 {}, line t2 { end_ := true, fine := true }, line t3 {}, line t4 {}, line t5 {}, line t6 { dc := true }] = tune := by
      have : ([line t1 {}, line t2 { end_ := true, fine := true }, line t3 {}, line t4 {}, line t5 {}, line t6 { dc := true }] : List Bar).find? (fun x => decide (x.startTick = 0)) = none := by
        rw [List.find?_eq_none]
        intro x hx
        simp only [List.mem_cons, List.not_mem_nil, or_false] at hx
        rcases hx with rfl | rfl | rfl | rfl | rfl | rfl <;> (intro hc; have h0 := of_decide_eq_true hc; simp only [line] at h0; omega)
      simp only [openingRhythm, this]; rfl
    rw [show dcTarget tune [line t1 {}, line t2 { end_ := true, fine := true }, line t3 {}, line t4 {}, line t5 {}, line t6 { dc := true }] t1 t6 = dcReturn (openingRhythm tune [line t1 {}, line t2 { end_ := true, fine := true }, line t3 {}, line t4 {}, line t5 {}, line t6 { dc := true }]).tickLen t1 t6 from rfl, e, dcReturn]
    split <;> omega
  have hq : QuietStart [line t1 {}, line t2 { end_ := true, fine := true }, line t3 {}, line t4 {}, line t5 {}, line t6 { dc := true }] := by
    intro x hx h0
    simp only [List.mem_cons, List.not_mem_nil, or_false] at hx
    rcases hx with rfl | rfl | rfl | rfl | rfl | rfl <;> (simp only [line] at h0; omega)
  have hfb : firstBarEnd [line t1 {}, line t2 { end_ := true, fine := true }, line t3 {}, line t4 {}, line t5 {}, line t6 { dc := true }] = some t1 := by
    simp [firstBarEnd, line, (by simp; omega : decide (0 < t1) = true)]
  have := C30_dc_partial ip tune [line t1 {}, line t2 { end_ := true, fine := true }, line t3 {}, line t4 {}, line t5 {}, line t6 { dc := true }] _ t6 t1 hb hm hq rfl hfb (by omega) (by figure) hr
    (by intro p hp; cases hp; exact .inr (by simp only [Passage.stop]; omega))
  rw [e1, show endTick [line t1 {}, line t2 { end_ := true, fine := true }, line t3 {}, line t4 {}, line t5 {}, line t6 { dc := true }] = t2 from rfl, show dcWarnings [line t1 {}, line t2 { end_ := true, fine := true }, line t3 {}, line t4 {}, line t5 {}, line t6 { dc := true }] t6 = [] from rfl] at this
  simp (disch := omega) only [List.flatMap_cons, List.flatMap_nil, List.append_nil, Passage.once, List.filter_append, filter_range,
    Nat.max_eq_left, Nat.min_eq_left, Nat.min_eq_right, span_empty, Passage.upTo, Passage.full, Passage.stop,
    Passage.start] at this
  simpa [Passage.upTo, Passage.full, Passage.once, Passage.stop, Passage.start, order, barTicks,
    (by omega : t2 ≤ t6), if_neg (by omega : ¬U32_MAX ≤ t6),
    @span_append 0 t1 t2 (by omega) (by omega),
    @span_append t2 t3 t6 (by omega) (by omega),
    @span_append t3 t4 t6 (by omega) (by omega),
    @span_append t4 t5 t6 (by omega) (by omega)] using this

example (ip : Bool) := C66_fig8 ip ⟨4, .D4⟩ 960 1920 2880 3840 4800 5760 (by decide) (by decide) (by decide)

/-- The score of figures 8-1 and 8-2 with an upbeat other than half a bar. -/
private theorem upbeat (ip : Bool) (tune : Rhythm) (t1 t2 t3 t4 t5 t6 : Nat) (h : 0 < t1 ∧ t1 < t2 ∧ t2 < t3 ∧ t3 < t4 ∧ t4 < t5 ∧ t5 < t6 ∧ t6 < U32_MAX)
    (hf : t1 < tune.tickLen) (hh : 2 * t1 ≠ tune.tickLen) (hn : tune.numerator ≤ 255) :
    Plays ip tune [line t1 {}, line t2 { end_ := true, fine := true }, line t3 {}, line t4 {}, line t5 {}, line t6 { dc := true }] []
      (order [t1, t2, t3, t4, t5, t6] [A, B, A, B, C, D, E, F, B]) := by
  have hl : 2 * t1 ≤ U32_MAX := fits hn (by omega)
  have hb : BarsOk [line t1 {}, line t2 { end_ := true, fine := true }, line t3 {}, line t4 {}, line t5 {}, line t6 { dc := true }] := by figure
  have hr : Reads none .first 0 [line t1 {}, line t2 { end_ := true, fine := true }, line t3 {}, line t4 {}, line t5 {}, line t6 { dc := true }]
      [.repeated 0 t2, .plain t2 U32_MAX] := by
    refine .close (inside := [line t1 {}]) (x := line t2 { end_ := true, fine := true }) (by figure) (by figure) rfl ?_
    exact .last (by figure) (by figure)
  have hm : MarksOk [line t1 {}, line t2 { end_ := true, fine := true }, line t3 {}, line t4 {}, line t5 {}, line t6 { dc := true }] := by figure
  have e1 : dcTarget tune [line t1 {}, line t2 { end_ := true, fine := true }, line t3 {}, line t4 {}, line t5 {}, line t6 { dc := true }] t1 t6 = t1 := by
    have e : openingRhythm tune [line t1 {}, line t2 { end_ := true, fine := true }, line t3 {}, line t4 {}, line t5 {}, line t6 { dc := true }] = tune := by
      have : ([line t1 {}, line t2 { end_ := true, fine := true }, line t3 {}, line t4 {}, line t5 {}, line t6 { dc := true }] : List Bar).find? (fun x => decide (x.startTick = 0)) = none := by
        rw [List.find?_eq_none]
        intro x hx
        simp only [List.mem_cons, List.not_mem_nil, or_false] at hx
        rcases hx with rfl | rfl | rfl | rfl | rfl | rfl <;> (intro hc; have h0 := of_decide_eq_true hc; simp only [line] at h0; omega)
      simp only [openingRhythm, this]; rfl
    rw [show dcTarget tune [line t1 {}, line t2 { end_ := true, fine := true }, line t3 {}, line t4 {}, line t5 {}, line t6 { dc := true }] t1 t6 = dcReturn (openingRhythm tune [line t1 {}, line t2 { end_ := true, fine := true }, line t3 {}, line t4 {}, line t5 {}, line t6 { dc := true }]).tickLen t1 t6 from rfl, e, dcReturn]
    split <;> omega
  have hq : QuietStart [line t1 {}, line t2 { end_ := true, fine := true }, line t3 {}, line t4 {}, line t5 {}, line t6 { dc := true }] := by
    intro x hx h0
    simp only [List.mem_cons, List.not_mem_nil, or_false] at hx
    rcases hx with rfl | rfl | rfl | rfl | rfl | rfl <;> (simp only [line] at h0; omega)
  have hfb : firstBarEnd [line t1 {}, line t2 { end_ := true, fine := true }, line t3 {}, line t4 {}, line t5 {}, line t6 { dc := true }] = some t1 := by
    simp [firstBarEnd, line, (by simp; omega : decide (0 < t1) = true)]
  have := C30_dc_partial ip tune [line t1 {}, line t2 { end_ := true, fine := true }, line t3 {}, line t4 {}, line t5 {}, line t6 { dc := true }] _ t6 t1 hb hm hq rfl hfb (by omega) (by figure) hr
    (by intro p hp; cases hp; exact .inr (by simp only [Passage.stop]; omega))
  rw [e1, show endTick [line t1 {}, line t2 { end_ := true, fine := true }, line t3 {}, line t4 {}, line t5 {}, line t6 { dc := true }] = t2 from rfl, show dcWarnings [line t1 {}, line t2 { end_ := true, fine := true }, line t3 {}, line t4 {}, line t5 {}, line t6 { dc := true }] t6 = [] from rfl] at this
  simp (disch := omega) only [List.flatMap_cons, List.flatMap_nil, List.append_nil, Passage.once, List.filter_append, filter_range,
    Nat.max_eq_left, Nat.max_eq_right, Nat.min_eq_left, Nat.min_eq_right, span_empty, Passage.upTo, Passage.full, Passage.stop,
    Passage.start] at this
  simpa [Passage.upTo, Passage.full, Passage.once, Passage.stop, Passage.start, order, barTicks,
    (by omega : t2 ≤ t6), if_neg (by omega : ¬U32_MAX ≤ t6),
    @span_append 0 t1 t2 (by omega) (by omega),
    @span_append t2 t3 t6 (by omega) (by omega),
    @span_append t3 t4 t6 (by omega) (by omega),
    @span_append t4 t5 t6 (by omega) (by omega)] using this

/-- The score of figures 8-1 and 8-2 with an upbeat of half a bar. -/
private theorem half (ip : Bool) (tune : Rhythm) (t1 t2 t3 t4 t5 t6 : Nat) (h : 0 < t1 ∧ t1 < t2 ∧ t2 < t3 ∧ t3 < t4 ∧ t4 < t5 ∧ t5 < t6 ∧ t6 < U32_MAX)
    (hf : 2 * t1 = tune.tickLen) (hn : tune.numerator ≤ 255) :
    Plays ip tune [line t1 {}, line t2 { end_ := true, fine := true }, line t3 {}, line t4 {}, line t5 {}, line t6 { dc := true }] []
      (order [t1, t2, t3, t4, t5, t6] [A, B, A, B, C, D, E, F, A, B]) := by
  have hl : 2 * t1 ≤ U32_MAX := fits hn (by omega)
  have hb : BarsOk [line t1 {}, line t2 { end_ := true, fine := true }, line t3 {}, line t4 {}, line t5 {}, line t6 { dc := true }] := by figure
  have hr : Reads none .first 0 [line t1 {}, line t2 { end_ := true, fine := true }, line t3 {}, line t4 {}, line t5 {}, line t6 { dc := true }]
      [.repeated 0 t2, .plain t2 U32_MAX] := by
    refine .close (inside := [line t1 {}]) (x := line t2 { end_ := true, fine := true }) (by figure) (by figure) rfl ?_
    exact .last (by figure) (by figure)
  have hm : MarksOk [line t1 {}, line t2 { end_ := true, fine := true }, line t3 {}, line t4 {}, line t5 {}, line t6 { dc := true }] := by figure
  have e1 : dcTarget tune [line t1 {}, line t2 { end_ := true, fine := true }, line t3 {}, line t4 {}, line t5 {}, line t6 { dc := true }] t1 t6 = 0 := by
    have e : openingRhythm tune [line t1 {}, line t2 { end_ := true, fine := true }, line t3 {}, line t4 {}, line t5 {}, line t6 { dc := true }] = tune := by
      have : ([line t1 {}, line t2 { end_ := true, fine := true }, line t3 {}, line t4 {}, line t5 {}, line t6 { dc := true }] : List Bar).find? (fun x => decide (x.startTick = 0)) = none := by
        rw [List.find?_eq_none]
        intro x hx
        simp only [List.mem_cons, List.not_mem_nil, or_false] at hx
        rcases hx with rfl | rfl | rfl | rfl | rfl | rfl <;> (intro hc; have h0 := of_decide_eq_true hc; simp only [line] at h0; omega)
      simp only [openingRhythm, this]; rfl
    rw [show dcTarget tune [line t1 {}, line t2 { end_ := true, fine := true }, line t3 {}, line t4 {}, line t5 {}, line t6 { dc := true }] t1 t6 = dcReturn (openingRhythm tune [line t1 {}, line t2 { end_ := true, fine := true }, line t3 {}, line t4 {}, line t5 {}, line t6 { dc := true }]).tickLen t1 t6 from rfl, e, dcReturn]
    split <;> omega
  have hq : QuietStart [line t1 {}, line t2 { end_ := true, fine := true }, line t3 {}, line t4 {}, line t5 {}, line t6 { dc := true }] := by
    intro x hx h0
    simp only [List.mem_cons, List.not_mem_nil, or_false] at hx
    rcases hx with rfl | rfl | rfl | rfl | rfl | rfl <;> (simp only [line] at h0; omega)
  have hfb : firstBarEnd [line t1 {}, line t2 { end_ := true, fine := true }, line t3 {}, line t4 {}, line t5 {}, line t6 { dc := true }] = some t1 := by
    simp [firstBarEnd, line, (by simp; omega : decide (0 < t1) = true)]
  have := C30_dc_partial ip tune [line t1 {}, line t2 { end_ := true, fine := true }, line t3 {}, line t4 {}, line t5 {}, line t6 { dc := true }] _ t6 t1 hb hm hq rfl hfb (by omega) (by figure) hr
    (by intro p hp; cases hp; exact .inr (by simp only [Passage.stop]; omega))
  rw [e1, show endTick [line t1 {}, line t2 { end_ := true, fine := true }, line t3 {}, line t4 {}, line t5 {}, line t6 { dc := true }] = t2 from rfl, show dcWarnings [line t1 {}, line t2 { end_ := true, fine := true }, line t3 {}, line t4 {}, line t5 {}, line t6 { dc := true }] t6 = [] from rfl] at this
  simp (disch := omega) only [List.flatMap_cons, List.flatMap_nil, List.append_nil, Passage.once, List.filter_append, filter_range,
    Nat.max_eq_left, Nat.min_eq_left, Nat.min_eq_right, span_empty, Passage.upTo, Passage.full, Passage.stop,
    Passage.start] at this
  simpa [Passage.upTo, Passage.full, Passage.once, Passage.stop, Passage.start, order, barTicks,
    (by omega : t2 ≤ t6), if_neg (by omega : ¬U32_MAX ≤ t6),
    @span_append 0 t1 t2 (by omega) (by omega),
    @span_append t2 t3 t6 (by omega) (by omega),
    @span_append t3 t4 t6 (by omega) (by omega),
    @span_append t4 t5 t6 (by omega) (by omega)] using this

/-- Figure 8-3: D.C. without Fine, then G. -/
theorem C66_fig8_3 (ip : Bool) (tune : Rhythm) (t1 t2 t3 t4 t5 t6 : Nat) (h : 0 < t1 ∧ t1 < t2 ∧ t2 < t3 ∧ t3 < t4 ∧ t4 < t5 ∧ t5 < t6 ∧ t6 < U32_MAX)
    (hf : t1 = tune.tickLen) (hn : tune.numerator ≤ 255) :
    Plays ip tune [line t1 {}, line t2 { end_ := true }, line t3 {}, line t4 {}, line t5 {}, line t6 { dc := true }] []
      (order [t1, t2, t3, t4, t5, t6] [A, B, A, B, C, D, E, F, A, B, C, D, E, F, G]) := by
  have hl : 2 * t1 ≤ U32_MAX := fits hn (by omega)
  have hb : BarsOk [line t1 {}, line t2 { end_ := true }, line t3 {}, line t4 {}, line t5 {}, line t6 { dc := true }] := by figure
  have hr : Reads none .first 0 [line t1 {}, line t2 { end_ := true }, line t3 {}, line t4 {}, line t5 {}, line t6 { dc := true }]
      [.repeated 0 t2, .plain t2 U32_MAX] := by
    refine .close (inside := [line t1 {}]) (x := line t2 { end_ := true }) (by figure) (by figure) rfl ?_
    exact .last (by figure) (by figure)
  have hm : MarksOk [line t1 {}, line t2 { end_ := true }, line t3 {}, line t4 {}, line t5 {}, line t6 { dc := true }] := by figure
  have e1 : dcTarget tune [line t1 {}, line t2 { end_ := true }, line t3 {}, line t4 {}, line t5 {}, line t6 { dc := true }] t1 t6 = 0 := by
    have e : openingRhythm tune [line t1 {}, line t2 { end_ := true }, line t3 {}, line t4 {}, line t5 {}, line t6 { dc := true }] = tune := by
      have : ([line t1 {}, line t2 { end_ := true }, line t3 {}, line t4 {}, line t5 {}, line t6 { dc := true }] : List Bar).find? (fun x => decide (x.startTick = 0)) = none := by
        rw [List.find?_eq_none]
        intro x hx
        simp only [List.mem_cons, List.not_mem_nil, or_false] at hx
        rcases hx with rfl | rfl | rfl | rfl | rfl | rfl <;> (intro hc; have h0 := of_decide_eq_true hc; simp only [line] at h0; omega)
      simp only [openingRhythm, this]; rfl
    rw [show dcTarget tune [line t1 {}, line t2 { end_ := true }, line t3 {}, line t4 {}, line t5 {}, line t6 { dc := true }] t1 t6 = dcReturn (openingRhythm tune [line t1 {}, line t2 { end_ := true }, line t3 {}, line t4 {}, line t5 {}, line t6 { dc := true }]).tickLen t1 t6 from rfl, e, dcReturn]
    split <;> omega
  have hq : QuietStart [line t1 {}, line t2 { end_ := true }, line t3 {}, line t4 {}, line t5 {}, line t6 { dc := true }] := by
    intro x hx h0
    simp only [List.mem_cons, List.not_mem_nil, or_false] at hx
    rcases hx with rfl | rfl | rfl | rfl | rfl | rfl <;> (simp only [line] at h0; omega)
  have hfb : firstBarEnd [line t1 {}, line t2 { end_ := true }, line t3 {}, line t4 {}, line t5 {}, line t6 { dc := true }] = some t1 := by
    simp [firstBarEnd, line, (by simp; omega : decide (0 < t1) = true)]
  have := C30_dc_partial ip tune [line t1 {}, line t2 { end_ := true }, line t3 {}, line t4 {}, line t5 {}, line t6 { dc := true }] _ t6 t1 hb hm hq rfl hfb (by omega) (by figure) hr
    (by intro p hp; cases hp; exact .inr (by simp only [Passage.stop]; omega))
  rw [e1, show endTick [line t1 {}, line t2 { end_ := true }, line t3 {}, line t4 {}, line t5 {}, line t6 { dc := true }] = U32_MAX from rfl, show dcWarnings [line t1 {}, line t2 { end_ := true }, line t3 {}, line t4 {}, line t5 {}, line t6 { dc := true }] t6 = [] from rfl] at this
  simp (disch := omega) only [List.flatMap_cons, List.flatMap_nil, List.append_nil, Passage.once, List.filter_append, filter_range,
    Nat.max_eq_left, Nat.min_eq_left, Passage.upTo, Passage.full, Passage.stop,
    Passage.start] at this
  simpa [Passage.upTo, Passage.full, Passage.once, Passage.stop, Passage.start, order, barTicks,
    (by omega : t2 ≤ t6), if_neg (by omega : ¬U32_MAX ≤ t6),
    @span_append 0 t1 t2 (by omega) (by omega),
    @span_append t2 t3 U32_MAX (by omega) (by omega),
    @span_append t3 t4 U32_MAX (by omega) (by omega),
    @span_append t4 t5 U32_MAX (by omega) (by omega),
    @span_append t5 t6 U32_MAX (by omega) (by omega),
    @span_append t2 t3 t6 (by omega) (by omega),
    @span_append t3 t4 t6 (by omega) (by omega),
    @span_append t4 t5 t6 (by omega) (by omega)] using this

example (ip : Bool) := C66_fig8_3 ip ⟨4, .D4⟩ 960 1920 2880 3840 4800 5760 (by decide) (by decide) (by decide)

/-- Figure 8-4: D.C. with Codas without Fine. -/
theorem C66_fig8_4 (ip : Bool) (tune : Rhythm) (t1 t2 t3 t4 t5 t6 : Nat) (h : 0 < t1 ∧ t1 < t2 ∧ t2 < t3 ∧ t3 < t4 ∧ t4 < t5 ∧ t5 < t6 ∧ t6 < U32_MAX)
    (hf : t1 = tune.tickLen) (hn : tune.numerator ≤ 255) :
    Plays ip tune [line t1 {}, line t2 { end_ := true }, line t3 {}, line t4 { coda := true }, line t5 {}, line t6 { dc := true, coda := true }] []
      (order [t1, t2, t3, t4, t5, t6] [A, B, A, B, C, D, E, F, A, B, C, D, G]) := by
  have hl : 2 * t1 ≤ U32_MAX := fits hn (by omega)
  have hb : BarsOk [line t1 {}, line t2 { end_ := true }, line t3 {}, line t4 { coda := true }, line t5 {}, line t6 { dc := true, coda := true }] := by figure
  have hr : Reads none .first 0 [line t1 {}, line t2 { end_ := true }, line t3 {}, line t4 { coda := true }, line t5 {}, line t6 { dc := true, coda := true }]
      [.repeated 0 t2, .plain t2 U32_MAX] := by
    refine .close (inside := [line t1 {}]) (x := line t2 { end_ := true }) (by figure) (by figure) rfl ?_
    exact .last (by figure) (by figure)
  have hm : MarksOk [line t1 {}, line t2 { end_ := true }, line t3 {}, line t4 { coda := true }, line t5 {}, line t6 { dc := true, coda := true }] := by figure
  have e1 : dcTarget tune [line t1 {}, line t2 { end_ := true }, line t3 {}, line t4 { coda := true }, line t5 {}, line t6 { dc := true, coda := true }] t1 t6 = 0 := by
    have e : openingRhythm tune [line t1 {}, line t2 { end_ := true }, line t3 {}, line t4 { coda := true }, line t5 {}, line t6 { dc := true, coda := true }] = tune := by
      have : ([line t1 {}, line t2 { end_ := true }, line t3 {}, line t4 { coda := true }, line t5 {}, line t6 { dc := true, coda := true }] : List Bar).find? (fun x => decide (x.startTick = 0)) = none := by
        rw [List.find?_eq_none]
        intro x hx
        simp only [List.mem_cons, List.not_mem_nil, or_false] at hx
        rcases hx with rfl | rfl | rfl | rfl | rfl | rfl <;> (intro hc; have h0 := of_decide_eq_true hc; simp only [line] at h0; omega)
      simp only [openingRhythm, this]; rfl
    rw [show dcTarget tune [line t1 {}, line t2 { end_ := true }, line t3 {}, line t4 { coda := true }, line t5 {}, line t6 { dc := true, coda := true }] t1 t6 = dcReturn (openingRhythm tune [line t1 {}, line t2 { end_ := true }, line t3 {}, line t4 { coda := true }, line t5 {}, line t6 { dc := true, coda := true }]).tickLen t1 t6 from rfl, e, dcReturn]
    split <;> omega
  have hq : QuietStart [line t1 {}, line t2 { end_ := true }, line t3 {}, line t4 { coda := true }, line t5 {}, line t6 { dc := true, coda := true }] := by
    intro x hx h0
    simp only [List.mem_cons, List.not_mem_nil, or_false] at hx
    rcases hx with rfl | rfl | rfl | rfl | rfl | rfl <;> (simp only [line] at h0; omega)
  have hfb : firstBarEnd [line t1 {}, line t2 { end_ := true }, line t3 {}, line t4 { coda := true }, line t5 {}, line t6 { dc := true, coda := true }] = some t1 := by
    simp [firstBarEnd, line, (by simp; omega : decide (0 < t1) = true)]
  have := C31_dc_partial ip tune [line t1 {}, line t2 { end_ := true }, line t3 {}, line t4 { coda := true }, line t5 {}, line t6 { dc := true, coda := true }] _ t6 t1 t4 t6 hb hm hq rfl hfb (by omega) rfl
    (by rw [e1]; omega) (by rw [show endTick [line t1 {}, line t2 { end_ := true }, line t3 {}, line t4 { coda := true }, line t5 {}, line t6 { dc := true, coda := true }] = U32_MAX from rfl]; omega) hr
    (by intro p hp; cases hp; exact .inr (by simp only [Passage.stop]; omega))
  rw [e1, show endTick [line t1 {}, line t2 { end_ := true }, line t3 {}, line t4 { coda := true }, line t5 {}, line t6 { dc := true, coda := true }] = U32_MAX from rfl, show dcWarnings [line t1 {}, line t2 { end_ := true }, line t3 {}, line t4 { coda := true }, line t5 {}, line t6 { dc := true, coda := true }] t6 = [] from rfl] at this
  simp (disch := omega) only [List.flatMap_cons, List.flatMap_nil, List.append_nil, Passage.once, List.filter_append, filter_range,
    Nat.max_eq_left, Nat.max_eq_right, Nat.min_eq_left, Nat.min_eq_right, span_empty, Passage.upTo, Passage.full, Passage.stop,
    Passage.start] at this
  simpa [Passage.upTo, Passage.full, Passage.once, Passage.stop, Passage.start, order, barTicks,
    (by omega : t2 ≤ t6), if_neg (by omega : ¬U32_MAX ≤ t6),
    @span_append 0 t1 t2 (by omega) (by omega),
    @span_append t2 t3 t4 (by omega) (by omega),
    @span_append t2 t3 t6 (by omega) (by omega),
    @span_append t3 t4 t6 (by omega) (by omega),
    @span_append t4 t5 t6 (by omega) (by omega)] using this

example (ip : Bool) := C66_fig8_4 ip ⟨4, .D4⟩ 960 1920 2880 3840 4800 5760 (by decide) (by decide) (by decide)

/-- Figure 9: A B C :| D E F, Segno after A, Fine at the repeat, D.S. at the end. -/
theorem C66_fig9 (ip : Bool) (tune : Rhythm) (t1 t2 t3 t4 t5 t6 : Nat) (h : 0 < t1 ∧ t1 < t2 ∧ t2 < t3 ∧ t3 < t4 ∧ t4 < t5 ∧ t5 < t6 ∧ t6 < U32_MAX) :
    Plays ip tune [line t1 { segno := true }, line t2 {}, line t3 { end_ := true, fine := true }, line t4 {}, line t5 {}, line t6 { ds := true }] []
      (order [t1, t2, t3, t4, t5, t6] [A, B, C, A, B, C, D, E, F, B, C]) := by
  have hb : BarsOk [line t1 { segno := true }, line t2 {}, line t3 { end_ := true, fine := true }, line t4 {}, line t5 {}, line t6 { ds := true }] := by figure
  have hr : Reads (some t1) .first 0 [line t1 { segno := true }, line t2 {}, line t3 { end_ := true, fine := true }, line t4 {}, line t5 {}, line t6 { ds := true }]
      [.repeated 0 t3, .plain t3 U32_MAX] := by
    refine .close (inside := [line t1 { segno := true }, line t2 {}]) (x := line t3 { end_ := true, fine := true }) (by figure) (by figure) rfl ?_
    exact .last (by figure) (by figure)
  have hm : MarksOk [line t1 { segno := true }, line t2 {}, line t3 { end_ := true, fine := true }, line t4 {}, line t5 {}, line t6 { ds := true }] := by figure
  have hq : QuietStart [line t1 { segno := true }, line t2 {}, line t3 { end_ := true, fine := true }, line t4 {}, line t5 {}, line t6 { ds := true }] := by
    intro x hx h0
    simp only [List.mem_cons, List.not_mem_nil, or_false] at hx
    rcases hx with rfl | rfl | rfl | rfl | rfl | rfl <;> (simp only [line] at h0; omega)
  have := C30_ds_partial ip tune [line t1 { segno := true }, line t2 {}, line t3 { end_ := true, fine := true }, line t4 {}, line t5 {}, line t6 { ds := true }] _ t6 t1 hb hm hq rfl rfl rfl hr
    (by intro p hp; cases hp; exact .inr (by simp only [Passage.stop]; omega))
  rw [show endTick [line t1 { segno := true }, line t2 {}, line t3 { end_ := true, fine := true }, line t4 {}, line t5 {}, line t6 { ds := true }] = t3 from rfl] at this
  simp (disch := omega) only [List.flatMap_cons, List.flatMap_nil, List.append_nil, Passage.once, List.filter_append, filter_range,
    Nat.max_eq_left, Nat.max_eq_right, Nat.min_eq_left, Nat.min_eq_right, span_empty, Passage.upTo, Passage.full, Passage.stop,
    Passage.start] at this
  simpa [Passage.upTo, Passage.full, Passage.once, Passage.stop, Passage.start, order, barTicks,
    (by omega : t3 ≤ t6), if_neg (by omega : ¬U32_MAX ≤ t6),
    @span_append 0 t1 t3 (by omega) (by omega),
    @span_append t1 t2 t3 (by omega) (by omega),
    @span_append t3 t4 t6 (by omega) (by omega),
    @span_append t4 t5 t6 (by omega) (by omega)] using this

example (ip : Bool) := C66_fig9 ip ⟨4, .D4⟩ 960 1920 2880 3840 4800 5760 (by decide)

/-- Figure 9-1: the same with Codas after B and D, and Fine after E. -/
theorem C66_fig9_1 (ip : Bool) (tune : Rhythm) (t1 t2 t3 t4 t5 t6 : Nat) (h : 0 < t1 ∧ t1 < t2 ∧ t2 < t3 ∧ t3 < t4 ∧ t4 < t5 ∧ t5 < t6 ∧ t6 < U32_MAX) :
    Plays ip tune [line t1 { segno := true }, line t2 { coda := true }, line t3 { end_ := true }, line t4 { coda := true }, line t5 { fine := true }, line t6 { ds := true }] []
      (order [t1, t2, t3, t4, t5, t6] [A, B, C, A, B, C, D, E, F, B, E]) := by
  have hb : BarsOk [line t1 { segno := true }, line t2 { coda := true }, line t3 { end_ := true }, line t4 { coda := true }, line t5 { fine := true }, line t6 { ds := true }] := by figure
  have hr : Reads (some t1) .first 0 [line t1 { segno := true }, line t2 { coda := true }, line t3 { end_ := true }, line t4 { coda := true }, line t5 { fine := true }, line t6 { ds := true }]
      [.repeated 0 t3, .plain t3 U32_MAX] := by
    refine .close (inside := [line t1 { segno := true }, line t2 { coda := true }]) (x := line t3 { end_ := true }) (by figure) (by figure) rfl ?_
    exact .last (by figure) (by figure)
  have hm : MarksOk [line t1 { segno := true }, line t2 { coda := true }, line t3 { end_ := true }, line t4 { coda := true }, line t5 { fine := true }, line t6 { ds := true }] := by figure
  have hq : QuietStart [line t1 { segno := true }, line t2 { coda := true }, line t3 { end_ := true }, line t4 { coda := true }, line t5 { fine := true }, line t6 { ds := true }] := by
    intro x hx h0
    simp only [List.mem_cons, List.not_mem_nil, or_false] at hx
    rcases hx with rfl | rfl | rfl | rfl | rfl | rfl <;> (simp only [line] at h0; omega)
  have := C31_ds_partial ip tune [line t1 { segno := true }, line t2 { coda := true }, line t3 { end_ := true }, line t4 { coda := true }, line t5 { fine := true }, line t6 { ds := true }] _ t6 t1 t2 t4 hb hm hq rfl rfl rfl (by omega)
    (by rw [show endTick [line t1 { segno := true }, line t2 { coda := true }, line t3 { end_ := true }, line t4 { coda := true }, line t5 { fine := true }, line t6 { ds := true }] = t5 from rfl]; omega) hr
    (by intro p hp; cases hp; exact .inr (by simp only [Passage.stop]; omega))
  rw [show endTick [line t1 { segno := true }, line t2 { coda := true }, line t3 { end_ := true }, line t4 { coda := true }, line t5 { fine := true }, line t6 { ds := true }] = t5 from rfl] at this
  simp (disch := omega) only [List.flatMap_cons, List.flatMap_nil, List.append_nil, Passage.once, List.filter_append, filter_range,
    Nat.max_eq_left, Nat.max_eq_right, Nat.min_eq_left, Nat.min_eq_right, span_empty, Passage.upTo, Passage.full, Passage.stop,
    Passage.start] at this
  simpa [Passage.upTo, Passage.full, Passage.once, Passage.stop, Passage.start, order, barTicks,
    (by omega : t3 ≤ t6), if_neg (by omega : ¬U32_MAX ≤ t6),
    @span_append 0 t1 t3 (by omega) (by omega),
    @span_append t1 t2 t3 (by omega) (by omega),
    @span_append t3 t4 t6 (by omega) (by omega),
    @span_append t4 t5 t6 (by omega) (by omega)] using this


example (ip : Bool) := C66_fig9_1 ip ⟨4, .D4⟩ 960 1920 2880 3840 4800 5760 (by decide)

/-- Figure 8-1 when the upbeat and the D.C. bar are half a bar each. -/
theorem C66_fig8_1_partial (ip : Bool) (tune : Rhythm) (t1 t2 t3 t4 t5 t6 : Nat) (h : 0 < t1 ∧ t1 < t2 ∧ t2 < t3 ∧ t3 < t4 ∧ t4 < t5 ∧ t5 < t6 ∧ t6 < U32_MAX)
    (hf : 2 * t1 = tune.tickLen) (_hd : t1 + (t6 - t5) = tune.tickLen) (hn : tune.numerator ≤ 255) :
    Plays ip tune [line t1 {}, line t2 { end_ := true, fine := true }, line t3 {}, line t4 {}, line t5 {}, line t6 { dc := true }] []
      (order [t1, t2, t3, t4, t5, t6] [A, B, A, B, C, D, E, F, A, B]) := half ip tune t1 t2 t3 t4 t5 t6 h hf hn

example (ip : Bool) := C66_fig8_1_partial ip ⟨4, .D4⟩ 480 1440 2400 3360 4320 4800 (by decide) (by decide) (by decide) (by decide)

/-- Figure 8-1 with any other upbeat is not played as drawn: the D.C. goes back to bar B. -/
theorem C66_fig8_1_false (ip : Bool) (tune : Rhythm) (t1 t2 t3 t4 t5 t6 : Nat) (h : 0 < t1 ∧ t1 < t2 ∧ t2 < t3 ∧ t3 < t4 ∧ t4 < t5 ∧ t5 < t6 ∧ t6 < U32_MAX)
    (hf : t1 < tune.tickLen) (hh : 2 * t1 ≠ tune.tickLen) (_hd : t1 + (t6 - t5) = tune.tickLen) (hn : tune.numerator ≤ 255) :
    Plays ip tune [line t1 {}, line t2 { end_ := true, fine := true }, line t3 {}, line t4 {}, line t5 {}, line t6 { dc := true }] []
      (order [t1, t2, t3, t4, t5, t6] [A, B, A, B, C, D, E, F, B]) ∧
    ∀ w, ¬ Plays ip tune [line t1 {}, line t2 { end_ := true, fine := true }, line t3 {}, line t4 {}, line t5 {}, line t6 { dc := true }] w
      (order [t1, t2, t3, t4, t5, t6] [A, B, A, B, C, D, E, F, A, B]) := by
  have hl : 2 * t1 ≤ U32_MAX := fits hn (by omega)
  have hp := upbeat ip tune t1 t2 t3 t4 t5 t6 h hf hh hn
  refine ⟨hp, fun w hw => ?_⟩
  have := congrArg List.length (Plays.same hp hw)
  simp only [order, barTicks, span, List.flatMap_cons, List.flatMap_nil, List.length_append, List.length_range'] at this
  simp at this
  omega

/-- Figure 8-2 with any upbeat other than half a bar. -/
theorem C66_fig8_2_partial (ip : Bool) (tune : Rhythm) (t1 t2 t3 t4 t5 t6 : Nat) (h : 0 < t1 ∧ t1 < t2 ∧ t2 < t3 ∧ t3 < t4 ∧ t4 < t5 ∧ t5 < t6 ∧ t6 < U32_MAX)
    (hf : t1 < tune.tickLen) (hh : 2 * t1 ≠ tune.tickLen) (_hd : t6 - t5 = tune.tickLen) (hn : tune.numerator ≤ 255) :
    Plays ip tune [line t1 {}, line t2 { end_ := true, fine := true }, line t3 {}, line t4 {}, line t5 {}, line t6 { dc := true }] []
      (order [t1, t2, t3, t4, t5, t6] [A, B, A, B, C, D, E, F, B]) := upbeat ip tune t1 t2 t3 t4 t5 t6 h hf hh hn

example (ip : Bool) :=
  C66_fig8_2_partial ip ⟨4, .D4⟩ 240 1200 2160 3120 4080 5040 (by decide) (by decide) (by decide) (by decide) (by decide)

/-- Figure 8-2 with an upbeat of half a bar is not played as drawn: the D.C. goes back to the upbeat. -/
theorem C66_fig8_2_false (ip : Bool) (tune : Rhythm) (t1 t2 t3 t4 t5 t6 : Nat) (h : 0 < t1 ∧ t1 < t2 ∧ t2 < t3 ∧ t3 < t4 ∧ t4 < t5 ∧ t5 < t6 ∧ t6 < U32_MAX)
    (hf : 2 * t1 = tune.tickLen) (_hd : t6 - t5 = tune.tickLen) (hn : tune.numerator ≤ 255) :
    Plays ip tune [line t1 {}, line t2 { end_ := true, fine := true }, line t3 {}, line t4 {}, line t5 {}, line t6 { dc := true }] []
      (order [t1, t2, t3, t4, t5, t6] [A, B, A, B, C, D, E, F, A, B]) ∧
    ∀ w, ¬ Plays ip tune [line t1 {}, line t2 { end_ := true, fine := true }, line t3 {}, line t4 {}, line t5 {}, line t6 { dc := true }] w
      (order [t1, t2, t3, t4, t5, t6] [A, B, A, B, C, D, E, F, B]) := by
  have hl : 2 * t1 ≤ U32_MAX := fits hn (by omega)
  have hp := half ip tune t1 t2 t3 t4 t5 t6 h hf hn
  refine ⟨hp, fun w hw => ?_⟩
  have := congrArg List.length (Plays.same hp hw)
  simp only [order, barTicks, span, List.flatMap_cons, List.flatMap_nil, List.length_append, List.length_range'] at this
  simp at this
  omega

/-! The upbeats of the figures: a quarter of a bar in 4/4, and half of one. -/

example (ip : Bool) : ¬ Plays ip ⟨4, .D4⟩ [line 240 {}, line 1200 { end_ := true, fine := true }, line 2160 {}, line 3120 {},
    line 4080 {}, line 4800 { dc := true }] [] (order [240, 1200, 2160, 3120, 4080, 4800] [A, B, A, B, C, D, E, F, A, B]) :=
  (C66_fig8_1_false ip ⟨4, .D4⟩ 240 1200 2160 3120 4080 4800 (by decide) (by decide) (by decide) (by decide) (by decide)).2 []

example (ip : Bool) : Plays ip ⟨4, .D4⟩ [line 240 {}, line 1200 { end_ := true, fine := true }, line 2160 {}, line 3120 {},
    line 4080 {}, line 5040 { dc := true }] [] (order [240, 1200, 2160, 3120, 4080, 5040] [A, B, A, B, C, D, E, F, B]) :=
  C66_fig8_2_partial ip ⟨4, .D4⟩ 240 1200 2160 3120 4080 5040 (by decide) (by decide) (by decide) (by decide) (by decide)

example (ip : Bool) : Plays ip ⟨4, .D4⟩ [line 480 {}, line 1440 { end_ := true, fine := true }, line 2400 {}, line 3360 {},
    line 4320 {}, line 4800 { dc := true }] [] (order [480, 1440, 2400, 3360, 4320, 4800] [A, B, A, B, C, D, E, F, A, B]) :=
  C66_fig8_1_partial ip ⟨4, .D4⟩ 480 1440 2400 3360 4320 4800 (by decide) (by decide) (by decide) (by decide)

example (ip : Bool) : ¬ Plays ip ⟨4, .D4⟩ [line 480 {}, line 1440 { end_ := true, fine := true }, line 2400 {}, line 3360 {},
    line 4320 {}, line 5280 { dc := true }] [] (order [480, 1440, 2400, 3360, 4320, 5280] [A, B, A, B, C, D, E, F, B]) :=
  (C66_fig8_2_false ip ⟨4, .D4⟩ 480 1440 2400 3360 4320 5280 (by decide) (by decide) (by decide) (by decide)).2 []

/-! The other figures with bars of one measure of 4/4. -/

example (ip : Bool) : Plays ip ⟨4, .D4⟩ [line 960 { start := true }, line 1920 {}, line 2880 { end_ := true }] []
    (order [960, 1920, 2880] [A, B, C, B, C, D]) := C66_fig3 ip ⟨4, .D4⟩ 960 1920 2880 (by decide)

example (ip : Bool) : Plays ip ⟨4, .D4⟩ [line 960 { segno := true }, line 1920 { coda := true }, line 2880 { end_ := true },
    line 3840 { coda := true }, line 4800 { fine := true }, line 5760 { ds := true }] []
    (order [960, 1920, 2880, 3840, 4800, 5760] [A, B, C, A, B, C, D, E, F, B, E]) :=
  C66_fig9_1 ip ⟨4, .D4⟩ 960 1920 2880 3840 4800 5760 (by decide)

/-- Every bar of an ending has to carry its number. Figure 6 with the number on the first
bar of each ending only (as it is printed) is accepted without a warning and played
straight through once. -/
theorem C66_unmarked_false (ip : Bool) :
    Plays ip ⟨4, .D4⟩ [line 960 {}, line 1920 { var1 := true }, line 2880 {}, line 3840 { var2 := true }, line 4800 {}] []
      (span 0 U32_MAX) ∧
    ∀ w, ¬ Plays ip ⟨4, .D4⟩ [line 960 {}, line 1920 { var1 := true }, line 2880 {}, line 3840 { var2 := true }, line 4800 {}] w
      (order [960, 1920, 2880, 3840, 4800] [A, B, C, D, A, B, E] ++ span 4800 U32_MAX) := by
  have hp : Plays ip ⟨4, .D4⟩ [line 960 {}, line 1920 { var1 := true }, line 2880 {}, line 3840 { var2 := true }, line 4800 {}] []
      (span 0 U32_MAX) := by
    refine ⟨_, [⟨0, 1920⟩, ⟨1920, 2880⟩, ⟨2880, U32_MAX⟩], rfl, by cases ip <;> decide +kernel, ?_⟩
    simp only [played, List.flatMap_cons, List.flatMap_nil, List.append_nil]
    rw [← @span_append 1920 2880 U32_MAX (by decide) (by decide), ← @span_append 0 1920 U32_MAX (by decide) (by decide)]
  refine ⟨hp, fun w hw => ?_⟩
  have := congrArg List.length (Plays.same hp hw)
  simp only [order, barTicks, span, List.flatMap_cons, List.flatMap_nil, List.length_append, List.length_range'] at this
  simp [U32_MAX] at this

end Klavier
