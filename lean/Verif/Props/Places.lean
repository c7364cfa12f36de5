import Verif.Lemmas.Places

/-! # C81: places keep their names -/
set_option autoImplicit false
namespace Klavier
open Spec Project

private theorem latest_plain {V α : Type} {s new : List (Nat × V)} {sel : V → Option α} (hn : ∀ q ∈ new, sel q.2 = none)
    {d : α} {t : Nat} {a : α} (h : LatestValue s sel d t a) : LatestValue (s ++ new) sel d t a := by
  rcases h with ⟨h1, h2⟩ | ⟨q, hq, h1, h2, h3⟩
  · refine .inl ⟨?_, h2⟩
    intro q hq ht
    rcases List.mem_append.1 hq with hq | hq
    · exact h1 q hq ht
    · exact hn q hq
  · refine .inr ⟨q, List.mem_append_left _ hq, h1, h2, ?_⟩
    intro r hr ht hs
    rcases List.mem_append.1 hr with hr | hr
    · exact h3 r hr ht hs
    · exact absurd (hn r hr) hs

private theorem plain (L len k : Nat) : ∀ q ∈ (regularBars L len k).map (fun b => (b.startTick, b)), q.2.rhythm = none ∧ q.2.key = none := by
  intro q hq
  simp only [regularBars, List.map_map, List.mem_map] at hq
  obtain ⟨i, -, rfl⟩ := hq
  exact ⟨rfl, rfl⟩

/-- C81: completing the bars changes the tick of no location, nor whether it has one. -/
theorem C81_place (p p' : Project) (bs : List Bar) (loc : Location) (h : WF p) (hr : p.replenishBars = .ok (p', bs))
    (ho : loc.offset ≤ USIZE_MAX) : p'.locationToTick loc = p.locationToTick loc := by
  have hw := replenish_wf h hr
  obtain ⟨r, k, hl, -, -, e, -⟩ := replenish_form h hr
  have hl' : LatestValue p'.bars Bar.rhythm p'.rhythm (lastBarTick p'.bars) r := by
    rw [e]
    exact (lastBarTick_regular p.bars r.tickLen k).symm ▸ latest_regular h r.tickLen k hl
  have a := C15_all p h loc r hl ho
  have b := C15_all p' hw loc r hl' ho
  simp only at a b
  rw [a, b, e]
  simp only [barStart_regular]

/-- C81: completing the bars changes neither the time signature nor the key, tempo or pedals
anywhere. -/
theorem C81_values (p p' : Project) (bs : List Bar) (t : Nat) (h : WF p) (hr : p.replenishBars = .ok (p', bs)) :
    p'.rhythmAt t = p.rhythmAt t ∧ p'.keyAt t = p.keyAt t ∧ p'.tempoAt t = p.tempoAt t ∧ p'.dumperAt t = p.dumperAt t ∧
      p'.softAt t = p.softAt t := by
  have hw := replenish_wf h hr
  obtain ⟨r, k, hl, -, -, e, -⟩ := replenish_form h hr
  obtain ⟨⟨r1, a1, a2⟩, ⟨k1, b1, b2⟩⟩ := C16_rhythm_key p h t
  obtain ⟨⟨r2, c1, c2⟩, ⟨k2, d1, d2⟩⟩ := C16_rhythm_key p' hw t
  refine ⟨?_, ?_, ?_, ?_, ?_⟩
  · rw [a1, c1]
    congr 1
    refine latestValue_unique hw.bars c2 ?_
    rw [e]
    exact latest_plain (fun q hq => (plain _ _ _ q hq).1) a2
  · rw [b1, d1]
    congr 1
    refine latestValue_unique hw.bars d2 ?_
    rw [e]
    exact latest_plain (fun q hq => (plain _ _ _ q hq).2) b2
  all_goals rw [e]; rfl

/-- C81 (partial: false beyond, `C81_location_false`): completing the bars changes no location
before the first bar line it adds.  From there on, the location counts the new bars. -/
theorem C81_location_partial (p p' : Project) (bs : List Bar) (r : Rhythm) (t : Nat) (h : WF p)
    (hl : LatestValue p.bars Bar.rhythm p.rhythm (lastBarTick p.bars) r) (hr : p.replenishBars = .ok (p', bs)) :
    (t < lastBarTick p.bars + r.tickLen → p'.tickToLocation t = p.tickToLocation t) ∧
    (lastBarTick p.bars + r.tickLen ≤ t → p.tickToLocation t = .ok ⟨p.bars.length, t - lastBarTick p.bars⟩ ∧
      p'.tickToLocation t = .ok ⟨p.bars.length + min ((t - lastBarTick p.bars) / r.tickLen) bs.length,
        t - lastBarTick p.bars - min ((t - lastBarTick p.bars) / r.tickLen) bs.length * r.tickLen⟩) := by
  have hw := replenish_wf h hr
  obtain ⟨r', k, hl', hk, -, e, e'⟩ := replenish_form h hr
  obtain rfl := latestValue_unique h.bars hl hl'
  have hb : p'.bars = p.bars ++ (regularBars (lastBarTick p.bars) r.tickLen k).map (fun b => (b.startTick, b)) := by rw [e]
  have hlen : bs.length = k := by rw [e']; simp [regularBars]
  have hmem : ∀ q ∈ (regularBars (lastBarTick p.bars) r.tickLen k).map (fun b => (b.startTick, b)),
      lastBarTick p.bars + r.tickLen ≤ q.1 := by
    intro q hq
    simp only [regularBars, List.map_map, List.mem_map] at hq
    obtain ⟨i, -, rfl⟩ := hq
    simp only [Function.comp, Nat.add_mul]
    omega
  constructor
  · intro ht
    obtain ⟨n, hn, -⟩ := tickToLocation_spec h.bars h.barsKeyed t
    have hn' : SplitAt p'.bars t n := by
      rw [hb]
      refine ⟨by simp only [List.length_append]; have := hn.1; omega, ?_, ?_⟩
      · rw [List.take_append_of_le_length hn.1]; exact hn.2.1
      · rw [List.drop_append_of_le_length hn.1]
        intro q hq
        rcases List.mem_append.1 hq with hq | hq
        · exact hn.2.2 q hq
        · have := hmem q hq; omega
    rw [location_of_split h r.tickLen hn, location_of_split hw r.tickLen hn', hb, barStart_regular]
  · intro ht
    have hn : SplitAt p.bars t p.bars.length := by
      refine ⟨Nat.le_refl _, ?_, by simp⟩
      intro q hq
      rw [List.take_length] at hq
      have := le_lastBarTick h q hq
      omega
    have hstart : ∀ j, barStart p.bars r.tickLen (p.bars.length + j) = lastBarTick p.bars + j * r.tickLen := by
      intro j
      rw [barStart_eq]
      split
      · next h0 =>
        obtain rfl : j = 0 := by omega
        have : p.bars = [] := List.length_eq_zero_iff.1 (by omega)
        simp [this, lastBarTick]
      · split
        · next h0 h1 =>
          obtain rfl : j = 0 := by omega
          rw [Nat.add_zero, lastBarTick, List.getLast?_eq_getElem?]
          simp
        · rw [show p.bars.length + j - p.bars.length = j by omega]
    refine ⟨by rw [location_of_split h r.tickLen hn]; have := hstart 0; simp only [Nat.add_zero, Nat.zero_mul] at this; rw [this], ?_⟩
    rw [hlen]
    generalize hj : min ((t - lastBarTick p.bars) / r.tickLen) k = j
    have hjk : j ≤ k := by omega
    have h1 : j * r.tickLen ≤ t - lastBarTick p.bars := by
      have : j ≤ (t - lastBarTick p.bars) / r.tickLen := by omega
      exact Nat.le_trans (Nat.mul_le_mul_right _ this) (Nat.div_mul_le_self _ _)
    have hn' : SplitAt p'.bars t (p.bars.length + j) := by
      rw [hb]
      refine ⟨?_, ?_, ?_⟩
      · rw [List.length_append, regular_length]; omega
      · rw [List.take_length_add_append]
        intro q hq
        rcases List.mem_append.1 hq with hq | hq
        · have := le_lastBarTick h q hq; omega
        · obtain ⟨i, hi, hg⟩ := List.mem_take_iff_getElem.1 hq
          rw [regular_length] at hi
          have := regular_get (lastBarTick p.bars) r.tickLen k i (by omega)
          rw [List.getElem?_eq_getElem (by rw [regular_length]; omega), hg] at this
          obtain rfl := Option.some.inj this
          have := Nat.mul_le_mul_right r.tickLen (show i + 1 ≤ j by omega)
          simp only
          omega
      · rw [List.drop_length_add_append]
        intro q hq
        obtain ⟨i, hi, hg⟩ := List.mem_drop_iff_getElem.1 hq
        rw [regular_length] at hi
        have := regular_get (lastBarTick p.bars) r.tickLen k (j + i) (by omega)
        rw [List.getElem?_eq_getElem (by rw [regular_length]; omega), hg] at this
        obtain rfl := Option.some.inj this
        have h2 : (t - lastBarTick p.bars) / r.tickLen < j + i + 1 := by omega
        have := (Nat.div_lt_iff_lt_mul (hk (by omega))).1 h2
        simp only
        omega
    rw [location_of_split hw r.tickLen hn', hb, barStart_regular, hstart, Nat.sub_add_eq]

/-- C81, exactly: completing the bars leaves the location of a tick alone exactly if the tick
lies before all bar lines added. -/
theorem C81_location_iff (p p' : Project) (bs : List Bar) (r : Rhythm) (t : Nat) (h : WF p)
    (hl : LatestValue p.bars Bar.rhythm p.rhythm (lastBarTick p.bars) r) (hr : p.replenishBars = .ok (p', bs)) :
    p'.tickToLocation t = p.tickToLocation t ↔ ∀ b ∈ bs, t < b.startTick := by
  obtain ⟨h1, h2⟩ := C81_location_partial p p' bs r t h hl hr
  obtain ⟨r', k, hl', hk, -, e, e'⟩ := replenish_form h hr
  obtain rfl := latestValue_unique h.bars hl hl'
  have hfirst : (∀ b ∈ bs, t < b.startTick) ↔ bs = [] ∨ t < lastBarTick p.bars + r.tickLen := by
    rw [e']
    cases k with
    | zero => simp [regularBars]
    | succ k =>
      constructor
      · intro hb
        have := hb ⟨lastBarTick p.bars + (0 + 1) * r.tickLen, none, none, {}⟩ (List.mem_map.2 ⟨0, by simp, rfl⟩)
        simp only at this
        right; omega
      · rintro (hb | hb)
        · simp [regularBars] at hb
        · intro b hb'
          obtain ⟨i, -, rfl⟩ := List.mem_map.1 hb'
          simp only [Nat.add_mul]
          omega
  rw [hfirst]
  constructor
  · intro heq
    by_cases ht : t < lastBarTick p.bars + r.tickLen
    · exact .inr ht
    · left
      obtain ⟨a, b⟩ := h2 (by omega)
      rw [a, b] at heq
      have hn : p.bars.length + min ((t - lastBarTick p.bars) / r.tickLen) bs.length = p.bars.length := by
        injection heq with heq
        exact congrArg Location.barNo heq
      have hlen : bs.length = k := by rw [e']; simp [regularBars]
      refine List.length_eq_zero_iff.1 (Classical.byContradiction fun h0 => ?_)
      have hq : 0 < (t - lastBarTick p.bars) / r.tickLen := Nat.div_pos (by omega) (hk (by omega))
      omega
  · intro hor
    by_cases ht : t < lastBarTick p.bars + r.tickLen
    · exact h1 ht
    · obtain ⟨a, b⟩ := h2 (by omega)
      have : bs = [] := by
        rcases hor with hb | hb
        · exact hb
        · exact absurd hb ht
      rw [a, b, this]
      simp

/-- C81: an edit that neither puts in nor takes out bar lines, and does not set the time
signature of the tune, changes the tick of no location and the time signature nowhere,
although it may append bars; nor the key, unless it sets that of the tune. -/
theorem C81_edit (p p' : Project) (e : Edit) (c : ProjectCmd) (h : WF p) (ht : EditTicks32 e)
    (hx : p.exec e = .ok (some (p', c))) (hi : (introduced e).bars = []) (hw : (withdrawn e).bars = [])
    (hr : ∀ r, e ≠ .setRhythm r) :
    (∀ loc, loc.offset ≤ USIZE_MAX → p'.locationToTick loc = p.locationToTick loc) ∧
    (∀ t, p'.rhythmAt t = p.rhythmAt t) ∧ ((∀ k, e ≠ .setKey k) → ∀ t, p'.keyAt t = p.keyAt t) := by
  rcases exec_shape hx with ⟨r, _, hc, _⟩ | ⟨k, h1, hc, _⟩ | ⟨_, h1, _, _⟩ | ⟨f, A, bs, hs, _, a1, a2, a3, a4, _, hf'⟩
  · rw [hc] at hx
    obtain ⟨r, h1⟩ := edit_setRhythm hx
    exact absurd h1 (hr r)
  · refine ⟨fun loc _ => locationToTick_congr (by rw [h1]) (by rw [h1]) loc, rhythmAt_congr (by rw [h1]) (by rw [h1]), ?_⟩
    intro hk
    rw [hc] at hx
    obtain ⟨k, h2⟩ := edit_setKey hx
    exact absurd h2 (hk k)
  · exact ⟨fun loc _ => locationToTick_congr (by rw [h1]) (by rw [h1]) loc, rhythmAt_congr (by rw [h1]) (by rw [h1]),
      fun _ => keyAt_congr (by rw [h1]) (by rw [h1])⟩
  · have hb : (p.swap f A).bars = p.bars := by
      change addItems Bar.startTick (removeItems Bar.startTick p.bars f.bars) A.bars = p.bars
      rw [a1, hi, hf', hw]
      rfl
    have hq := swap_wf h f A (ticks32_of_introduced ht.introduced a1 a2 a3 a4)
    rcases hs with ⟨-, -, h1⟩ | ⟨-, h1⟩
    · exact ⟨fun loc _ => locationToTick_congr (by rw [h1, hb]) (by rw [h1]; rfl) loc, rhythmAt_congr (by rw [h1, hb]) (by rw [h1]; rfl),
        fun _ => keyAt_congr (by rw [h1, hb]) (by rw [h1]; rfl)⟩
    · refine ⟨fun loc ho => ?_, fun t => ?_, fun _ t => ?_⟩
      · rw [C81_place _ _ _ loc hq h1 ho]
        exact locationToTick_congr hb rfl loc
      · rw [(C81_values _ _ _ t hq h1).1]
        exact rhythmAt_congr hb rfl t
      · rw [(C81_values _ _ _ t hq h1).2.1]
        exact keyAt_congr hb rfl t

/-- C81: the location of a tick, noted before such an edit, denotes the same tick after it. -/
theorem C81_noted (p p' : Project) (e : Edit) (c : ProjectCmd) (t : Nat) (h : WF p) (ht : EditTicks32 e)
    (hx : p.exec e = .ok (some (p', c))) (hi : (introduced e).bars = []) (hw : (withdrawn e).bars = [])
    (hr : ∀ r, e ≠ .setRhythm r) (hlen : p.bars.length ≤ U32_MAX) (hb : t ≤ U32_MAX) :
    ∃ loc, p.tickToLocation t = .ok loc ∧ p'.locationToTick loc = .ok (.ok t) := by
  obtain ⟨loc, h1, h2⟩ := C13_roundtrip p h hlen t hb
  refine ⟨loc, h1, ?_⟩
  obtain ⟨o, g1, g2⟩ := location_count h t
  rw [g1] at h1
  cases h1
  rw [(C81_edit p p' e c h ht hx hi hw hr).1 _ ?_, h2]
  simp only [USIZE_MAX, U32_MAX] at *
  rcases g2 with ⟨-, rfl⟩ | ⟨q, -, -, rfl, -⟩ <;> omega

/-- C81, a new bar line: locations before it stay; from it on, the bar number is one more and
the distance is counted from it if it is the latest. -/
theorem C81_bar (p p' : Project) (b : Bar) (sel : Bool) (c : ProjectCmd) (t : Nat) (h : WF p) (hb : b.startTick ≤ U32_MAX)
    (hn : ∀ q ∈ p.bars, q.1 ≠ b.startTick) (hx : p.exec (.addBar b sel) = .ok (some (p', c))) :
    ∃ l l', p.tickToLocation t = .ok l ∧ p'.tickToLocation t = .ok l' ∧ (t < b.startTick → l' = l) ∧
      (b.startTick ≤ t → l'.barNo = l.barNo + 1 ∧ l'.offset = min l.offset (t - b.startTick)) := by
  have e : p' = { p with bars := p.bars.add b.startTick b } := by cases hx; rfl
  have hw : WF p' := by
    have := swap_wf h {} { bars := [b] } ⟨by simpa using hb, by simp, by simp, by simp⟩
    rw [e]
    exact this
  have hp : p'.bars.Perm ((b.startTick, b) :: p.bars) := by rw [e]; exact store_add_perm _ _ _ hn
  obtain ⟨o, h1, h2⟩ := location_count h t
  obtain ⟨o', g1, g2⟩ := location_count hw t
  refine ⟨_, _, h1, g1, ?_, ?_⟩
  · intro hlt
    rw [hp.countP_eq, List.countP_cons_of_neg (by simpa using hlt)]
    congr 1
    simp only [hp.mem_iff, List.mem_cons] at g2
    rcases h2 with ⟨h2, rfl⟩ | ⟨q, hq, h3, rfl, h4⟩ <;> rcases g2 with ⟨g2, rfl⟩ | ⟨q', hq', g3, rfl, g4⟩
    · rfl
    · rcases hq' with rfl | hq'
      · simp only at g3; omega
      · have := h2 q' hq'; omega
    · have := g2 q (.inr hq); omega
    · rcases hq' with rfl | hq'
      · simp only at g3; omega
      · have a := h4 q' hq' g3
        have b := g4 q (.inr hq) h3
        omega
  · intro hle
    rw [hp.countP_eq, List.countP_cons_of_pos (by simpa using hle)]
    refine ⟨rfl, ?_⟩
    simp only [hp.mem_iff, List.mem_cons] at g2
    simp only
    rcases g2 with ⟨g2, rfl⟩ | ⟨q', hq', g3, rfl, g4⟩
    · have := g2 _ (.inl rfl); simp only at this; omega
    · have hbq := g4 _ (.inl rfl) hle
      simp only at hbq
      rcases h2 with ⟨h2, rfl⟩ | ⟨q, hq, h3, rfl, h4⟩
      · rcases hq' with rfl | hq'
        · simp only; omega
        · have := h2 q' hq'; omega
      · have b := g4 q (.inr hq) h3
        rcases hq' with rfl | hq'
        · simp only at *; omega
        · have a := h4 q' hq' g3
          omega

/-! ### Examples and refutation -/

/-- The example project with a pedal after its last bar line. -/
private def late : Project := { exampleProject with dumpers := [(2900, ⟨2900, ⟨127⟩, 0⟩)] }

private theorem late_wf : WF late :=
  ⟨exampleProject_wf.notes, exampleProject_wf.notesKeyed, exampleProject_wf.bars, exampleProject_wf.barsKeyed,
    exampleProject_wf.tempos, exampleProject_wf.temposKeyed, by simp [late, SortedStore], by simp [late, Keyed, U32_MAX],
    exampleProject_wf.softs, exampleProject_wf.softsKeyed⟩

private theorem late_completed : ∃ p' bs, late.replenishBars = .ok (p', bs) ∧ bs = [{ startTick := 2480 }, { startTick := 2960 }] := by
  have h : (late.replenishBars.map (·.2)) = .ok [{ startTick := 2480 }, { startTick := 2960 }] := by decide +kernel
  cases hc : late.replenishBars with
  | error e => rw [hc] at h; cases h
  | ok o => rw [hc] at h; exact ⟨o.1, o.2, rfl, Except.ok.inj h⟩

private theorem late_rhythm : LatestValue late.bars Bar.rhythm late.rhythm (lastBarTick late.bars) ⟨2, .D4⟩ :=
  .inr ⟨(1000, { startTick := 1000, rhythm := some ⟨2, .D4⟩ }), by decide, by decide, by decide, by decide⟩

example : ∃ p' bs, late.replenishBars = .ok (p', bs) ∧ bs ≠ [] ∧ p'.locationToTick ⟨5, 7⟩ = .ok (.ok 2967) ∧
    p'.locationToTick ⟨9, 1⟩ = late.locationToTick ⟨9, 1⟩ ∧ p'.rhythmAt 2960 = .ok ⟨2, .D4⟩ := by
  obtain ⟨p', bs, h, e⟩ := late_completed
  refine ⟨p', bs, h, by rw [e]; simp, ?_, C81_place late p' bs _ late_wf h (by decide), ?_⟩
  · rw [C81_place late p' bs _ late_wf h (by decide)]
    decide
  · rw [(C81_values late p' bs _ late_wf h).1]
    decide

example : ∃ p' bs, late.replenishBars = .ok (p', bs) ∧ p'.tickToLocation 2479 = .ok ⟨3, 479⟩ ∧ p'.tickToLocation 4000 = .ok ⟨5, 1040⟩ := by
  obtain ⟨p', bs, h, e⟩ := late_completed
  refine ⟨p', bs, h, ?_, ?_⟩
  · rw [(C81_location_partial late p' bs _ 2479 late_wf late_rhythm h).1 (by decide)]
    decide
  · rw [((C81_location_partial late p' bs _ 4000 late_wf late_rhythm h).2 (by decide)).2, e]
    decide

example : ∃ p' bs, late.replenishBars = .ok (p', bs) ∧ p'.tickToLocation 2480 ≠ late.tickToLocation 2480 := by
  obtain ⟨p', bs, h, e⟩ := late_completed
  refine ⟨p', bs, h, fun x => ?_⟩
  have := (C81_location_iff late p' bs _ 2480 late_wf late_rhythm h).1 x
  rw [e] at this
  exact absurd (this ⟨2480, none, none, {}⟩ (by decide)) (by decide)

private theorem pedal_added : ∃ p' c, exampleProject.exec (.addDumper ⟨2900, ⟨127⟩, 0⟩ true) = .ok (some (p', c)) := by
  have h : ((exampleProject.exec (.addDumper ⟨2900, ⟨127⟩, 0⟩ true)).map fun o => o.isSome) = .ok true := by decide +kernel
  cases hc : exampleProject.exec (.addDumper ⟨2900, ⟨127⟩, 0⟩ true) with
  | error e => rw [hc] at h; cases h
  | ok o =>
    cases o with
    | none => rw [hc] at h; cases h
    | some o => exact ⟨o.1, o.2, rfl⟩

example : ∃ p' c, exampleProject.exec (.addDumper ⟨2900, ⟨127⟩, 0⟩ true) = .ok (some (p', c)) ∧
    p'.locationToTick ⟨5, 7⟩ = .ok (.ok 2967) ∧ ∃ loc, exampleProject.tickToLocation 4000 = .ok loc ∧ p'.locationToTick loc = .ok (.ok 4000) := by
  obtain ⟨p', c, h⟩ := pedal_added
  have ht : EditTicks32 (.addDumper ⟨2900, ⟨127⟩, 0⟩ true) :=
    ⟨⟨by simp [introduced], by simp [introduced], by simp [introduced, U32_MAX], by simp [introduced]⟩,
      ⟨by simp [withdrawn], by simp [withdrawn], by simp [withdrawn], by simp [withdrawn]⟩⟩
  refine ⟨p', c, h, ?_, C81_noted _ p' _ c 4000 exampleProject_wf ht h rfl rfl (by intro r h; cases h) (by decide) (by decide)⟩
  rw [(C81_edit _ p' _ c exampleProject_wf ht h rfl rfl (by intro r h; cases h)).1 _ (by decide)]
  decide

example : ∃ p' c, exampleProject.exec (.addBar { startTick := 1500 } true) = .ok (some (p', c)) ∧
    ∃ l l', exampleProject.tickToLocation 1600 = .ok l ∧ p'.tickToLocation 1600 = .ok l' ∧ l = ⟨2, 600⟩ ∧ l' = ⟨3, 100⟩ := by
  obtain ⟨l, l', h1, h2, -, h3⟩ := C81_bar exampleProject _ { startTick := 1500 } true _ 1600 exampleProject_wf (by decide) (by decide) rfl
  refine ⟨_, _, rfl, l, l', h1, h2, ?_, ?_⟩
  · have : exampleProject.tickToLocation 1600 = .ok ⟨2, 600⟩ := by decide
    rw [this] at h1
    exact (Except.ok.inj h1).symm
  · have : exampleProject.tickToLocation 1600 = .ok ⟨2, 600⟩ := by decide
    rw [this] at h1
    obtain rfl := Except.ok.inj h1
    obtain ⟨g1, g2⟩ := h3 (by decide)
    obtain ⟨a, b⟩ := l'
    simp only at g1 g2
    subst g1
    subst g2
    rfl

/-- C81, negation for locations of ticks past the last bar line: they are counted from the last
bar line there is, so completing the bars changes them. -/
theorem C81_location_false : ∃ (p p' : Project) (bs : List Bar) (t : Nat), WF p ∧ p.replenishBars = .ok (p', bs) ∧
    p.tickToLocation t = .ok ⟨3, 500⟩ ∧ p'.tickToLocation t = .ok ⟨4, 20⟩ := by
  obtain ⟨p', bs, h, e⟩ := late_completed
  obtain ⟨h1, h2⟩ := (C81_location_partial late p' bs _ 2500 late_wf late_rhythm h).2 (by decide)
  refine ⟨late, p', bs, 2500, late_wf, h, ?_, ?_⟩
  · decide
  · rw [h2, e]
    decide

end Klavier
