import Verif.Lemmas.NoteEnd
import Verif.Spec.Queries

/-! # C13-C17: locations, effective values, end of the song -/
set_option autoImplicit false
namespace Klavier
open Spec

/-- An example project: 6/8 by default, three bars, the second with 2/4. -/
def exampleProject : Project :=
  { Project.default with
    rhythm := ⟨6, .D8⟩
    bars := [(100, { startTick := 100 }), (1000, { startTick := 1000, rhythm := some ⟨2, .D4⟩ }),
      (2000, { startTick := 2000 })]
    tempos := [(10, ⟨10, ⟨100⟩⟩), (20, ⟨20, ⟨200⟩⟩)]
    notes := [(100, exampleNote), (1200, { exampleNote with baseStartTick := 1200 })] }

theorem exampleProject_wf : WF exampleProject where
  notes := by simp [SortedBag, exampleProject]
  notesKeyed := by unfold Keyed; decide
  bars := by simp [SortedStore, exampleProject]
  barsKeyed := by unfold Keyed; decide
  tempos := by simp [SortedStore, exampleProject]
  temposKeyed := by unfold Keyed; decide
  dumpers := by simp [SortedStore, exampleProject, Project.default]
  dumpersKeyed := by unfold Keyed; decide
  softs := by simp [SortedStore, exampleProject, Project.default]
  softsKeyed := by unfold Keyed; decide

/-- C16: the tempo at a tick. -/
theorem C16_tempo (p : Project) (h : WF p) (t : Nat) :
    ∃ v, p.tempoAt t = .ok v ∧ LatestValue p.tempos (fun e => some e.value) ⟨120⟩ t v := by
  simp only [Project.tempoAt, tempoAt]
  split
  · next he =>
    rw [List.isEmpty_iff] at he
    exact ⟨_, rfl, .inl ⟨by simp [he], rfl⟩⟩
  · rcases find_split h.tempos t with ⟨i, v, h1, h2, h3⟩ | ⟨i, h1, h2, -⟩
    · obtain ⟨q, e1, e2, e3, e4⟩ := split_last h.tempos h2
      simp only [h1, idx_eq e1, R_bind_ok]
      exact ⟨_, rfl, .inr ⟨q, e2, e3, rfl, fun r hr hrt _ => e4 r hr hrt⟩⟩
    · simp only [h1]
      cases i with
      | zero =>
        refine ⟨_, rfl, .inl ⟨?_, rfl⟩⟩
        intro q hq hqt
        have := split_zero h2 q hq
        omega
      | succ i =>
        obtain ⟨q, e1, e2, e3, e4⟩ := split_last h.tempos h2
        rw [if_neg (by omega)]
        simp only [Nat.add_sub_cancel, idx_eq e1, R_bind_ok]
        exact ⟨_, rfl, .inr ⟨q, e2, e3, rfl, fun r hr hrt _ => e4 r hr hrt⟩⟩

example : exampleProject.tempoAt 9 = .ok ⟨120⟩ ∧ exampleProject.tempoAt 10 = .ok ⟨100⟩ ∧ exampleProject.tempoAt 4294967295 = .ok ⟨200⟩ := by decide

private theorem ctrl {s : Store CtrlChg} (h : SortedStore s) (t : Nat) :
    ∃ v, ctrlChgAt t s = .ok v ∧ LatestValue s (fun e => some e.velocity) ⟨0⟩ t v := by
  simp only [ctrlChgAt]
  split
  · next he =>
    rw [List.isEmpty_iff] at he
    exact ⟨_, rfl, .inl ⟨by simp [he], rfl⟩⟩
  · rcases find_split h t with ⟨i, v, h1, h2, h3⟩ | ⟨i, h1, h2, -⟩
    · obtain ⟨q, e1, e2, e3, e4⟩ := split_last h h2
      simp only [h1, idx_eq e1, R_bind_ok]
      exact ⟨_, rfl, .inr ⟨q, e2, e3, rfl, fun r hr hrt _ => e4 r hr hrt⟩⟩
    · simp only [h1]
      cases i with
      | zero =>
        refine ⟨_, rfl, .inl ⟨?_, rfl⟩⟩
        intro q hq hqt
        have := split_zero h2 q hq
        omega
      | succ i =>
        obtain ⟨q, e1, e2, e3, e4⟩ := split_last h h2
        rw [if_neg (by omega)]
        simp only [Nat.add_sub_cancel, idx_eq e1, R_bind_ok]
        exact ⟨_, rfl, .inr ⟨q, e2, e3, rfl, fun r hr hrt _ => e4 r hr hrt⟩⟩

/-- C16: damper and soft pedal at a tick. -/
theorem C16_pedals (p : Project) (h : WF p) (t : Nat) :
    (∃ v, p.dumperAt t = .ok v ∧ LatestValue p.dumpers (fun e => some e.velocity) ⟨0⟩ t v) ∧
    (∃ v, p.softAt t = .ok v ∧ LatestValue p.softs (fun e => some e.velocity) ⟨0⟩ t v) :=
  ⟨ctrl h.dumpers t, ctrl h.softs t⟩

example : (Project.dumperAt { exampleProject with dumpers := [(7, ⟨7, ⟨127⟩, 0⟩)] } 8) = .ok ⟨127⟩ ∧ exampleProject.softAt 8 = .ok ⟨0⟩ := by
  decide

/-- C16: time signature and key at a tick: bars without one are skipped. -/
theorem C16_rhythm_key (p : Project) (h : WF p) (t : Nat) :
    (∃ r, p.rhythmAt t = .ok r ∧ LatestValue p.bars Bar.rhythm p.rhythm t r) ∧
    (∃ k, p.keyAt t = .ok k ∧ LatestValue p.bars Bar.key p.key t k) := by
  have gen : ∀ {α : Type} (sel : Bar → Option α) (d : α) (n : Nat), SplitAt p.bars t n →
      ∃ a, Project.scan p.bars sel d n = .ok a ∧ LatestValue p.bars sel d t a := by
    intro α sel d n hn
    obtain ⟨a, ha, hc⟩ := scan_spec h.bars sel d n hn.1
    refine ⟨a, ha, ?_⟩
    simp only [mem_take_of_split hn] at hc
    rcases hc with ⟨h1, h2⟩ | ⟨q, ⟨hq1, hq2⟩, h1, h2⟩
    · exact .inl ⟨fun q hq hqt => h1 q ⟨hq, hqt⟩, h2⟩
    · exact .inr ⟨q, hq1, hq2, h1, fun r hr hrt hne => h2 r ⟨hr, hrt⟩ hne⟩
  simp only [Project.rhythmAt, Project.keyAt]
  rcases find_split h.bars t with ⟨i, v, h1, h2, h3⟩ | ⟨i, h1, h2, -⟩
  · simp only [h1]
    exact ⟨gen _ _ _ h2, gen _ _ _ h2⟩
  · simp only [h1]
    cases i with
    | zero =>
      have hz := split_zero h2
      refine ⟨⟨_, rfl, .inl ⟨?_, rfl⟩⟩, ⟨_, rfl, .inl ⟨?_, rfl⟩⟩⟩ <;>
      · intro q hq hqt
        have := hz q hq
        omega
    | succ i =>
      rw [if_neg (by omega), if_neg (by omega)]
      simp only [Nat.add_sub_cancel]
      exact ⟨gen _ _ _ h2, gen _ _ _ h2⟩

example : exampleProject.rhythmAt 999 = .ok ⟨6, .D8⟩ ∧ exampleProject.rhythmAt 1000 = .ok ⟨2, .D4⟩ := by decide

example : exampleProject.tempoAt 15 = .ok ⟨100⟩ ∧ exampleProject.rhythmAt 2500 = .ok ⟨2, .D4⟩ := by decide

/-! ## C13, C14, C15 -/

/-- C13: tick to location and back is the identity, for every 32-bit tick.  (A
project cannot hold 2^32 bars in practice; the bound is stated nevertheless.) -/
theorem C13_roundtrip (p : Project) (h : WF p) (hlen : p.bars.length ≤ U32_MAX) (t : Nat) (ht : t ≤ U32_MAX) :
    ∃ loc, p.tickToLocation t = .ok loc ∧ p.locationToTick loc = .ok (.ok t) := by
  obtain ⟨n, hn, hc⟩ := tickToLocation_spec h.bars h.barsKeyed t
  rcases hc with ⟨rfl, hc⟩ | ⟨m, q, rfl, hq, hqt, hc⟩
  · refine ⟨_, hc, ?_⟩
    simp only [Project.locationToTick, if_pos]
    rw [if_neg (by omega)]
  · refine ⟨_, hc, ?_⟩
    have := hn.1
    obtain ⟨a, b⟩ := q
    simp only at hqt
    simp only [Project.locationToTick]
    rw [if_neg (by omega), if_neg (by omega), if_pos hn.1]
    simp only [Nat.add_sub_cancel, idx_eq hq, R_bind_ok, addUsize]
    rw [if_pos (by simp only [USIZE_MAX, U32_MAX] at *; omega)]
    simp only [R_bind_ok, R_pure]
    rw [if_neg (by omega)]
    congr 2
    omega

example : exampleProject.tickToLocation 1999 = .ok ⟨2, 999⟩ ∧ exampleProject.locationToTick ⟨2, 999⟩ = .ok (.ok 1999) := by decide

/-- C13: the number of a bar line is its place in the project: there is one exactly if
a bar line is at its tick, and the location of that tick is the (1-based) number with
offset 0. -/
theorem C13_bar_no (p : Project) (h : WF p) (b : Bar) :
    (∀ i, p.barNo b = some i ↔ ∃ v, p.bars[i]? = some (b.startTick, v)) ∧
    (p.barNo b = none ↔ ∀ q ∈ p.bars, q.1 ≠ b.startTick) ∧
    (∀ i, p.barNo b = some i → p.tickToLocation b.startTick = .ok ⟨i + 1, 0⟩) := by
  have uniq : ∀ {i j : Nat} {v w : Bar}, p.bars[i]? = some (b.startTick, v) → p.bars[j]? = some (b.startTick, w) → i = j := by
    intro i j v w hi hj
    obtain ⟨hi, ei⟩ := List.getElem?_eq_some_iff.1 hi
    obtain ⟨hj, ej⟩ := List.getElem?_eq_some_iff.1 hj
    have hp := List.pairwise_iff_getElem.1 h.bars
    rcases Nat.lt_trichotomy i j with c | c | c
    · have := hp i j hi hj c
      rw [ei, ej] at this
      simp at this
    · exact c
    · have := hp j i hj hi c
      rw [ei, ej] at this
      simp at this
  unfold Project.barNo
  rcases find_split h.bars b.startTick with ⟨i, v, h1, _, h3⟩ | ⟨i, h1, _, h3⟩
  · simp only [h1, Option.some.injEq]
    refine ⟨?_, ?_, ?_⟩
    · intro j
      constructor
      · rintro rfl; exact ⟨v, h3⟩
      · rintro ⟨w, hw⟩; exact uniq h3 hw
    · constructor
      · intro c; cases c
      · intro c; exact absurd rfl (c _ (List.mem_of_getElem? h3))
    · rintro j rfl
      have : p.bars.length ≠ 0 := by
        intro c
        rw [List.length_eq_zero_iff] at c
        simp [c] at h3
      simp only [Project.tickToLocation, h1, if_neg this]
  · simp only [h1]
    refine ⟨?_, ?_, by intro i c; cases c⟩
    · intro j
      constructor
      · intro c; cases c
      · rintro ⟨w, hw⟩; exact absurd rfl (h3 _ (List.mem_of_getElem? hw))
    · exact ⟨fun _ => h3, fun _ => trivial⟩

example : exampleProject.barNo { startTick := 1000 } = some 1 ∧ exampleProject.barNo { startTick := 1001 } = none ∧
    exampleProject.tickToLocation 1000 = .ok ⟨2, 0⟩ := by decide

/-- C14: locations respect time order, and the offset is measured from a bar
start and stays before the next bar. -/
theorem C14_order (p : Project) (h : WF p) (t u : Nat) :
    ∃ l m, p.tickToLocation t = .ok l ∧ p.tickToLocation u = .ok m ∧ (t < u ↔ Before l m) ∧
      t = (if l.barNo = 0 then 0 else ((p.bars[l.barNo - 1]?.map (·.1)).getD 0)) + l.offset ∧
      l.barNo ≤ p.bars.length ∧
      (∀ q, p.bars[l.barNo]? = some q → t < q.1) := by
  obtain ⟨n, hn, hc⟩ := tickToLocation_spec h.bars h.barsKeyed t
  obtain ⟨m, hm, hd⟩ := tickToLocation_spec h.bars h.barsKeyed u
  have next : ∀ {n t q}, SplitAt p.bars t n → p.bars[n]? = some q → t < q.1 := by
    intro n t q hs hq
    have := splitAt_get hs n q hq
    omega
  have cmp : ∀ {n m t u}, SplitAt p.bars t n → SplitAt p.bars u m → t ≤ u → n ≤ m := by
    intro n m t u h1 h2 htu
    apply Decidable.byContradiction
    intro hlt
    have hm1 : m < p.bars.length := by have := h1.1; omega
    have a := (splitAt_get h1 m p.bars[m] (by simp [hm1])).1 (by omega)
    have b := (splitAt_get h2 m p.bars[m] (by simp [hm1]))
    omega
  rcases hc with ⟨rfl, hc⟩ | ⟨i, q, rfl, hq, hqt, hc⟩ <;>
    rcases hd with ⟨rfl, hd⟩ | ⟨j, r, rfl, hr, hru, hd⟩
  · refine ⟨_, _, hc, hd, ?_, by simp, by simp, fun q hq => next hn hq⟩
    simp [Before]
  · refine ⟨_, _, hc, hd, ?_, by simp, by simp, fun q hq => next hn hq⟩
    simp only [Before]
    constructor
    · intro _; left; omega
    · intro _
      apply Decidable.byContradiction
      intro hge
      have := cmp hm hn (by omega)
      omega
  · refine ⟨_, _, hc, hd, ?_, by simp [hq]; omega, hn.1, fun q hq => next hn hq⟩
    simp only [Before]
    constructor
    · intro hlt
      have := cmp hn hm (by omega)
      omega
    · omega
  · refine ⟨_, _, hc, hd, ?_, by simp [hq]; omega, hn.1, fun q hq => next hn hq⟩
    simp only [Before]
    constructor
    · intro hlt
      have hle := cmp hn hm (Nat.le_of_lt hlt)
      rcases Nat.lt_or_ge (i + 1) (j + 1) with hij | hij
      · exact .inl hij
      · right
        obtain rfl : i = j := by omega
        rw [hq] at hr
        cases hr
        exact ⟨rfl, by omega⟩
    · intro hb
      apply Decidable.byContradiction
      intro hge
      have hle := cmp hm hn (by omega)
      rcases hb with hb | ⟨hb1, hb2⟩
      · omega
      · obtain rfl : i = j := by omega
        rw [hq] at hr
        cases hr
        omega

example : exampleProject.tickToLocation 99 = .ok ⟨0, 99⟩ ∧ exampleProject.tickToLocation 100 = .ok ⟨1, 0⟩ ∧ Before ⟨0, 99⟩ ⟨1, 0⟩ :=
  ⟨by decide, by decide, .inl (by decide)⟩

/-- The effective value at a tick is unique. -/
theorem latestValue_unique {V α : Type} {s : List (Nat × V)} (hs : SortedStore s) {sel : V → Option α} {d : α}
    {t : Nat} {a b : α} (ha : LatestValue s sel d t a) (hb : LatestValue s sel d t b) : a = b := by
  rcases ha with ⟨h1, rfl⟩ | ⟨q, hq, hqt, hqs, hqm⟩ <;> rcases hb with ⟨h2, rfl⟩ | ⟨r, hr, hrt, hrs, hrm⟩
  · rfl
  · rw [h1 r hr hrt] at hrs; cases hrs
  · rw [h2 q hq hqt] at hqs; cases hqs
  · have e1 := hqm r hr hrt (by rw [hrs]; simp)
    have e2 := hrm q hq hqt (by rw [hqs]; simp)
    obtain ⟨k, v⟩ := q
    obtain ⟨k', v'⟩ := r
    obtain rfl : k = k' := Nat.le_antisymm e2 e1
    have := Store.get?_of_mem hs hq
    rw [Store.get?_of_mem hs hr] at this
    cases this
    rw [hqs] at hrs
    exact Option.some.inj hrs

/-- C15 (partial: false for offsets near 2^64, see `C15_overflow_false`): as long
as the exact tick fits a 64-bit word, the result is that tick, or the overflow
error exactly when it (or the bar number) exceeds 32 bits.  Past the last bar the
time signature in force there, `r`, goes on. -/
theorem C15_exact_partial (p : Project) (h : WF p) (loc : Location) (r : Rhythm)
    (hr : LatestValue p.bars Bar.rhythm p.rhythm (lastBarTick p.bars) r)
    (hu : barStart p.bars r.tickLen loc.barNo + loc.offset ≤ USIZE_MAX) :
    p.locationToTick loc =
      .ok (if U32_MAX < loc.barNo ∨ U32_MAX < barStart p.bars r.tickLen loc.barNo + loc.offset
        then .error .overflow else .ok (barStart p.bars r.tickLen loc.barNo + loc.offset)) := by
  have hra : p.rhythmAt (lastBarTick p.bars) = .ok r := by
    obtain ⟨⟨r', h1, h2⟩, -⟩ := C16_rhythm_key p h (lastBarTick p.bars)
    rw [h1, latestValue_unique h.bars h2 hr]
  obtain ⟨bn, off⟩ := loc
  simp only at hu ⊢
  generalize hS : barStart p.bars r.tickLen bn = S at *
  have fin : ∀ x, x = S + off → ¬ U32_MAX < bn →
      (Except.ok (if U32_MAX < x then Except.error LocationError.overflow else .ok x) : R (Except LocationError Nat)) =
      .ok (if U32_MAX < bn ∨ U32_MAX < S + off then .error .overflow else .ok (S + off)) := by
    rintro x rfl hb
    by_cases hx : U32_MAX < S + off
    · rw [if_pos hx, if_pos (.inr hx)]
    · rw [if_neg hx, if_neg (by omega)]
  simp only [Project.locationToTick]
  by_cases h0 : bn = 0
  · subst h0
    have : barStart p.bars r.tickLen 0 = 0 := by cases p.bars <;> rfl
    rw [if_pos rfl]
    exact fin _ (by omega) (by omega)
  · rw [if_neg h0]
    by_cases h1 : U32_MAX < bn
    · rw [if_pos h1, if_pos (.inl h1)]
    · rw [if_neg h1]
      obtain ⟨n, rfl⟩ : ∃ n, bn = n + 1 := ⟨bn - 1, by omega⟩
      cases hb : p.bars with
      | nil =>
        rw [hb] at hS hr
        have hrr : r = p.rhythm := by
          rcases hr with ⟨-, hr⟩ | ⟨q, hq, -⟩
          · exact hr
          · simp at hq
        simp only [barStart] at hS
        simp only [List.length_nil]
        rw [if_neg (by omega)]
        have hlast : p.lastBar = none := by simp [Project.lastBar, hb, Store.peekLast]
        simp only [hlast, mulUsize, addUsize]
        rw [← hrr, hS, if_pos (by omega)]
        simp only [R_bind_ok]
        rw [if_pos (by omega)]
        simp only [R_bind_ok, R_pure]
        exact fin _ rfl h1
      | cons b bs =>
        rw [hb] at hS
        simp only [barStart] at hS
        by_cases hle : n + 1 ≤ (b :: bs).length
        · rw [if_pos hle]
          rw [if_pos (by omega)] at hS
          have hget : (b :: bs)[n]? = some (b :: bs)[n] := by
            rw [List.getElem?_eq_getElem (by omega)]
          rw [hget] at hS
          simp only [Option.getD_some] at hS
          simp only [Nat.add_sub_cancel, idx_eq hget, R_bind_ok, addUsize, hS]
          rw [if_pos hu]
          simp only [R_bind_ok, R_pure]
          exact fin _ rfl h1
        · rw [if_neg hle]
          rw [if_neg (by omega)] at hS
          obtain ⟨z, hz⟩ : ∃ z, (b :: bs).getLast? = some z := by
            cases hg : (b :: bs).getLast? with
            | none => simp at hg
            | some z => exact ⟨z, rfl⟩
          have hzm : z ∈ p.bars := by rw [hb]; exact List.mem_of_getLast? hz
          have hzk := (h.barsKeyed z hzm).1
          have hlast : p.lastBar = some ((b :: bs).length - 1, z.2) := by
            simp only [Project.lastBar, Store.peekLast, hb, hz]
          have hlt : lastBarTick p.bars = z.1 := by simp only [lastBarTick, hb, hz]; rfl
          rw [hlt] at hra
          rw [hz] at hS
          simp only [Option.getD_some] at hS
          simp only [hlast, ← hzk, hra, R_bind_ok, subU32]
          rw [if_pos (by omega)]
          simp only [R_bind_ok]
          have hpos : 0 < (b :: bs).length := by simp
          rw [if_pos (by omega)]
          simp only [R_bind_ok, mulUsize, addUsize]
          have e : n + 1 - ((b :: bs).length - 1) - 1 = n + 1 - (b :: bs).length := by omega
          rw [e]
          generalize (n + 1 - (b :: bs).length) * r.tickLen = x at *
          rw [if_pos (by omega)]
          simp only [R_bind_ok]
          rw [if_pos (by omega)]
          simp only [R_bind_ok]
          rw [if_pos (by omega)]
          simp only [R_bind_ok, R_pure]
          exact fin _ (by omega) h1

example : exampleProject.locationToTick ⟨0, 4294967296⟩ = .ok (.error .overflow) ∧
    exampleProject.locationToTick ⟨1, 4294967195⟩ = .ok (.ok 4294967295) := by decide

/-- C15, the result for every location: the overflow error if the bar number exceeds
32 bits; otherwise a panic if the exact tick does not fit a 64-bit word, the overflow
error if it does not fit 32 bits, and else that tick.  Past the last bar the time
signature in force there, `r`, goes on. -/
theorem C15_all (p : Project) (h : WF p) (loc : Location) (r : Rhythm)
    (hr : LatestValue p.bars Bar.rhythm p.rhythm (lastBarTick p.bars) r) (ho : loc.offset ≤ USIZE_MAX) :
    let tick := barStart p.bars r.tickLen loc.barNo + loc.offset
    p.locationToTick loc =
      if U32_MAX < loc.barNo then .ok (.error .overflow)
      else if USIZE_MAX < tick then .error .overflow
      else .ok (if U32_MAX < tick then .error .overflow else .ok tick) := by
  intro tick
  by_cases h1 : U32_MAX < loc.barNo
  · rw [if_pos h1, Project.locationToTick, if_neg (by omega), if_pos h1]
  rw [if_neg h1]
  by_cases hu : tick ≤ USIZE_MAX
  · rw [if_neg (by omega), C15_exact_partial p h loc r hr hu]
    congr 1
    by_cases h2 : U32_MAX < tick
    · rw [if_pos (.inr h2), if_pos h2]
    · rw [if_neg (by omega), if_neg h2]
  rw [if_pos (by omega)]
  have hra : p.rhythmAt (lastBarTick p.bars) = .ok r := by
    obtain ⟨⟨r', h1, h2⟩, -⟩ := C16_rhythm_key p h (lastBarTick p.bars)
    rw [h1, latestValue_unique h.bars h2 hr]
  obtain ⟨bn, off⟩ := loc
  simp only [tick] at *
  clear tick
  generalize hS : barStart p.bars r.tickLen bn = S at *
  simp only [Project.locationToTick]
  by_cases h0 : bn = 0
  · subst h0
    have : barStart p.bars r.tickLen 0 = 0 := by cases p.bars <;> rfl
    omega
  rw [if_neg h0, if_neg h1]
  obtain ⟨n, rfl⟩ : ∃ n, bn = n + 1 := ⟨bn - 1, by omega⟩
  cases hb : p.bars with
  | nil =>
    rw [hb] at hS hr
    have hrr : r = p.rhythm := by
      rcases hr with ⟨-, hr⟩ | ⟨q, hq, -⟩
      · exact hr
      · simp at hq
    simp only [barStart] at hS
    simp only [List.length_nil]
    rw [if_neg (by omega)]
    have hlast : p.lastBar = none := by simp [Project.lastBar, hb, Store.peekLast]
    simp only [hlast, mulUsize, addUsize]
    rw [← hrr, hS]
    by_cases hx : S ≤ USIZE_MAX
    · rw [if_pos hx]
      simp only [R_bind_ok]
      rw [if_neg hu]
      rfl
    · rw [if_neg hx]
      rfl
  | cons b bs =>
    rw [hb] at hS
    simp only [barStart] at hS
    by_cases hle : n + 1 ≤ (b :: bs).length
    · rw [if_pos hle]
      rw [if_pos (by omega)] at hS
      have hget : (b :: bs)[n]? = some (b :: bs)[n] := by
        rw [List.getElem?_eq_getElem (by omega)]
      rw [hget] at hS
      simp only [Option.getD_some] at hS
      simp only [Nat.add_sub_cancel, idx_eq hget, R_bind_ok, addUsize, hS]
      rw [if_neg hu]
      rfl
    · rw [if_neg hle]
      rw [if_neg (by omega)] at hS
      obtain ⟨z, hz⟩ : ∃ z, (b :: bs).getLast? = some z := by
        cases hg : (b :: bs).getLast? with
        | none => simp at hg
        | some z => exact ⟨z, rfl⟩
      have hzm : z ∈ p.bars := by rw [hb]; exact List.mem_of_getLast? hz
      have hzk := (h.barsKeyed z hzm).1
      have hlast : p.lastBar = some ((b :: bs).length - 1, z.2) := by
        simp only [Project.lastBar, Store.peekLast, hb, hz]
      have hlt : lastBarTick p.bars = z.1 := by simp only [lastBarTick, hb, hz]; rfl
      rw [hlt] at hra
      rw [hz] at hS
      simp only [Option.getD_some] at hS
      simp only [hlast, ← hzk, hra, R_bind_ok, subU32]
      rw [if_pos (by omega)]
      simp only [R_bind_ok]
      have hpos : 0 < (b :: bs).length := by simp
      rw [if_pos (by omega)]
      simp only [R_bind_ok, mulUsize, addUsize]
      have e : n + 1 - ((b :: bs).length - 1) - 1 = n + 1 - (b :: bs).length := by omega
      rw [e]
      generalize (n + 1 - (b :: bs).length) * r.tickLen = x at *
      by_cases hx : x ≤ USIZE_MAX
      · rw [if_pos hx]
        simp only [R_bind_ok]
        by_cases hy : x + off ≤ USIZE_MAX
        · rw [if_pos hy]
          simp only [R_bind_ok]
          rw [if_neg (by omega)]
          rfl
        · rw [if_neg hy]
          rfl
      · rw [if_neg hx]
        rfl

example : exampleProject.locationToTick ⟨5, USIZE_MAX - 2959⟩ = .error .overflow ∧
    exampleProject.locationToTick ⟨5, USIZE_MAX - 2960⟩ = .ok (.error .overflow) ∧
    exampleProject.locationToTick ⟨U32_MAX + 1, USIZE_MAX⟩ = .ok (.error .overflow) ∧
    exampleProject.locationToTick ⟨0, USIZE_MAX⟩ = .ok (.error .overflow) := by decide

/-- C15, negation: with a bar at tick 100, the location 1 : 2^64-1 panics instead
of reporting overflow (and wraps to 99 without overflow checks). -/
theorem C15_overflow_false : ∃ p loc, WF p ∧ loc.offset ≤ USIZE_MAX ∧ loc.barNo ≤ USIZE_MAX ∧
    p.locationToTick loc = .error .overflow :=
  ⟨exampleProject, ⟨1, USIZE_MAX⟩, exampleProject_wf, by decide, by decide, by decide⟩

example : LatestValue exampleProject.bars Bar.rhythm exampleProject.rhythm (lastBarTick exampleProject.bars) ⟨2, .D4⟩ :=
  .inr ⟨(1000, { startTick := 1000, rhythm := some ⟨2, .D4⟩ }), by decide, by decide, by decide, by decide⟩

example : exampleProject.tickToLocation 1500 = .ok ⟨2, 500⟩ ∧
    exampleProject.locationToTick ⟨5, 7⟩ = .ok (.ok 2967) ∧
    barStart exampleProject.bars 480 5 = 2960 := by decide

/-! ## C17 -/

/-- C17: the end of the song computed from a window of notes is the maximum over
all notes; it is absent only without notes, and panics only when some note ends
after the last 32-bit tick. -/
theorem C17_max_end (p : Project) (h : WF p) (hv : ValidNotes p) :
    (p.notes = [] → p.noteMaxEndTick = .ok none) ∧
    (p.notes ≠ [] → (∀ q ∈ p.notes, ∀ l, q.2.tickLen = .ok l → q.1 + l ≤ U32_MAX) →
      ∃ m, p.noteMaxEndTick = .ok (some m) ∧
        (∀ q ∈ p.notes, ∀ l, q.2.tickLen = .ok l → q.1 + l ≤ m) ∧
        ∃ q ∈ p.notes, ∃ l, q.2.tickLen = .ok l ∧ q.1 + l = m) ∧
    ((∃ q ∈ p.notes, ∃ l, q.2.tickLen = .ok l ∧ U32_MAX < q.1 + l) →
      p.noteMaxEndTick = .error .overflow) := by
  refine ⟨?_, ?_, ?_⟩
  · intro he
    simp [Project.noteMaxEndTick, Bag.peekLast, he]
  · intro hne hfit
    obtain ⟨m, h1, h2⟩ := noteMaxEnd_ok h hv hne hfit
    exact ⟨m, h1, h2⟩
  · rintro ⟨q, hq, l, hl, hbig⟩
    exact noteMaxEnd_overflow h hv hq hl hbig

example : exampleProject.noteMaxEndTick = .ok (some 1440) := by decide +kernel

example : ValidNotes exampleProject := by
  intro q hq
  simp only [exampleProject, List.mem_cons, List.not_mem_nil, or_false] at hq
  rcases hq with rfl | rfl <;> exact ⟨⟨by decide, by decide, by decide⟩, by decide⟩

end Klavier
