import Verif.Spec.Ordinary
import Verif.Props.Edit
import Verif.Props.Tuple
import Verif.Lemmas.Portions

set_option autoImplicit false
namespace Klavier
open Spec Project

theorem ordinary_rhythm_len {r : Rhythm} (h : OrdinaryRhythm r) : 0 < r.tickLen ∧ r.tickLen ≤ 47520 := by
  obtain ⟨n, d, h⟩ := h
  have := C07_tick_len h
  omega

theorem ordinary_start {n : Note} (h : OrdinaryNote n) : n.startTick ≤ 4290131068 := by
  have h0 := h.start
  have h1 := h.trim.r0
  have h2 := h.trim.r1
  have h3 := h.trim.r2
  have h4 := h.trim.r3
  have h5 := h.trim.sum
  simp only [Note.startTick, asU32]
  split <;> omega

theorem ordinary_ticks {m : Models} (h : OrdinaryItems m) : Ticks32 m where
  bars := fun b hb => (h.bars b hb).1
  tempos := fun b hb => by have := h.tempos b hb; simp only [U32_MAX]; omega
  dumpers := fun b hb => by have := h.dumpers b hb; simp only [U32_MAX]; omega
  softs := fun b hb => by have := h.softs b hb; simp only [U32_MAX]; omega

private theorem item_swap {V : Type} (tick : V → Nat) (P : V → Prop) {s : Store V} (hs : SortedStore s) (f A : List V)
    (h1 : ∀ v ∈ s.map (·.2), P v) (h2 : ∀ v ∈ A, P v) :
    ∀ v ∈ (addItems tick (removeItems tick s f) A).map (·.2), P v := by
  intro v hv
  obtain ⟨⟨k, w⟩, hw, rfl⟩ := List.mem_map.1 hv
  rcases (mem_swap tick hs f A k w).1 hw with ⟨a, b, h, -, -⟩ | ⟨h, -⟩
  · exact h2 _ (by rw [h]; simp)
  · exact h1 _ (List.mem_map.2 ⟨_, h, rfl⟩)

theorem ordinary_swap {p : Project} (h : Ordinary p) (f : Models) {A : Models} (hA : OrdinaryItems A) :
    Ordinary (p.swap f A) where
  wf := swap_wf h.wf f A (ordinary_ticks hA)
  rhythm := h.rhythm
  items := by
    refine ⟨?_, ?_, ?_, ?_, ?_⟩
    · intro n hn
      obtain ⟨q, hq, rfl⟩ := List.mem_map.1 hn
      have := (addNotes_perm (removeNotes p.notes f.notes) A.notes).mem_iff.1 hq
      rcases List.mem_append.1 this with h' | h'
      all_goals first
        | exact h.items.notes _ (List.mem_map.2 ⟨q, (removeNotes_sublist _ _).subset h', rfl⟩)
        | (obtain ⟨m, hm, rfl⟩ := List.mem_map.1 h'; exact hA.notes m hm)
    · exact item_swap _ (fun b : Bar => b.startTick ≤ U32_MAX ∧ ∀ r, b.rhythm = some r → OrdinaryRhythm r) h.wf.bars _ _
        h.items.bars hA.bars
    · exact item_swap _ (fun b : Tempo => b.startTick ≤ 4290000000) h.wf.tempos _ _ h.items.tempos hA.tempos
    · exact item_swap _ (fun b : CtrlChg => b.startTick ≤ 4290000000) h.wf.dumpers _ _ h.items.dumpers hA.dumpers
    · exact item_swap _ (fun b : CtrlChg => b.startTick ≤ 4290000000) h.wf.softs _ _ h.items.softs hA.softs

/-! ## Tuplets -/

private theorem chord_ticks (notes : List Note) (t : Nat) : chordTicks notes t ≤ 4 * chordUnits notes t := by
  simp only [chordTicks, chordUnits]
  generalize chordAt notes t = l
  cases l with
  | nil => simp
  | cons a l =>
    have h1 : ((a :: l).map (fun n => units n.duration)).min? ≠ none := by simp
    obtain ⟨u, hu⟩ := Option.ne_none_iff_exists'.1 h1
    obtain ⟨n, hn, hnu⟩ := List.mem_map.1 (List.min?_mem hu)
    have h2 : ((a :: l).map (fun n => plainTicks n.duration)).min? ≠ none := by simp
    obtain ⟨w, hw⟩ := Option.ne_none_iff_exists'.1 h2
    have h3 : w ≤ plainTicks n.duration := (List.min?_eq_some_iff.1 hw).2 _ (List.mem_map.2 ⟨n, hn, rfl⟩)
    have h4 := Tuple.plainTicks_le n.duration
    rw [hu, hw]
    simp only [Option.getD_some]
    omega

private theorem sum_ticks (notes : List Note) (ts : List Nat) :
    (ts.map (chordTicks notes)).sum ≤ 4 * (ts.map (chordUnits notes)).sum := by
  induction ts with
  | nil => simp
  | cons t ts ih =>
    have := chord_ticks notes t
    simp only [List.map_cons, List.sum_cons]
    omega

private theorem sum_units (l : List Note) : (l.map (fun n => units n.duration)).sum ≤ l.length * 512 := by
  induction l with
  | nil => simp
  | cons n l ih =>
    have := Tuple.units_le n.duration
    simp only [List.map_cons, List.sum_cons, List.length_cons, Nat.add_mul]
    omega

private theorem inOrder_subset {notes l : List Note} (h : InOrder notes l) {n : Note} (hn : n ∈ l) : n ∈ notes := by
  have h1 : n ∈ chordAt l n.baseStartTick := List.mem_filter.2 ⟨hn, by simp⟩
  rw [h.chords] at h1
  exact (List.mem_filter.1 h1).1

private theorem inOrder_count {notes l : List Note} (h : InOrder notes l) (n : Note) : l.count n = notes.count n := by
  have key : ∀ m : List Note, (chordAt m n.baseStartTick).count n = m.count n := by
    intro m
    simp only [chordAt]
    rw [List.count_filter (by simp)]
  rw [← key l, h.chords, key]

/-- Making a tuplet of an ordinary selection succeeds, with ordinary notes. -/
theorem ordinary_tuplet {ns : List Note} (hne : ns ≠ []) (h : OrdinaryTuplet ns) (hn : ∀ n ∈ ns, OrdinaryNote n) :
    ∃ out, Tuple.tuplize ns = .ok out ∧ ∀ n ∈ out, OrdinaryNote n := by
  obtain ⟨ts, g, hts, hg, hm⟩ := h.members
  obtain ⟨h1, -, h3⟩ := C37_exact ns hne ts hts g hg (fun n hx => by have := (hn n hx).length.duration.dots; omega) h.length
    (fun n hx => by have := h.start n hx; simp only [U32_MAX]; omega)
  by_cases h2 : (ts.map (chordUnits ns)).sum / g < 2
  · exact ⟨ns, h1 h2, hn⟩
  · have h256 : 2 ≤ (ts.map (chordUnits ns)).sum / g % 256 := by
      rcases hm with hm | hm
      · exact absurd hm h2
      · exact hm
    obtain ⟨l, out, first, ho, hok, hlen, hf, -, hget⟩ := h3 (by omega) h256
    refine ⟨out, hok, ?_⟩
    intro m hm
    obtain ⟨i, hi, hmi⟩ := List.getElem_of_mem hm
    have hil : i < l.length := by omega
    have hx := hget i l[i] (List.getElem?_eq_getElem hil)
    rw [List.getElem?_eq_getElem hi, hmi] at hx
    have hmem := hn _ (inOrder_subset ho (List.getElem_mem hil))
    have hll : l.length = ns.length := (List.perm_iff_count.2 (inOrder_count ho)).length_eq
    have hf1 := h.start first hf
    have e1 := sum_ticks ns ts
    have e2 := sum_units (l.take i)
    have e3 : (l.take i).length ≤ 1000 := by
      rw [List.length_take]; have := h.length; omega
    generalize (ts.map (chordTicks ns)).sum = ticks at *
    generalize (ts.map (chordUnits ns)).sum = total at *
    generalize ((l.take i).map (fun n => units n.duration)).sum = S at *
    have e4 : ticks / (total / g) * 2 ≤ 4 * total := by
      have : ticks / (total / g) * 2 ≤ ticks / (total / g) * (total / g) := Nat.mul_le_mul_left _ (by omega)
      have := Nat.div_mul_le_self ticks (total / g)
      omega
    have e5 : ticks / (total / g) * 2 * S / total ≤ 2048000 := by
      apply Nat.div_le_of_le_mul
      have hS : S ≤ 512000 := by omega
      calc _ ≤ (4 * total) * 512000 := Nat.mul_le_mul e4 hS
        _ = total * 2048000 := by omega
    injection hx with hx
    refine ⟨⟨⟨?_, ?_, ?_⟩, ?_⟩, ?_, ?_⟩
    · rw [hx]; exact h256
    · rw [hx]; simp only; omega
    · rw [hx]; exact hmem.length.duration.dots
    · rw [hx]; exact hmem.length.rate
    · rw [hx]; simp only; omega
    · rw [hx]; exact hmem.trim

/-! ## One edit -/

theorem ordinary_valid {q : Project} (h : Ordinary q) : ValidNotes q :=
  fun x hx => (h.items.notes _ (List.mem_map.2 ⟨x, hx, rfl⟩)).length

theorem ordinary_end {q : Project} (h : Ordinary q) :
    ∀ x ∈ q.notes, ∀ l, x.2.tickLen = .ok l → x.1 + l ≤ 4290134894 := by
  intro x hx l hl
  have h1 := ordinary_start (h.items.notes _ (List.mem_map.2 ⟨x, hx, rfl⟩))
  rw [← (h.wf.notesKeyed x hx).1] at h1
  obtain ⟨w, l', -, h2, -, -, h3⟩ := C47_length x.2 (ordinary_valid h x hx)
  rw [hl] at h2
  injection h2 with h2
  omega

theorem ordinary_latest {q : Project} (h : Ordinary q) {r : Rhythm} {t : Nat} (hr : LatestValue q.bars Bar.rhythm q.rhythm t r) :
    OrdinaryRhythm r := by
  rcases hr with ⟨-, rfl⟩ | ⟨x, hx, -, hxr, -⟩
  · exact h.rhythm
  · exact (h.items.bars _ (List.mem_map.2 ⟨x, hx, rfl⟩)).2 r hxr

theorem barStart_le {bars : List (Nat × Bar)} (h : ∀ q ∈ bars, q.1 ≤ U32_MAX) (len n : Nat) :
    barStart bars len n ≤ U32_MAX + n * len := by
  unfold barStart
  split
  · omega
  · exact Nat.le_add_left _ _
  · next b bs n =>
    rw [Nat.succ_eq_add_one]
    have hb := h b (by simp)
    split
    · next hn =>
      rw [List.getElem?_eq_getElem hn, Option.getD_some]
      have := h _ (List.getElem_mem hn)
      omega
    · have h1 : ((b :: bs).getLast?.getD b).1 ≤ U32_MAX := by
        rw [List.getLast?_eq_some_getLast (by simp), Option.getD_some]
        exact h _ (List.getLast_mem _)
      have h2 := Nat.mul_le_mul_right len (show n + 1 - (b :: bs).length ≤ n + 1 by omega)
      omega

/-- Completing the bars of an ordinary project succeeds, with plain bars. -/
theorem ordinary_replenish {q : Project} (h : Ordinary q) :
    ∃ q' bs, q.replenishBars = .ok (q', bs) ∧ ∀ b ∈ bs, b.startTick ≤ U32_MAX ∧ b.rhythm = none := by
  have hv := ordinary_valid h
  have hend := ordinary_end h
  obtain ⟨r, hr⟩ := (show ∃ r, LatestValue q.bars Bar.rhythm q.rhythm (lastBarTick q.bars) r from exists_latest h.wf)
  have hrl := ordinary_rhythm_len (ordinary_latest h hr)
  have hcov : CoveredUpTo q 4290134894 := by
    refine ⟨hend, ?_, ?_, ?_⟩
    · intro x hx
      have := h.items.tempos _ (List.mem_map.2 ⟨x, hx, rfl⟩)
      rw [← (h.wf.temposKeyed x hx).1] at this; omega
    · intro x hx
      have := h.items.dumpers _ (List.mem_map.2 ⟨x, hx, rfl⟩)
      rw [← (h.wf.dumpersKeyed x hx).1] at this; omega
    · intro x hx
      have := h.items.softs _ (List.mem_map.2 ⟨x, hx, rfl⟩)
      rw [← (h.wf.softsKeyed x hx).1] at this; omega
  rcases C18_complete q h.wf hv r hr with ⟨⟨x, hx, l, hl, ho⟩, -⟩ | ⟨-, h2⟩ | ⟨-, h2, -⟩ | ⟨k, h1, h2, h3, h4, h5, -⟩
  · have := hend x hx l hl
    simp only [U32_MAX] at ho
    omega
  · exact ⟨_, _, h2, by simp⟩
  · omega
  · have hlt : lastBarTick q.bars + (k - 1) * r.tickLen < 4290134894 := by
      apply Nat.lt_of_not_le
      intro hle
      exact h4 (k - 1) (by omega) (covered_mono hle hcov)
    have hk : k * r.tickLen = (k - 1) * r.tickLen + r.tickLen := by
      obtain ⟨j, rfl⟩ : ∃ j, k = j + 1 := ⟨k - 1, by omega⟩
      rw [Nat.add_sub_cancel, Nat.add_mul, Nat.one_mul]
    have hfit : lastBarTick q.bars + k * r.tickLen ≤ U32_MAX := by simp only [U32_MAX]; omega
    refine ⟨_, _, h5 hfit, ?_⟩
    intro b hb
    simp only [regularBars, List.mem_map, List.mem_range] at hb
    obtain ⟨i, hi, rfl⟩ := hb
    refine ⟨?_, rfl⟩
    have := Nat.mul_le_mul_right r.tickLen (show i + 1 ≤ k by omega)
    simp only
    omega

/-- Recorded commands of ordinary items. -/
def OrdinaryCmd : ProjectCmd → Prop
  | .setRhythm a b => OrdinaryRhythm a ∧ OrdinaryRhythm b
  | .modelChanged a r _ => OrdinaryItems a ∧ OrdinaryItems r
  | _ => True

theorem ordinary_undo {p : Project} {c : ProjectCmd} (h : Ordinary p) (hc : OrdinaryCmd c) : Ordinary (c.undo p) := by
  cases c with
  | setRhythm a b => exact ⟨{ h.wf with }, hc.1, h.items⟩
  | setKey a b => exact ⟨{ h.wf with }, h.rhythm, h.items⟩
  | setGrid a b => exact ⟨{ h.wf with }, h.rhythm, h.items⟩
  | modelChanged a r md => exact ordinary_swap h a hc.2

theorem ordinary_redo {p : Project} {c : ProjectCmd} (h : Ordinary p) (hc : OrdinaryCmd c) : Ordinary (c.redo p) := by
  cases c with
  | setRhythm a b => exact ⟨{ h.wf with }, hc.2, h.items⟩
  | setKey a b => exact ⟨{ h.wf with }, h.rhythm, h.items⟩
  | setGrid a b => exact ⟨{ h.wf with }, h.rhythm, h.items⟩
  | modelChanged a r md => exact ordinary_swap h r hc.1

private theorem recorded_notes {p p' : Project} {e : Edit} {a r : Models} {md : Metadata}
    (h : p.exec e = .ok (some (p', .modelChanged a r md))) : NewNotes a.notes e := by
  cases e with
  | setRhythm x => simp [exec, viaCmd] at h
  | setKey x => simp [exec, viaCmd] at h
  | setGrid x => simp [exec, viaCmd] at h
  | addBar b sel =>
    simp only [exec, addBar, Except.ok.injEq, Option.some.injEq, Prod.mk.injEq, ProjectCmd.modelChanged.injEq] at h
    simp only [NewNotes, introduced, ← h.2.1]
  | bulkRemove m md =>
    simp only [exec, viaCmd, Except.ok.injEq, Option.some.injEq, Prod.mk.injEq, ProjectCmd.modelChanged.injEq] at h
    simp only [NewNotes, introduced, ← h.2.1]
  | tuplize ns =>
    simp only [exec, Project.tuplize] at h
    split at h
    · next hl =>
      simp only [R_bind_eq_ok] at h
      obtain ⟨t, h1, ⟨q, bs⟩, -, h3⟩ := h
      cases h3
      exact ⟨hl, h1⟩
    · cases h
  | addNote n sel =>
    simp only [exec, addNote, R_bind_eq_ok] at h
    obtain ⟨⟨q, d⟩, ⟨⟨q2, bs⟩, h1, h2⟩, h3⟩ := h
    cases h2; cases h3; rfl
  | addTempo n sel =>
    simp only [exec, addTempo, R_bind_eq_ok] at h
    obtain ⟨⟨q, d⟩, ⟨⟨q2, bs⟩, h1, h2⟩, h3⟩ := h
    cases h2; cases h3; rfl
  | addDumper n sel =>
    simp only [exec, addDumper, R_bind_eq_ok] at h
    obtain ⟨⟨q, d⟩, ⟨⟨q2, bs⟩, h1, h2⟩, h3⟩ := h
    cases h2; cases h3; rfl
  | addSoft n sel =>
    simp only [exec, addSoft, R_bind_eq_ok] at h
    obtain ⟨⟨q, d⟩, ⟨⟨q2, bs⟩, h1, h2⟩, h3⟩ := h
    cases h2; cases h3; rfl
  | bulkAdd m md =>
    simp only [exec, bulkAdd, R_bind_eq_ok] at h
    obtain ⟨⟨q, d⟩, ⟨⟨q2, bs⟩, h1, h2⟩, h3⟩ := h
    cases h2; cases h3; rfl
  | change m md =>
    simp only [exec, change, R_bind_eq_ok] at h
    obtain ⟨⟨q, d⟩, ⟨⟨q2, bs⟩, h1, h2⟩, h3⟩ := h
    cases h2; cases h3; rfl

/-- Each overwritten item was in the store or is one of those added. -/
private theorem overwritten {V : Type} (tick : V → Nat) (P : V → Prop) : ∀ (A : List V) (s : Store V),
    (∀ v ∈ s.map (·.2), P v) → (∀ v ∈ A, P v) →
    ∀ v ∈ (s.bulkAdd (A.map (fun v => (tick v, v)))).2.map (·.2), P v
  | [], s, _, _ => by simp [Store.bulkAdd]
  | a :: A, s, hs, hA => by
    have hadd : ∀ v ∈ (s.add (tick a) a).map (·.2), P v := by
      intro v hv
      obtain ⟨q, hq, rfl⟩ := List.mem_map.1 hv
      rcases Store.mem_add hq with rfl | hq
      · exact hA _ (by simp)
      · exact hs _ (List.mem_map.2 ⟨q, hq, rfl⟩)
    have ih := overwritten tick P A (s.add (tick a) a) hadd (fun v hv => hA v (by simp [hv]))
    intro v hv
    simp only [List.map_cons, Store.bulkAdd] at hv
    split at hv
    · next w hw =>
      simp only [List.map_cons, List.mem_cons] at hv
      rcases hv with rfl | hv
      · exact hs _ (List.mem_map.2 ⟨_, Store.mem_of_get? hw, rfl⟩)
      · exact ih v hv
    · exact ih v hv

private theorem ordinary_recorded {p : Project} (h : Ordinary p) {f A : Models} (hf : OrdinaryItems f) (hA : OrdinaryItems A) :
    OrdinaryItems (recorded p f A) := by
  have gen : ∀ {V : Type} (tick : V → Nat) (P : V → Prop) (s : Store V) (f A : List V), (∀ v ∈ s.map (·.2), P v) →
      (∀ v ∈ f, P v) → (∀ v ∈ A, P v) → ∀ v ∈ f ++ oOf tick s f A, P v := by
    intro V tick P s f A hs hf hA v hv
    rcases List.mem_append.1 hv with hv | hv
    · exact hf v hv
    · exact overwritten tick P A _ (fun v hv => by
        obtain ⟨q, hq, rfl⟩ := List.mem_map.1 hv
        exact hs _ (List.mem_map.2 ⟨q, (removeItems_sublist tick s f).subset hq, rfl⟩)) hA v hv
  exact ⟨hf.notes, gen _ (fun b : Bar => b.startTick ≤ U32_MAX ∧ ∀ r, b.rhythm = some r → OrdinaryRhythm r) _ _ _
      h.items.bars hf.bars hA.bars,
    gen _ (fun b : Tempo => b.startTick ≤ 4290000000) _ _ _ h.items.tempos hf.tempos hA.tempos,
    gen _ (fun b : CtrlChg => b.startTick ≤ 4290000000) _ _ _ h.items.dumpers hf.dumpers hA.dumpers,
    gen _ (fun b : CtrlChg => b.startTick ≤ 4290000000) _ _ _ h.items.softs hf.softs hA.softs⟩

private theorem new_notes {e : Edit} {N : List Note} (he : OrdinaryEdit e) (hN : NewNotes N e) : ∀ n ∈ N, OrdinaryNote n := by
  cases e with
  | tuplize ns =>
    obtain ⟨h1, h2⟩ := hN
    obtain ⟨out, h3, h4⟩ := ordinary_tuplet (by rintro rfl; simp at h1) (he.tuplet ns rfl) he.withdrawn.notes
    rw [h2] at h3
    injection h3 with h3
    rw [h3]; exact h4
  | _ => cases hN; exact he.introduced.notes

/-- An ordinary edit of an ordinary project succeeds, and leaves an ordinary project and an
ordinary command. -/
theorem ordinary_exec {p : Project} {e : Edit} (h : Ordinary p) (he : OrdinaryEdit e) :
    p.exec e = .ok none ∨ ∃ q c, p.exec e = .ok (some (q, c)) ∧ Ordinary q ∧ OrdinaryCmd c := by
  have ht : EditTicks32 e := ⟨ordinary_ticks he.introduced, ordinary_ticks he.withdrawn⟩
  have hok : p.exec e = .ok none ∨ ∃ q c, p.exec e = .ok (some (q, c)) := by
    by_cases hs : Setting e = true
    · right
      cases e <;> first | exact ⟨_, _, rfl⟩ | simp [Setting] at hs
    · by_cases hr : p.exec e = .ok none
      · exact .inl hr
      right
      have hN : ∃ N, NewNotes N e := by
        cases e with
        | tuplize ns =>
          have hl : 1 < ns.length := by
            apply Nat.lt_of_not_le
            intro hl
            exact hr ((C65_refused p _).2 ⟨ns, rfl, by omega⟩)
          obtain ⟨out, h3, -⟩ := ordinary_tuplet (by rintro rfl; simp at hl) (he.tuplet ns rfl) he.withdrawn.notes
          exact ⟨out, hl, h3⟩
        | _ => exact ⟨_, rfl⟩
      obtain ⟨N, hN⟩ := hN
      obtain ⟨e1, e2⟩ := exec_eq p e N hN (by simpa using hs)
      by_cases hc : AddsContent e = true
      · obtain ⟨c, hx⟩ := e2 hc
        have hA : OrdinaryItems { introduced e with notes := N } := { he.introduced with notes := new_notes he hN }
        obtain ⟨q', bs, hq, -⟩ := ordinary_replenish (ordinary_swap h (withdrawn e) hA)
        exact ⟨q', c bs, by rw [hx, hq]; rfl⟩
      · obtain ⟨c, hx⟩ := e1 (by simpa using hc)
        exact ⟨_, c, hx⟩
  rcases hok with hok | ⟨q, c, hok⟩
  · exact .inl hok
  right
  refine ⟨q, c, hok, ?_⟩
  have hc : OrdinaryCmd c := by
    rcases exec_shape hok with ⟨r, rfl, rfl, hx⟩ | ⟨r, rfl, rfl, hx⟩ | ⟨r, rfl, rfl, hx⟩ |
      ⟨f, A, bs, hs, rfl, a1, a2, a3, a4, -, rfl⟩
    · have : e = .setRhythm r := by
        cases e with
        | setRhythm x => simp only [exec, viaCmd, Except.ok.injEq, Option.some.injEq, Prod.mk.injEq, ProjectCmd.setRhythm.injEq] at hok; rw [hok.2.2]
        | setKey x => simp [exec, viaCmd] at hok
        | setGrid x => simp [exec, viaCmd] at hok
        | addBar b sel => simp [exec, addBar] at hok
        | bulkRemove b sel => simp [exec, viaCmd] at hok
        | _ => simp [AddsContent] at hx
      exact ⟨h.rhythm, he.rhythm r this⟩
    · trivial
    · trivial
    · have hNN := new_notes he (recorded_notes hok)
      have hA : OrdinaryItems A := ⟨hNN, by rw [a1]; exact he.introduced.bars, by rw [a2]; exact he.introduced.tempos,
        by rw [a3]; exact he.introduced.dumpers, by rw [a4]; exact he.introduced.softs⟩
      refine ⟨{ hA with bars := ?_ }, ordinary_recorded h he.withdrawn hA⟩
      intro b hb
      rcases List.mem_append.1 hb with hb | hb
      · exact hA.bars b hb
      · rcases hs with ⟨-, rfl, -⟩ | ⟨-, hr⟩
        · cases hb
        · obtain ⟨q', bs', hq, hbs⟩ := ordinary_replenish (ordinary_swap h (withdrawn e) hA)
          rw [hr] at hq
          injection hq with hq
          injection hq with hq1 hq2
          rw [hq2] at hb
          refine ⟨(hbs b hb).1, fun r hr => ?_⟩
          rw [(hbs b hb).2] at hr
          cases hr
  exact ⟨by rw [← C20_redo p q e c h.wf ht hok]; exact ordinary_redo h hc, hc⟩

end Klavier
