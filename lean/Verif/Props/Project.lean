import Verif.Lemmas.Edit

/-! # C18-C24: edits, undo, redo, histories -/
set_option autoImplicit false
namespace Klavier
open Spec Project

/-! ## C18 -/

/-- C18: completing the bars.  `r` is the time signature in force at the last bar.
Either all content ends by the last bar and nothing changes, or exactly the fewest
regular bars are appended that cover it, everything else staying as it is; an end
past the last 32-bit tick panics, and a bar of length 0 (only from a hand-edited
file) makes the code loop for ever. -/
theorem C18_complete (p : Project) (h : WF p) (hv : ValidNotes p) (r : Rhythm)
    (hr : LatestValue p.bars Bar.rhythm p.rhythm (lastBarTick p.bars) r) :
    ((∃ q ∈ p.notes, ∃ l, q.2.tickLen = .ok l ∧ U32_MAX < q.1 + l) ∧ p.replenishBars = .error .overflow) ∨
    (CoveredUpTo p (lastBarTick p.bars) ∧ p.replenishBars = .ok (p, [])) ∨
    (¬ CoveredUpTo p (lastBarTick p.bars) ∧ r.tickLen = 0 ∧ p.replenishBars = .error .diverge) ∨
    ∃ k, 0 < r.tickLen ∧ 0 < k ∧ CoveredUpTo p (lastBarTick p.bars + k * r.tickLen) ∧
      (∀ j < k, ¬ CoveredUpTo p (lastBarTick p.bars + j * r.tickLen)) ∧
      (lastBarTick p.bars + k * r.tickLen ≤ U32_MAX → p.replenishBars =
        .ok ({ p with bars := p.bars ++ (regularBars (lastBarTick p.bars) r.tickLen k).map (fun b => (b.startTick, b)) },
          regularBars (lastBarTick p.bars) r.tickLen k)) ∧
      (U32_MAX < lastBarTick p.bars + k * r.tickLen → p.replenishBars = .error .overflow) :=
  replenish_spec h hv hr

example : (exampleProject.replenishBars.map fun r => r.2.length) = .ok 0 ∧
    (Project.replenishBars { exampleProject with notes := [(2900, { exampleNote with baseStartTick := 2900 })] }).map (fun r => r.1.bars.map (·.1)) =
      .ok [100, 1000, 2000, 2480, 2960, 3440] := by decide +kernel

private theorem lastBarTick_append_regular (s : List (Nat × Bar)) (L len k : Nat) (hk : 0 < k) :
    lastBarTick (s ++ (regularBars L len k).map (fun b => (b.startTick, b))) = L + k * len := by
  obtain ⟨n, rfl⟩ : ∃ n, k = n + 1 := ⟨k - 1, by omega⟩
  simp only [lastBarTick, regularBars, List.range_succ, List.map_append, List.map_cons, List.map_nil]
  rw [← List.append_assoc, List.getLast?_append]
  simp

/-- C18, after any edit that adds or changes content: bars reach the end of
everything; the bars are those present right after the edit proper (`b0`: kept
bars not replaced, and the introduced ones), unchanged, followed by the fewest
regular bars that cover the content. -/
theorem C18_edit (p p' : Project) (e : Edit) (c : ProjectCmd) (h : WF p) (ht : EditTicks32 e)
    (hc : AddsContent e = true) (he : p.exec e = .ok (some (p', c))) (hv : ValidNotes p')
    (hd : DistinctTicks (introduced e)) :
    CoveredUpTo p' (lastBarTick p'.bars) ∧
    ∃ b0 r k, (∀ q, q ∈ b0 ↔ (q.1 = q.2.startTick ∧ q.2 ∈ (introduced e).bars) ∨
        (q ∈ p.bars ∧ (∀ b ∈ (introduced e).bars, b.startTick ≠ q.1) ∧ ∀ b ∈ (withdrawn e).bars, b.startTick ≠ q.1)) ∧
      LatestValue b0 Bar.rhythm p.rhythm (lastBarTick b0) r ∧
      p'.bars = b0 ++ (regularBars (lastBarTick b0) r.tickLen k).map (fun b => (b.startTick, b)) ∧
      ∀ j < k, ¬ CoveredUpTo p' (lastBarTick b0 + j * r.tickLen) := by
  rcases exec_shape he with ⟨_, _, _, hx⟩ | ⟨_, _, _, hx⟩ | ⟨_, _, _, hx⟩ | ⟨f, A, bs, hs, _, a1, a2, a3, a4, _, hw⟩
  · simp [hc] at hx
  · simp [hc] at hx
  · simp [hc] at hx
  rcases hs with ⟨hx, -⟩ | ⟨-, hr⟩
  · simp [hc] at hx
  have hA := ticks32_of_introduced ht.introduced a1 a2 a3 a4
  have hq := swap_wf h f A hA
  have hv' : ValidNotes (p.swap f A) := by
    obtain ⟨h1, -⟩ := replenish_shape hq hr
    rw [h1] at hv
    exact hv
  have hb0 : ∀ q, q ∈ (p.swap f A).bars ↔ (q.1 = q.2.startTick ∧ q.2 ∈ (introduced e).bars) ∨
        (q ∈ p.bars ∧ (∀ b ∈ (introduced e).bars, b.startTick ≠ q.1) ∧ ∀ b ∈ (withdrawn e).bars, b.startTick ≠ q.1) := by
    rintro ⟨k, b⟩
    rw [← Store.get?_some_iff hq.bars]
    change (addItems Bar.startTick (removeItems Bar.startTick p.bars f.bars) A.bars).get? k = some b ↔ _
    rw [get?_addItems, get?_removeItems _ h.bars, a1, hw, Option.or_eq_some_iff]
    have hlast : lastWith Bar.startTick (introduced e).bars k = some b ↔ k = b.startTick ∧ b ∈ (introduced e).bars := by
      constructor
      · intro hl; exact ⟨(lastWith_some hl).2.symm, (lastWith_some hl).1⟩
      · rintro ⟨rfl, hm⟩
        exact lastWith_of_mem hd.bars hm
    rw [hlast, lastWith_none]
    refine or_congr Iff.rfl ?_
    rw [← Store.get?_some_iff h.bars]
    cases hl : lastWith Bar.startTick (withdrawn e).bars k with
    | none =>
      have := lastWith_none.1 hl
      simp only [Option.isSome_none, Bool.false_eq_true, if_false]
      exact ⟨fun ⟨x, y⟩ => ⟨y, x, this⟩, fun ⟨x, y, _⟩ => ⟨y, x⟩⟩
    | some w =>
      obtain ⟨h1, h2⟩ := lastWith_some hl
      simp only [Option.isSome_some, if_true]
      constructor
      · rintro ⟨-, h⟩; cases h
      · rintro ⟨-, -, h⟩; exact absurd h2 (h w h1)
  obtain ⟨⟨r, -, hrl⟩, -⟩ := C16_rhythm_key _ hq (lastBarTick (p.swap f A).bars)
  rcases replenish_spec hq hv' hrl with ⟨-, h2⟩ | ⟨h1, h2⟩ | ⟨-, -, h2⟩ | ⟨k, g1, g2, g3, g4, g5, g6⟩
  · rw [hr] at h2; cases h2
  · rw [hr] at h2
    cases h2
    exact ⟨h1, _, r, 0, hb0, hrl, by simp [regularBars], by simp⟩
  · rw [hr] at h2; cases h2
  · by_cases hle : lastBarTick (p.swap f A).bars + k * r.tickLen ≤ U32_MAX
    · rw [hr] at g5
      have g5 := g5 hle
      cases g5
      refine ⟨?_, _, r, k, hb0, hrl, rfl, ?_⟩
      · simp only
        rw [lastBarTick_append_regular _ _ _ _ g2]
        exact ⟨g3.notes, g3.tempos, g3.dumpers, g3.softs⟩
      · intro j hj hcov
        exact g4 j hj ⟨hcov.notes, hcov.tempos, hcov.dumpers, hcov.softs⟩
    · rw [hr] at g6
      have g6 := g6 (by omega)
      cases g6

example : (match exampleProject.exec (.addNote { exampleNote with baseStartTick := 3000 } true) with
    | .ok (some (p', _)) => p'.bars.map (·.1)
    | _ => []) = [100, 1000, 2000, 2480, 2960, 3440] := by decide +kernel

/-! ## C19, C20 -/

/-- C19: undoing a legal edit restores the project, notes as a bag. -/
theorem C19_undo (p p' : Project) (e : Edit) (c : ProjectCmd) (h : WF p) (ht : EditTicks32 e)
    (hl : Legal p e) (he : p.exec e = .ok (some (p', c))) : Same (c.undo p') p := by
  rcases exec_shape he with ⟨r, rfl, rfl, _⟩ | ⟨r, rfl, rfl, _⟩ | ⟨r, rfl, rfl, _⟩ |
    ⟨f, A, bs, hs, rfl, a1, a2, a3, a4, hL, _⟩
  · exact Same.refl p
  · exact Same.refl p
  · exact Same.refl p
  · have hA := ticks32_of_introduced ht.introduced a1 a2 a3 a4
    obtain ⟨rfl, hbs⟩ := shape_final h hA hs
    obtain ⟨hf, hd⟩ := hL hl
    exact undo_items h bs hf hd (fun b hb => (hbs b hb).2)

example : ∃ p' c, exampleProject.exec (.addTempo ⟨20, ⟨90⟩⟩ true) = .ok (some (p', c)) ∧ p'.tempos = [(10, ⟨10, ⟨100⟩⟩), (20, ⟨20, ⟨90⟩⟩)] ∧
    Same (c.undo p') exampleProject :=
  ⟨_, _, rfl, rfl, C19_undo _ _ (.addTempo ⟨20, ⟨90⟩⟩ true) _ exampleProject_wf
    ⟨⟨by simp [introduced], by simp [introduced, U32_MAX], by simp [introduced], by simp [introduced]⟩,
      ⟨by simp [withdrawn], by simp [withdrawn], by simp [withdrawn], by simp [withdrawn]⟩⟩ trivial rfl⟩

/-- C20: re-executing the recorded command gives exactly the edited project, for
every edit, legal or not. -/
theorem C20_redo (p p' : Project) (e : Edit) (c : ProjectCmd) (h : WF p) (ht : EditTicks32 e)
    (he : p.exec e = .ok (some (p', c))) : c.redo p = p' := by
  rcases exec_shape he with ⟨r, rfl, rfl, _⟩ | ⟨r, rfl, rfl, _⟩ | ⟨r, rfl, rfl, _⟩ |
    ⟨f, A, bs, hs, rfl, a1, a2, a3, a4, _, _⟩
  · rfl
  · rfl
  · rfl
  · have hA := ticks32_of_introduced ht.introduced a1 a2 a3 a4
    obtain ⟨rfl, -⟩ := shape_final h hA hs
    exact redo_items h bs hA

example : ∃ p' c, exampleProject.exec (.addTempo ⟨20, ⟨90⟩⟩ true) = .ok (some (p', c)) ∧ c.redo exampleProject = p' ∧
    (c.redo exampleProject).tempos = [(10, ⟨10, ⟨100⟩⟩), (20, ⟨20, ⟨90⟩⟩)] := ⟨_, _, rfl, rfl, rfl⟩

/-- C20: undo followed by redo, and redo followed by undo, cancel out. -/
theorem C20_undo_redo (p p' : Project) (e : Edit) (c : ProjectCmd) (h : WF p) (ht : EditTicks32 e)
    (hl : Legal p e) (he : p.exec e = .ok (some (p', c))) : Same (c.redo (c.undo p')) p' := by
  have h1 := same_redo (C19_undo p p' e c h ht hl he) c
  rw [C20_redo p p' e c h ht he] at h1
  exact h1

example : ∃ p' c, exampleProject.exec (.setKey ⟨-3⟩) = .ok (some (p', c)) ∧ (c.undo p').key = ⟨0⟩ ∧ (c.redo (c.undo p')).key = ⟨-3⟩ :=
  ⟨_, _, rfl, rfl, rfl⟩

/-! ## C22 -/

private theorem recorded_ticks {p : Project} (h : WF p) {f A : Models} (hf : Ticks32 f) (hA : Ticks32 A) :
    Ticks32 (recorded p f A) := by
  have gen : ∀ {V : Type} (tick : V → Nat) (s : Store V), Keyed tick s → ∀ (f A : List V),
      (∀ v ∈ f, tick v ≤ U32_MAX) → (∀ v ∈ A, tick v ≤ U32_MAX) →
      ∀ v ∈ f ++ oOf tick s f A, tick v ≤ U32_MAX := by
    intro V tick s hs f A hf hA v hv
    rcases List.mem_append.1 hv with hv | hv
    · exact hf v hv
    · obtain ⟨w, hw, he⟩ := oOf_keys tick hs f A hA v hv
      rw [← he]; exact hA w hw
  exact ⟨gen _ _ h.barsKeyed _ _ hf.bars hA.bars, gen _ _ h.temposKeyed _ _ hf.tempos hA.tempos,
    gen _ _ h.dumpersKeyed _ _ hf.dumpers hA.dumpers, gen _ _ h.softsKeyed _ _ hf.softs hA.softs⟩

/-- The ticks recorded in a command are 32-bit numbers. -/
def CmdTicks32 : ProjectCmd → Prop
  | .modelChanged a r _ => Ticks32 a ∧ Ticks32 r
  | _ => True

private theorem wf_undo {p : Project} {c : ProjectCmd} (h : WF p) (hc : CmdTicks32 c) : WF (c.undo p) := by
  cases c with
  | setRhythm => exact { h with }
  | setKey => exact { h with }
  | setGrid => exact { h with }
  | modelChanged a r _ => exact swap_wf h a r hc.2

private theorem wf_redo {p : Project} {c : ProjectCmd} (h : WF p) (hc : CmdTicks32 c) : WF (c.redo p) := by
  cases c with
  | setRhythm => exact { h with }
  | setKey => exact { h with }
  | setGrid => exact { h with }
  | modelChanged a r _ => exact swap_wf h r a hc.1

private theorem exec_ticks {p p' : Project} {e : Edit} {c : ProjectCmd} (h : WF p) (ht : EditTicks32 e)
    (he : p.exec e = .ok (some (p', c))) : CmdTicks32 c := by
  rcases exec_shape he with ⟨r, rfl, rfl, _⟩ | ⟨r, rfl, rfl, _⟩ | ⟨r, rfl, rfl, _⟩ |
    ⟨f, A, bs, hs, rfl, a1, a2, a3, a4, _, w⟩
  · trivial
  · trivial
  · trivial
  · have hA := ticks32_of_introduced ht.introduced a1 a2 a3 a4
    obtain ⟨-, hbs⟩ := shape_final h hA hs
    refine ⟨⟨?_, hA.tempos, hA.dumpers, hA.softs⟩, recorded_ticks h (by rw [w]; exact ht.withdrawn) hA⟩
    intro b hb
    rcases List.mem_append.1 hb with hb | hb
    · exact hA.bars b hb
    · exact (hbs b hb).1

/-- C22: one edit keeps all stores in order. -/
theorem C22_edit (p p' : Project) (e : Edit) (c : ProjectCmd) (h : WF p) (ht : EditTicks32 e)
    (he : p.exec e = .ok (some (p', c))) : WF p' := by
  rw [← C20_redo p p' e c h ht he]
  exact wf_redo h (exec_ticks h ht he)

example : ∃ p' c, exampleProject.exec (.addBar { startTick := 500 } false) = .ok (some (p', c)) ∧ p'.bars.map (·.1) = [100, 500, 1000, 2000] :=
  ⟨_, _, rfl, rfl⟩

/-- C22: in every session, whatever edits, undos and redos are made (legal or
not), all stores stay in order. -/
theorem C22_sessions (base : Project) (h : WF base) (s : Session) (hs : Reach (fun _ _ => True) base s) :
    WF s.cur := by
  have : WF s.cur ∧ ∀ c ∈ s.log, CmdTicks32 c := by
    induction hs with
    | start => exact ⟨h, by simp [Session.start]⟩
    | @edit s s' e _ ht _ hst ih =>
      simp only [Session.step, R_bind_eq_ok] at hst
      obtain ⟨o, h1, h2⟩ := hst
      cases o with
      | none => cases h2; exact ih
      | some x =>
        obtain ⟨p', c⟩ := x
        cases h2
        refine ⟨C22_edit _ _ e c ih.1 ht h1, ?_⟩
        intro d hd
        rcases List.mem_append.1 hd with hd | hd
        · exact ih.2 d (List.mem_of_mem_take hd)
        · rw [List.mem_singleton] at hd
          subst hd
          exact exec_ticks ih.1 ht h1
    | undo _ hst ih =>
      simp only [Session.step] at hst
      split at hst
      · cases hst; exact ih
      · split at hst
        · next c hc =>
          cases hst
          exact ⟨wf_undo ih.1 (ih.2 c (List.mem_of_getElem? hc)), ih.2⟩
        · cases hst; exact ih
    | redo _ hst ih =>
      simp only [Session.step] at hst
      split at hst
      · next c hc =>
        cases hst
        exact ⟨wf_redo ih.1 (ih.2 c (List.mem_of_getElem? hc)), ih.2⟩
      · cases hst; exact ih
  exact this.1

example : ∃ s, Reach (fun _ _ => True) exampleProject s ∧ s.cur.bars.map (·.1) = [100, 500, 1000, 2000] := by
  refine ⟨_, .edit .start (e := .addBar { startTick := 500 } false) ?_ trivial rfl, rfl⟩
  exact ⟨⟨by simp [introduced, U32_MAX], by simp [introduced], by simp [introduced], by simp [introduced]⟩,
    ⟨by simp [withdrawn], by simp [withdrawn], by simp [withdrawn], by simp [withdrawn]⟩⟩

/-- C22: the project a program starts with is in order. -/
theorem C22_default : WF Project.default where
  notes := List.Pairwise.nil
  notesKeyed := by intro p hp; cases hp
  bars := List.Pairwise.nil
  barsKeyed := by intro p hp; cases hp
  tempos := List.Pairwise.nil
  temposKeyed := by intro p hp; cases hp
  dumpers := List.Pairwise.nil
  dumpersKeyed := by intro p hp; cases hp
  softs := List.Pairwise.nil
  softsKeyed := by intro p hp; cases hp

example : Project.default.rhythm = ⟨4, .D4⟩ ∧ Project.default.notes = [] := ⟨rfl, rfl⟩

/-- C22: it is empty, in 4/4 without sharps or flats, with a grid of a 16th (60 ticks). -/
theorem C22_default_values (q : Project) : q = Project.default ↔ q.rhythm.numerator = 4 ∧ q.rhythm.denominator.value = 4 ∧
    q.key = .NONE ∧ q.grid.value * 4 = 240 ∧ q.notes = [] ∧ q.bars = [] ∧ q.tempos = [] ∧ q.dumpers = [] ∧ q.softs = [] := by
  constructor
  · rintro rfl; decide
  · rintro ⟨h1, h2, h3, h4, h5, h6, h7, h8, h9⟩
    obtain ⟨⟨n, d⟩, k, ⟨g⟩, a, b, c, e, f⟩ := q
    simp only at h1 h2 h3 h4 h5 h6 h7 h8 h9
    obtain rfl : g = 60 := by omega
    subst h1 h3 h5 h6 h7 h8 h9
    cases d <;> first | rfl | exact absurd h2 (by decide)

example : Project.default.grid = ⟨60⟩ ∧ Project.default.bars = [] := ⟨rfl, ((C22_default_values _).1 rfl).2.2.2.2.2.1⟩

/-! ## C21 -/

/-- Every command of the log, applied at its place, can be undone. -/
private structure LogOk (s : Session) : Prop where
  wf : WF s.cur
  ticks : ∀ c ∈ s.log, CmdTicks32 c
  cursor : s.cursor ≤ s.log.length
  undoable : ∀ i c, s.log[i]? = some c →
    Same (c.undo (c.redo (replay s.base (s.log.take i)))) (replay s.base (s.log.take i))
  cur : Same s.cur (replay s.base (s.log.take s.cursor))

private theorem replay_append (p : Project) (l : List ProjectCmd) (c : ProjectCmd) :
    replay p (l ++ [c]) = c.redo (replay p l) := by simp [replay]

private theorem reach_logOk {base : Project} (h : WF base) {s : Session} (hs : Reach Legal base s) :
    LogOk s ∧ s.base = base := by
  have hb : s.base = base := by
    induction hs with
    | start => rfl
    | edit _ _ _ hst ih =>
      simp only [Session.step, R_bind_eq_ok] at hst
      obtain ⟨o, -, h2⟩ := hst
      cases o <;> cases h2 <;> exact ih
    | undo _ hst ih =>
      simp only [Session.step] at hst
      split at hst
      · cases hst; exact ih
      · split at hst <;> cases hst <;> exact ih
    | redo _ hst ih =>
      simp only [Session.step] at hst
      split at hst <;> cases hst <;> exact ih
  refine ⟨?_, hb⟩
  clear hb
  induction hs with
  | start => exact ⟨h, by simp [Session.start], by simp [Session.start], by simp [Session.start], Same.refl _⟩
  | @edit s s' e _ ht hl hst ih =>
    simp only [Session.step, R_bind_eq_ok] at hst
    obtain ⟨o, h1, h2⟩ := hst
    cases o with
    | none => cases h2; exact ih
    | some x =>
      obtain ⟨p', c⟩ := x
      cases h2
      have hredo := C20_redo _ _ e c ih.wf ht h1
      have hundo := C19_undo _ _ e c ih.wf ht hl h1
      have hlen : (s.log.take s.cursor).length = s.cursor := by
        rw [List.length_take]; have := ih.cursor; omega
      have hnew : Same p' (c.redo (replay s.base (s.log.take s.cursor))) := by
        rw [← hredo]; exact same_redo ih.cur c
      refine ⟨C22_edit _ _ e c ih.wf ht h1, ?_, ?_, ?_, ?_⟩
      · intro d hd
        rcases List.mem_append.1 hd with hd | hd
        · exact ih.ticks d (List.mem_of_mem_take hd)
        · rw [List.mem_singleton] at hd
          subst hd
          exact exec_ticks ih.wf ht h1
      · simp only [List.length_append, hlen, List.length_singleton]; omega
      · intro i d hd
        simp only at hd ⊢
        rcases Nat.lt_trichotomy i s.cursor with hi | hi | hi
        · rw [List.getElem?_append_left (by omega)] at hd
          rw [List.getElem?_take, if_pos hi] at hd
          rw [List.take_append_of_le_length (by omega), List.take_take, Nat.min_eq_left (by omega)]
          exact ih.undoable i d hd
        · subst hi
          rw [List.getElem?_append_right (by omega), hlen, Nat.sub_self] at hd
          simp only [List.getElem?_cons_zero, Option.some.injEq] at hd
          subst hd
          rw [List.take_append_of_le_length (by omega), List.take_take, Nat.min_self]
          exact ((same_undo hnew c).symm.trans hundo).trans ih.cur
        · rw [List.getElem?_eq_none (by simp only [List.length_append, hlen, List.length_singleton]; omega)] at hd
          cases hd
      · simp only
        rw [List.take_of_length_le (by simp only [List.length_append, hlen, List.length_singleton]; omega),
          replay_append]
        exact hnew
  | @undo s s' _ hst ih =>
    simp only [Session.step] at hst
    split at hst
    · cases hst; exact ih
    · next h0 =>
      split at hst
      · next c hc =>
        cases hst
        refine ⟨wf_undo ih.wf (ih.ticks c (List.mem_of_getElem? hc)), ih.ticks, ?_, ih.undoable, ?_⟩
        · have := ih.cursor; simp only; omega
        · simp only
          have hcur := ih.cur
          have htake : s.log.take s.cursor = s.log.take (s.cursor - 1) ++ [c] := by
            have : s.cursor = s.cursor - 1 + 1 := by omega
            conv => lhs; rw [this]
            rw [List.take_add_one, hc]; rfl
          rw [htake, replay_append] at hcur
          exact (same_undo hcur c).trans (ih.undoable _ c hc)
      · cases hst; exact ih
  | @redo s s' _ hst ih =>
    simp only [Session.step] at hst
    split at hst
    · next c hc =>
      cases hst
      obtain ⟨hlt, -⟩ := List.getElem?_eq_some_iff.1 hc
      refine ⟨wf_redo ih.wf (ih.ticks c (List.mem_of_getElem? hc)), ih.ticks, hlt, ih.undoable, ?_⟩
      simp only
      rw [List.take_add_one, hc]
      simp only [Option.toList_some]
      rw [replay_append]
      exact same_redo ih.cur c
    · cases hst; exact ih

/-- C21 (and C20 for reopening): after any interleaving of legal edits, undos and
redos the project is the one obtained by replaying the applied commands on the
base project. -/
theorem C21_prefix (base : Project) (h : WF base) (s : Session) (hs : Reach Legal base s) :
    s.cursor ≤ s.log.length ∧ Same s.cur (replay base (s.log.take s.cursor)) := by
  obtain ⟨h1, h2⟩ := reach_logOk h hs
  have := h1.cur
  rw [h2] at this
  exact ⟨h1.cursor, this⟩

example : ((Session.start exampleProject).run [.edit (.setKey ⟨-3⟩), .edit (.setKey ⟨2⟩), .undo]).map
    (fun s => (s.log.length, s.cursor, s.cur.key)) = .ok (2, 1, ⟨-3⟩) := by decide +kernel

/-- `k` times the same action. -/
private theorem run_append (s : Session) (a b : List Op) :
    s.run (a ++ b) = (do let t ← s.run a; t.run b) := by
  induction a generalizing s with
  | nil => rfl
  | cons o a ih =>
    simp only [List.cons_append, Session.run]
    cases s.step o with
    | error e => rfl
    | ok t => exact ih t

/-- C21: undoing and redoing move the cursor only, and `k` undos followed by `k`
redos change nothing. -/
theorem C21_undo_redo (base : Project) (h : WF base) (s : Session) (hs : Reach Legal base s) (k : Nat)
    (hk : k ≤ s.cursor) :
    ∃ t u, s.run (List.replicate k .undo) = .ok t ∧ t.run (List.replicate k .redo) = .ok u ∧
      t.log = s.log ∧ t.cursor = s.cursor - k ∧ Same t.cur (replay base (s.log.take (s.cursor - k))) ∧
      u.log = s.log ∧ u.cursor = s.cursor ∧ Same u.cur s.cur := by
  have hun : ∀ (k : Nat) (s : Session), Reach Legal base s → k ≤ s.cursor →
      ∃ t, s.run (List.replicate k .undo) = .ok t ∧ t.log = s.log ∧ t.cursor = s.cursor - k ∧ Reach Legal base t := by
    intro k
    induction k with
    | zero => intro s hs _; exact ⟨s, rfl, rfl, rfl, hs⟩
    | succ k ih =>
      intro s hs hk
      have hc := (C21_prefix base h s hs).1
      have hg : s.log[s.cursor - 1]? = some (s.log[s.cursor - 1]'(by omega)) := by
        rw [List.getElem?_eq_getElem]
      have hstep : s.step .undo = .ok { s with cursor := s.cursor - 1, cur := (s.log[s.cursor - 1]'(by omega)).undo s.cur } := by
        simp only [Session.step]
        rw [if_neg (by omega), hg]
      obtain ⟨t, h1, h2, h3, h4⟩ := ih _ (.undo hs hstep) (by simp only; omega)
      refine ⟨t, ?_, h2, by rw [h3]; simp only; omega, h4⟩
      simp only [List.replicate_succ, Session.run, hstep, R_bind_ok]
      exact h1
  have hre : ∀ (k : Nat) (s : Session), Reach Legal base s → s.cursor + k ≤ s.log.length →
      ∃ t, s.run (List.replicate k .redo) = .ok t ∧ t.log = s.log ∧ t.cursor = s.cursor + k ∧ Reach Legal base t := by
    intro k
    induction k with
    | zero => intro s hs _; exact ⟨s, rfl, rfl, rfl, hs⟩
    | succ k ih =>
      intro s hs hk
      have hg : s.log[s.cursor]? = some (s.log[s.cursor]'(by omega)) := by
        rw [List.getElem?_eq_getElem]
      have hstep : s.step .redo = .ok { s with cursor := s.cursor + 1, cur := (s.log[s.cursor]'(by omega)).redo s.cur } := by
        simp only [Session.step, hg]
      obtain ⟨t, h1, h2, h3, h4⟩ := ih _ (.redo hs hstep) (by simp only; omega)
      refine ⟨t, ?_, h2, by rw [h3]; simp only; omega, h4⟩
      simp only [List.replicate_succ, Session.run, hstep, R_bind_ok]
      exact h1
  have hc := (C21_prefix base h s hs).1
  obtain ⟨t, t1, t2, t3, t4⟩ := hun k s hs hk
  obtain ⟨u, u1, u2, u3, u4⟩ := hre k t t4 (by rw [t2, t3]; omega)
  have e1 := (C21_prefix base h s hs).2
  have e2 := (C21_prefix base h t t4).2
  have e3 := (C21_prefix base h u u4).2
  rw [t2, t3] at e2
  rw [u2, u3, t2, t3, show s.cursor - k + k = s.cursor by omega] at e3
  exact ⟨t, u, t1, u1, t2, t3, e2, u2.trans t2, by rw [u3, t3]; omega, e3.trans e1.symm⟩

example : ((Session.start exampleProject).run [.edit (.setKey ⟨-3⟩), .edit (.setKey ⟨2⟩), .undo, .undo, .redo, .redo]).map
    (fun s => (s.log.length, s.cursor, s.cur.key)) = .ok (2, 2, ⟨2⟩) := by decide +kernel

/-- C21: a recorded edit keeps the applied commands, appends its own and discards
the ones that could have been redone: redo then does nothing. -/
theorem C21_branch (base : Project) (h : WF base) (s s' : Session) (hs : Reach Legal base s) (e : Edit)
    (p' : Project) (c : ProjectCmd) (hx : s.cur.exec e = .ok (some (p', c))) (hst : s.step (.edit e) = .ok s') :
    s'.log = s.log.take s.cursor ++ [c] ∧ s'.cursor = s'.log.length ∧ s'.cur = p' ∧ s'.step .redo = .ok s' := by
  have hc := (C21_prefix base h s hs).1
  simp only [Session.step, hx, R_bind_ok, R_pure, Except.ok.injEq] at hst
  subst hst
  have hlen : (s.log.take s.cursor ++ [c]).length = s.cursor + 1 := by
    rw [List.length_append, List.length_take, List.length_singleton]; omega
  refine ⟨rfl, by simp only [hlen], rfl, ?_⟩
  simp only [Session.step]
  rw [List.getElem?_eq_none (by omega)]

/-- A short session: add a note, add a tempo, undo. -/
example : ∃ s, Reach Legal exampleProject s ∧ s.log.length = 2 ∧ s.cursor = 1 := by
  refine ⟨_, .undo (.edit (.edit .start (e := .addNote exampleNote false) ?_ trivial rfl)
    (e := .addTempo ⟨30, ⟨90⟩⟩ true) ?_ trivial rfl) rfl, ?_, ?_⟩
  · exact ⟨⟨by simp [introduced], by simp [introduced], by simp [introduced], by simp [introduced]⟩,
      ⟨by simp [withdrawn], by simp [withdrawn], by simp [withdrawn], by simp [withdrawn]⟩⟩
  · exact ⟨⟨by simp [introduced], by simp [introduced, U32_MAX], by simp [introduced], by simp [introduced]⟩,
      ⟨by simp [withdrawn], by simp [withdrawn], by simp [withdrawn], by simp [withdrawn]⟩⟩
  · rfl
  · rfl

/-! ## C23 -/

/-- C23 is false: deleting a tempo that is not there and undoing adds it. -/
theorem C23_stale_false : ∃ (p : Project) (e : Edit) (p' : Project) (c : ProjectCmd),
    WF p ∧ EditTicks32 e ∧ p.exec e = .ok (some (p', c)) ∧ ¬ Same (c.undo p') p := by
  refine ⟨Project.default, .bulkRemove { tempos := [⟨30, ⟨90⟩⟩] } {}, _, _, C22_default,
    ⟨⟨by simp [introduced], by simp [introduced], by simp [introduced], by simp [introduced]⟩,
      ⟨by simp [withdrawn], by simp [withdrawn, U32_MAX], by simp [withdrawn], by simp [withdrawn]⟩⟩, rfl, ?_⟩
  intro h
  exact absurd h.tempos (by decide)

/-- C23 is false: pasting two tempos at one tick and undoing
leaves the first pasted one. -/
theorem C23_duplicate_false : ∃ (p : Project) (e : Edit) (p' : Project) (c : ProjectCmd),
    WF p ∧ EditTicks32 e ∧ p.exec e = .ok (some (p', c)) ∧ ¬ Same (c.undo p') p := by
  refine ⟨Project.default, .bulkAdd { tempos := [⟨0, ⟨90⟩⟩, ⟨0, ⟨91⟩⟩] } {}, _, _, C22_default,
    ⟨⟨by simp [introduced], by simp [introduced], by simp [introduced], by simp [introduced]⟩,
      ⟨by simp [withdrawn], by simp [withdrawn], by simp [withdrawn], by simp [withdrawn]⟩⟩, rfl, ?_⟩
  intro h
  exact absurd h.tempos (by decide +kernel)

/-- C23, for a selection whose items are all in the project. -/
theorem C23_present_partial (p : Project) (m : Models) (md : Metadata) (h : WF p) (ht : Ticks32 m) (hm : Present p m) :
    ∃ p' c, p.exec (.bulkRemove m md) = .ok (some (p', c)) ∧ Same (c.undo p') p :=
  ⟨_, _, rfl, C19_undo p _ (.bulkRemove m md) _ h ⟨⟨by simp [introduced], by simp [introduced], by simp [introduced],
    by simp [introduced]⟩, ht⟩ hm rfl⟩

example : Present exampleProject { notes := [exampleNote], bars := [{ startTick := 2000 }], tempos := [⟨20, ⟨200⟩⟩] } ∧
    ∃ p' c, exampleProject.exec (.bulkRemove { notes := [exampleNote], bars := [{ startTick := 2000 }], tempos := [⟨20, ⟨200⟩⟩] } {}) =
      .ok (some (p', c)) ∧ p'.notes.length = 1 ∧ p'.bars.length = 2 ∧ (c.undo p').bars = exampleProject.bars := by
  refine ⟨⟨?_, by decide, by decide, by decide, by decide⟩, _, _, rfl, by decide +kernel, by decide +kernel, by decide +kernel⟩
  intro n
  by_cases h : n = exampleNote
  · subst h; decide +kernel
  · rw [List.count_cons_of_ne (Ne.symm h)]; exact Nat.zero_le _

private theorem stale_store {V : Type} (tick : V → Nat) {s : Store V} (hs : SortedStore s) (l : List V) (k : Nat)
    (v : V) : (k, v) ∈ addItems tick (removeItems tick (removeItems tick s l) []) l ↔
      LastAt tick l k v ∨ ((∀ w ∈ l, tick w ≠ k) ∧ (k, v) ∈ s) := by
  have h1 := sorted_removeItems tick hs l
  change (k, v) ∈ addItems tick (removeItems tick s l) l ↔ _
  rw [← Store.get?_some_iff (sorted_addItems tick h1 l), get?_addItems, get?_removeItems tick hs,
    ← lastWith_iff, ← lastWith_none, ← Store.get?_some_iff hs]
  cases lastWith tick l k <;> simp

/-- C23, the exact effect of deleting any selection and undoing it: every note of
the selection is there at least as often as it was selected and all other counts
are unchanged; each selected bar, tempo or pedal is there (the last one selected
of those at one tick), and nothing changes at ticks where nothing was selected. -/
theorem C23_stale_effect_partial (p : Project) (m : Models) (md : Metadata) (h : WF p) :
    ∃ p' c, p.exec (.bulkRemove m md) = .ok (some (p', c)) ∧
      (∀ n, ((c.undo p').notes.map (·.2)).count n = max ((p.notes.map (·.2)).count n) (m.notes.count n)) ∧
      (∀ k v, (k, v) ∈ (c.undo p').bars ↔ LastAt Bar.startTick m.bars k v ∨
        ((∀ w ∈ m.bars, w.startTick ≠ k) ∧ (k, v) ∈ p.bars)) ∧
      (∀ k v, (k, v) ∈ (c.undo p').tempos ↔ LastAt Tempo.startTick m.tempos k v ∨
        ((∀ w ∈ m.tempos, w.startTick ≠ k) ∧ (k, v) ∈ p.tempos)) ∧
      (∀ k v, (k, v) ∈ (c.undo p').dumpers ↔ LastAt CtrlChg.startTick m.dumpers k v ∨
        ((∀ w ∈ m.dumpers, w.startTick ≠ k) ∧ (k, v) ∈ p.dumpers)) ∧
      (∀ k v, (k, v) ∈ (c.undo p').softs ↔ LastAt CtrlChg.startTick m.softs k v ∨
        ((∀ w ∈ m.softs, w.startTick ≠ k) ∧ (k, v) ∈ p.softs)) ∧
      (c.undo p').rhythm = p.rhythm ∧ (c.undo p').key = p.key ∧ (c.undo p').grid = p.grid := by
  refine ⟨_, _, rfl, ?_, ?_, ?_, ?_, ?_, rfl, rfl, rfl⟩
  · intro n
    have hk : Keyed Note.startTick (addNotes (removeNotes p.notes m.notes) m.notes) :=
      (notes_swap_wf h.notes h.notesKeyed _ _).2
    have e1 := count_kv (p := { p with notes := addNotes (removeNotes p.notes m.notes) m.notes }) hk n
    simp only [ProjectCmd.undo, ProjectCmd.redo, swap]
    change (List.map (·.2) (addNotes (removeNotes p.notes m.notes) m.notes)).count n = _
    rw [← e1, count_addNotes, count_removeNotes, count_kv h.notesKeyed, count_kv_list]
    omega
  · exact fun k v => stale_store _ h.bars _ k v
  · exact fun k v => stale_store _ h.tempos _ k v
  · exact fun k v => stale_store _ h.dumpers _ k v
  · exact fun k v => stale_store _ h.softs _ k v

example : ∃ p' c, exampleProject.exec (.bulkRemove { tempos := [⟨20, ⟨90⟩⟩, ⟨20, ⟨80⟩⟩, ⟨25, ⟨70⟩⟩] } {}) = .ok (some (p', c)) ∧
    (c.undo p').tempos = [(10, ⟨10, ⟨100⟩⟩), (20, ⟨20, ⟨80⟩⟩), (25, ⟨25, ⟨70⟩⟩)] := ⟨_, _, rfl, by decide +kernel⟩

/-! ## C24 -/

private theorem import_store {V : Type} (tick : V → Nat) {s : Store V} (hs : SortedStore s) (hk : Keyed tick s) :
    addItems tick [] (s.map (·.2)) = s := by
  have hm : ∀ v ∈ s.map (·.2), (tick v, v) ∈ s := by
    intro v hv
    obtain ⟨q, hq, rfl⟩ := List.mem_map.1 hv
    rw [← (hk q hq).1]; exact hq
  apply Store.ext (sorted_addItems tick List.Pairwise.nil _) hs
  intro k
  rw [get?_addItems]
  cases hl : lastWith tick (s.map (·.2)) k with
  | some v =>
    obtain ⟨h1, h2⟩ := lastWith_some hl
    rw [Option.some_or, ← h2, Store.get?_of_mem hs (hm v h1)]
  | none =>
    rw [Option.none_or]
    symm
    change _ = none
    rw [Store.get?_eq_none_iff]
    intro q hq
    have := lastWith_none.1 hl q.2 (List.mem_map.2 ⟨q, hq, rfl⟩)
    rw [(hk q hq).1]; exact this

/-- C24: export and import give the project back. -/
theorem C24_roundtrip (p : Project) (h : WF p) : Same p.toExported.toProject p where
  rhythm := rfl
  key := rfl
  grid := rfl
  notes := by
    simp only [Project.toExported, ExportedProject.toProject]
    rw [bulkAdd_notes]
    refine (addNotes_perm _ _).trans ?_
    rw [List.append_nil, List.map_map]
    apply List.Perm.of_eq
    conv => rhs; rw [← List.map_id p.notes]
    apply List.map_congr_left
    intro q hq
    simp only [Function.comp, id]
    rw [← (h.notesKeyed q hq).1]
  bars := by simp only [Project.toExported, ExportedProject.toProject, bulkAdd_fst]; exact import_store _ h.bars h.barsKeyed
  tempos := by simp only [Project.toExported, ExportedProject.toProject, bulkAdd_fst]; exact import_store _ h.tempos h.temposKeyed
  dumpers := by simp only [Project.toExported, ExportedProject.toProject, bulkAdd_fst]; exact import_store _ h.dumpers h.dumpersKeyed
  softs := by simp only [Project.toExported, ExportedProject.toProject, bulkAdd_fst]; exact import_store _ h.softs h.softsKeyed

example : exampleProject.toExported.models.bars = [{ startTick := 100 }, { startTick := 1000, rhythm := some ⟨2, .D4⟩ }, { startTick := 2000 }] ∧
    exampleProject.toExported.toProject.bars = exampleProject.bars := by decide +kernel

/-- C24: any document is imported as a project in order. -/
theorem C24_import_wf (x : ExportedProject) (ht : Ticks32 x.models) : WF x.toProject where
  notes := by simp only [ExportedProject.toProject, bulkAdd_notes]; exact sorted_addNotes List.Pairwise.nil _
  notesKeyed := by
    simp only [ExportedProject.toProject, bulkAdd_notes]
    exact (notes_swap_wf (s := []) List.Pairwise.nil (by intro q hq; cases hq) [] _).2
  bars := by simp only [ExportedProject.toProject, bulkAdd_fst]; exact sorted_addItems _ List.Pairwise.nil _
  barsKeyed := by
    simp only [ExportedProject.toProject, bulkAdd_fst]
    exact keyed_addItems _ (by intro q hq; cases hq) _ ht.bars
  tempos := by simp only [ExportedProject.toProject, bulkAdd_fst]; exact sorted_addItems _ List.Pairwise.nil _
  temposKeyed := by
    simp only [ExportedProject.toProject, bulkAdd_fst]
    exact keyed_addItems _ (by intro q hq; cases hq) _ ht.tempos
  dumpers := by simp only [ExportedProject.toProject, bulkAdd_fst]; exact sorted_addItems _ List.Pairwise.nil _
  dumpersKeyed := by
    simp only [ExportedProject.toProject, bulkAdd_fst]
    exact keyed_addItems _ (by intro q hq; cases hq) _ ht.dumpers
  softs := by simp only [ExportedProject.toProject, bulkAdd_fst]; exact sorted_addItems _ List.Pairwise.nil _
  softsKeyed := by
    simp only [ExportedProject.toProject, bulkAdd_fst]
    exact keyed_addItems _ (by intro q hq; cases hq) _ ht.softs

example : WF (ExportedProject.toProject { exampleProject.toExported with
    models := { tempos := [⟨20, ⟨90⟩⟩, ⟨10, ⟨70⟩⟩, ⟨20, ⟨80⟩⟩] } }) :=
  C24_import_wf _ ⟨by simp, by simp [U32_MAX], by simp, by simp⟩

/-- C24: importing keeps every note; of the bars, tempos and pedals of the document at
one tick it keeps the last, and there are no others. -/
theorem C24_import (x : ExportedProject) :
    (x.toProject.notes.map (·.2)).Perm x.models.notes ∧
    (∀ k v, (k, v) ∈ x.toProject.bars ↔ LastAt Bar.startTick x.models.bars k v) ∧
    (∀ k v, (k, v) ∈ x.toProject.tempos ↔ LastAt Tempo.startTick x.models.tempos k v) ∧
    (∀ k v, (k, v) ∈ x.toProject.dumpers ↔ LastAt CtrlChg.startTick x.models.dumpers k v) ∧
    (∀ k v, (k, v) ∈ x.toProject.softs ↔ LastAt CtrlChg.startTick x.models.softs k v) ∧
    x.toProject.rhythm = x.rhythm ∧ x.toProject.key = x.key ∧ x.toProject.grid = x.grid := by
  have gen : ∀ {V : Type} (tick : V → Nat) (l : List V) (k : Nat) (v : V),
      (k, v) ∈ (Store.bulkAdd ([] : Store V) (l.map (fun v => (tick v, v)))).1 ↔ LastAt tick l k v := by
    intro V tick l k v
    rw [bulkAdd_fst, ← Store.get?_some_iff (sorted_addItems tick List.Pairwise.nil l), get?_addItems, ← lastWith_iff]
    simp [Store.get?]
  refine ⟨?_, gen _ _, gen _ _, gen _ _, gen _ _, rfl, rfl, rfl⟩
  simp only [ExportedProject.toProject, bulkAdd_notes]
  refine ((addNotes_perm _ _).map _).trans ?_
  rw [List.append_nil, List.map_map]
  apply List.Perm.of_eq
  conv => rhs; rw [← List.map_id x.models.notes]
  rfl

example : (ExportedProject.toProject { exampleProject.toExported with models := { tempos := [⟨20, ⟨90⟩⟩, ⟨10, ⟨70⟩⟩, ⟨20, ⟨80⟩⟩] } }).tempos =
    [(10, ⟨10, ⟨70⟩⟩), (20, ⟨20, ⟨80⟩⟩)] := by decide +kernel

/-- C24: importing a document, exporting it and importing the result again
changes nothing. -/
theorem C24_stable (x : ExportedProject) (ht : Ticks32 x.models) :
    Same x.toProject.toExported.toProject x.toProject := C24_roundtrip _ (C24_import_wf x ht)

example : exampleProject.toExported.models.notes.length = 2 ∧ exampleProject.toExported.models.bars.length = 3 := by
  decide +kernel

end Klavier
