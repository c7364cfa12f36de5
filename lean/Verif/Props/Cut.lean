import Verif.Lemmas.Steps
import Verif.Lemmas.Clipboard
import Verif.Props.Pitch
import Verif.Props.Values
import Verif.Props.Clipboard
import Verif.Props.Paste
import Verif.Props.Steps
import Verif.Spec.Cut

/-! # C85: cutting and pasting is dragging -/
set_option autoImplicit false
namespace Klavier
open Spec Project

private theorem resulting_change (p : Project) (c : ModelChanges) (md : Metadata) :
    resulting (p.exec (.change c md)) = ((p.swap (changeFrom c) (changeTo c)).replenishBars).map (fun r => some r.1) := by
  simp only [exec, change, change_notes, change_store]
  have e : p.swap (changeFrom c) (changeTo c) = { p with
      notes := addNotes (removeNotes p.notes (c.notes.map (·.1))) (c.notes.map (·.2))
      bars := addItems Bar.startTick (removeItems Bar.startTick p.bars (c.bars.map (·.1))) (c.bars.map (·.2))
      tempos := addItems Tempo.startTick (removeItems Tempo.startTick p.tempos (c.tempos.map (·.1))) (c.tempos.map (·.2))
      dumpers := addItems CtrlChg.startTick (removeItems CtrlChg.startTick p.dumpers (c.dumpers.map (·.1))) (c.dumpers.map (·.2))
      softs := addItems CtrlChg.startTick (removeItems CtrlChg.startTick p.softs (c.softs.map (·.1))) (c.softs.map (·.2)) } := rfl
  rw [← e]
  cases (p.swap (changeFrom c) (changeTo c)).replenishBars <;> rfl

private theorem resulting_bulkAdd (p : Project) (m : Models) (md : Metadata) :
    resulting (p.exec (.bulkAdd m md)) = ((p.swap {} m).replenishBars).map (fun r => some r.1) := by
  have e : (p.swap {} m) = { p with
      notes := p.notes.bulkAdd (m.notes.map (fun n : Note => (n.startTick, n)))
      bars := (p.bars.bulkAdd (m.bars.map (fun b : Bar => (b.startTick, b)))).1
      tempos := (p.tempos.bulkAdd (m.tempos.map (fun b : Tempo => (b.startTick, b)))).1
      dumpers := (p.dumpers.bulkAdd (m.dumpers.map (fun b : CtrlChg => (b.startTick, b)))).1
      softs := (p.softs.bulkAdd (m.softs.map (fun b : CtrlChg => (b.startTick, b)))).1 } := by
    simp only [bulkAdd_notes, bulkAdd_fst]
    rfl
  simp only [exec, bulkAdd]
  rw [← e]
  cases (p.swap {} m).replenishBars <;> rfl

private theorem note_dragged {d : Int} {n m : Note} (hp : ValidPitch n.pitch) (h : n.drag d 0 = .ok m) :
    m = { n with baseStartTick := asU32 (n.baseStartTick + d) } := by
  by_cases hs : n.pitch.scoreOffset ≤ 74
  · simp only [Note.drag, C03_zero_partial hp hs, R_bind_ok, unwrapR] at h
    cases h
    rfl
  · exfalso
    by_cases hi : (n.pitch.scoreOffset : Int) + 0 ≤ I32_MAX
    · have e := (C03_shift hp 0 (by simp only [I32_MIN]; omega) hi).1 (.inr (by omega))
      simp only [Note.drag, e, R_bind_ok, unwrapR] at h
      cases h
    · have e := C03_shift_overflow (p := n.pitch) 0 (.inr (by omega))
      simp only [Note.drag, e] at h
      cases h

private theorem tempo_dragged {d : Int} {n m : Tempo} (hv : n.value.value ≤ 999) (h : n.drag d 0 = .ok m) :
    m = { n with startTick := asU32 (n.startTick + d) } := by
  rw [C48_drag_all n d 0 hv (by decide), if_pos (by simp only [I32_MAX]; omega)] at h
  obtain rfl := Except.ok.inj h
  obtain ⟨t, v⟩ := n
  obtain ⟨v⟩ := v
  simp only at hv ⊢
  congr 2
  omega

private theorem pasted {m : Models} {c : ModelChanges} {tick f : Nat} (hs : SafeModels m) (hf : Earliest m.ticks f)
    (hc : DraggedBy ((tick : Int) - f) m c) : changeTo c = m.moveToTick tick := by
  have hb : ∀ t ∈ m.ticks, t ≤ U32_MAX := by
    intro t ht
    simp only [Models.ticks, List.mem_append, List.mem_map] at ht
    rcases ht with (((⟨n, hn, rfl⟩ | ⟨n, hn, rfl⟩) | ⟨n, hn, rfl⟩) | ⟨n, hn, rfl⟩) | ⟨n, hn, rfl⟩
    · exact (hs.notes n hn).tick
    · exact (hs.bars n hn).tick
    · exact (hs.tempos n hn).tick
    · exact (hs.dumpers n hn).tick
    · exact (hs.softs n hn).tick
  have to : ∀ {V : Type} {l : List (V × V)} {v : List V} (g : V → V), l.map (·.1) = v → (∀ e ∈ l, e.1 ∈ v → e.2 = g e.1) →
      l.map (·.2) = v.map g := by
    intro V l v g h1 h2
    subst h1
    rw [List.map_map]
    exact List.map_congr_left fun e he => h2 e he (List.mem_map.2 ⟨e, he, rfl⟩)
  have i1 := to (fun n : Note => { n with baseStartTick := asU32 (n.baseStartTick + ((tick : Int) - f)) }) hc.notes
    (fun e he hm => note_dragged ((valueOf_ok_iff ..).1 (hs.notes _ hm).pitch).1 (hc.notesTo e he))
  have i2 := to (fun b : Bar => { b with startTick := asU32 (b.startTick + ((tick : Int) - f)) }) hc.bars
    (fun e he _ => hc.barsTo e he)
  have i3 := to (fun b : Tempo => { b with startTick := asU32 (b.startTick + ((tick : Int) - f)) }) hc.tempos
    (fun e he hm => tempo_dragged (hs.tempos _ hm).value.2 (hc.temposTo e he))
  have i4 := to (fun b : CtrlChg => { b with startTick := asU32 (b.startTick + ((tick : Int) - f)) }) hc.dumpers
    (fun e he _ => hc.dumpersTo e he)
  have i5 := to (fun b : CtrlChg => { b with startTick := asU32 (b.startTick + ((tick : Int) - f)) }) hc.softs
    (fun e he _ => hc.softsTo e he)
  have small := Models.smallestTick_earliest m f hf hb
  unfold Models.moveToTick
  rw [small]
  simp only
  split
  · next h0 =>
    have stay : ∀ t : Nat, t ≤ 4294967295 → asU32 ((t : Int) + 0) = t := by
      intro t ht
      simp only [asU32]
      omega
    have same : ∀ {V : Type} {l : List V} (g : V → V), (∀ v ∈ l, g v = v) → l.map g = l :=
      fun g h => (List.map_congr_left h).trans (List.map_id _)
    rw [h0] at i1 i2 i3 i4 i5
    rw [same _ fun v hv => by simp only [stay _ (hs.notes v hv).tick]] at i1
    rw [same _ fun v hv => by simp only [stay _ (hs.bars v hv).tick]] at i2
    rw [same _ fun v hv => by simp only [stay _ (hs.tempos v hv).tick]] at i3
    rw [same _ fun v hv => by simp only [stay _ (hs.dumpers v hv).tick]] at i4
    rw [same _ fun v hv => by simp only [stay _ (hs.softs v hv).tick]] at i5
    simp only [changeTo, i1, i2, i3, i4, i5]
  · simp only [changeTo, i1, i2, i3, i4, i5]

/-- C85: cutting a selection and pasting it, by way of the clipboard text, so that it begins at
`tick` makes of the project what dragging the selection there makes of it: the same project, or
the same panic. -/
theorem C85_cut (over : List Char → Bool) (p p1 : Project) (m : Models) (c : ModelChanges) (e : ProjectCmd) (md md' md'' : Metadata)
    (tick f : Nat) (hs : SafeModels m) (hf : Earliest m.ticks f) (hc : DraggedBy ((tick : Int) - f) m c)
    (h : p.exec (.bulkRemove m md) = .ok (some (p1, e))) :
    ∃ m', Models.fromClipboardText over m.toClipboardText = .ok (.ok m') ∧
      resulting (p1.exec (.bulkAdd (m'.moveToTick tick) md')) = resulting (p.exec (.change c md'')) := by
  refine ⟨m, (C40_roundtrip_partial over m).2 hs, ?_⟩
  rw [resulting_bulkAdd, resulting_change, pasted hs hf hc]
  have e1 : p1 = p.swap m {} := (Prod.mk.inj (Option.some.inj (Except.ok.inj h))).1.symm
  have e2 : changeFrom c = m := by
    simp only [changeFrom, hc.notes, hc.bars, hc.tempos, hc.dumpers, hc.softs]
  rw [e1, e2]
  rfl

/-- C85: what was cut and is pasted where it was leaves the project as it was (up to the order
of notes at the same tick), but for the bars that are completed if there were too few. -/
theorem C85_back (over : List Char → Bool) (p p1 p2 : Project) (m m' : Models) (md md' : Metadata) (e e' : ProjectCmd) (f : Nat)
    (h : WF p) (hv : ValidNotes p) (hs : SafeModels m) (hf : Earliest m.ticks f)
    (hn : ∀ n, m.notes.count n ≤ (p.notes.map (·.2)).count n) (hb : ∀ b ∈ m.bars, (b.startTick, b) ∈ p.bars)
    (ht : ∀ b ∈ m.tempos, (b.startTick, b) ∈ p.tempos) (hd : ∀ b ∈ m.dumpers, (b.startTick, b) ∈ p.dumpers)
    (hss : ∀ b ∈ m.softs, (b.startTick, b) ∈ p.softs)
    (h1 : p.exec (.bulkRemove m md) = .ok (some (p1, e))) (hm : Models.fromClipboardText over m.toClipboardText = .ok (.ok m'))
    (h2 : p1.exec (.bulkAdd (m'.moveToTick f) md') = .ok (some (p2, e'))) :
    Same p2 { p with bars := p2.bars } ∧ p.bars <+: p2.bars ∧ (CoveredUpTo p (lastBarTick p.bars) → p2.bars = p.bars) := by
  obtain rfl : m = m' := by
    rw [(C40_roundtrip_partial over m).2 hs] at hm
    exact Except.ok.inj (Except.ok.inj hm)
  have stay : m.moveToTick f = m := by
    refine C39_stay m f ?_ hf
    intro t ht
    simp only [Models.ticks, List.mem_append, List.mem_map] at ht
    rcases ht with (((⟨n, hn, rfl⟩ | ⟨n, hn, rfl⟩) | ⟨n, hn, rfl⟩) | ⟨n, hn, rfl⟩) | ⟨n, hn, rfl⟩
    · exact (hs.notes n hn).tick
    · exact (hs.bars n hn).tick
    · exact (hs.tempos n hn).tick
    · exact (hs.dumpers n hn).tick
    · exact (hs.softs n hn).tick
  rw [stay] at h2
  have e1 : p1 = p.swap m {} := (Prod.mk.inj (Option.some.inj (Except.ok.inj h1))).1.symm
  obtain ⟨bs, g⟩ := (exec_bulkAdd _ _ _ _).1 ⟨e', h2⟩
  have both : ∀ {V : Type} (l : List V), (l.map (fun a => (a, a))).map (·.1) = l ∧ (l.map (fun a => (a, a))).map (·.2) = l := by
    intro V l
    simp [List.map_map, Function.comp_def]
  obtain ⟨d, k⟩ := (exec_change p p2 ⟨m.notes.map (fun a => (a, a)), m.bars.map (fun a => (a, a)), m.tempos.map (fun a => (a, a)),
      m.dumpers.map (fun a => (a, a)), m.softs.map (fun a => (a, a))⟩ {}).2 ⟨bs, by
    simp only [changeFrom, changeTo, both]
    rw [e1] at g
    exact g⟩
  exact C83_still p p2 m {} d h hv hn hb ht hd hss k

/-! ### Examples -/

/-- Both tempos of the example, and one of its notes. -/
private def part : Models := { notes := [exampleNote], tempos := [⟨10, ⟨100⟩⟩, ⟨20, ⟨200⟩⟩] }

private def partDragged (d : Int) : ModelChanges where
  notes := [(exampleNote, { exampleNote with baseStartTick := asU32 (100 + d) })]
  bars := []
  tempos := [(⟨10, ⟨100⟩⟩, ⟨asU32 (10 + d), ⟨100⟩⟩), (⟨20, ⟨200⟩⟩, ⟨asU32 (20 + d), ⟨200⟩⟩)]
  dumpers := []
  softs := []

private theorem part_safe : SafeModels part where
  notes := by
    intro n hn
    obtain rfl : n = exampleNote := by simpa [part] using hn
    exact ⟨by decide, by decide +kernel, by decide, by decide, by decide, by constructor <;> decide +kernel,
      by constructor <;> decide +kernel, by constructor <;> decide +kernel, by decide⟩
  bars := by simp [part]
  tempos := by
    intro t ht
    simp only [part, List.mem_cons, List.not_mem_nil, or_false] at ht
    rcases ht with rfl | rfl <;> exact ⟨by decide, by decide⟩
  dumpers := by simp [part]
  softs := by simp [part]

/-- Cut and pasted to tick 20, the first tempo is where the second one was. -/
example : ∃ p1 e m', exampleProject.exec (.bulkRemove part {}) = .ok (some (p1, e)) ∧
    Models.fromClipboardText (fun _ => false) part.toClipboardText = .ok (.ok m') ∧
    (resulting (p1.exec (.bulkAdd (m'.moveToTick 20) {}))).map (fun o => o.map fun q => (q.notes.map (·.1), q.tempos.map (·.1))) =
      .ok (some ([110, 1200], [20, 30])) := by
  obtain ⟨m', h1, h2⟩ := C85_cut (fun _ => false) exampleProject _ part (partDragged 10) _ {} {} {} 20 10 part_safe
    (by unfold Earliest; decide) ⟨rfl, rfl, rfl, rfl, rfl, by decide +kernel, by decide, by decide +kernel, by decide, by decide⟩ rfl
  refine ⟨_, _, m', rfl, h1, ?_⟩
  rw [h2]
  decide +kernel

/-- Pasted where it was. -/
example : ∃ p1 e m', exampleProject.exec (.bulkRemove part {}) = .ok (some (p1, e)) ∧
    Models.fromClipboardText (fun _ => false) part.toClipboardText = .ok (.ok m') ∧
    ∀ p2 e', p1.exec (.bulkAdd (m'.moveToTick 10) {}) = .ok (some (p2, e')) → p2.tempos = exampleProject.tempos := by
  refine ⟨_, _, part, rfl, (C40_roundtrip_partial _ part).2 part_safe, ?_⟩
  intro p2 e' h
  have hv : ValidNotes exampleProject := by
    intro q hq
    simp only [exampleProject, List.mem_cons, List.not_mem_nil, or_false] at hq
    rcases hq with rfl | rfl <;> exact ⟨⟨by decide, by decide, by decide⟩, by decide⟩
  exact (C85_back (fun _ => false) exampleProject _ p2 part part {} {} _ e' 10 exampleProject_wf hv part_safe
    (by unfold Earliest; decide) (fun n => List.Sublist.count_le n (by simp [part, exampleProject])) (by decide) (by decide) (by decide)
    (by decide) rfl ((C40_roundtrip_partial _ part).2 part_safe) h).1.tempos

/-- C85, the order matters: copying, pasting and then deleting what was copied also deletes
what was pasted in the place of it. -/
theorem C85_order : ∃ (p : Project) (m : Models), WF p ∧ SafeModels m ∧ Earliest m.ticks 10 ∧
    (∀ b ∈ m.tempos, (b.startTick, b) ∈ p.tempos) ∧
    ∃ p1 e p2 e' q1 d q2 d', p.exec (.bulkRemove m {}) = .ok (some (p1, e)) ∧ p1.exec (.bulkAdd (m.moveToTick 20) {}) = .ok (some (p2, e')) ∧
      p.exec (.bulkAdd (m.moveToTick 20) {}) = .ok (some (q1, d)) ∧ q1.exec (.bulkRemove m {}) = .ok (some (q2, d')) ∧
      p2.tempos.map (·.1) = [20, 30] ∧ q2.tempos.map (·.1) = [30] := by
  refine ⟨exampleProject, part, exampleProject_wf, part_safe, by unfold Earliest; decide, by decide, ?_⟩
  have run : ∀ {p : Project} {m : Models} {l : List Nat},
      (p.exec (.bulkAdd m {})).map (fun o => o.map fun q => q.1.tempos.map (·.1)) = .ok (some l) →
      ∃ q c, p.exec (.bulkAdd m {}) = .ok (some (q, c)) ∧ q.tempos.map (·.1) = l := by
    intro p m l h
    cases hx : p.exec (.bulkAdd m {}) with
    | error x => rw [hx] at h; cases h
    | ok o =>
      rw [hx] at h
      cases o with
      | none => cases h
      | some q => exact ⟨q.1, q.2, rfl, Option.some.inj (Except.ok.inj h)⟩
  obtain ⟨p2, e', h1, h2⟩ := run (p := exampleProject.swap part {}) (m := part.moveToTick 20) (l := [20, 30]) (by decide +kernel)
  have two : ((exampleProject.exec (.bulkAdd (part.moveToTick 20) {})).map (fun o => o.map fun q =>
      (removeItems Tempo.startTick q.1.tempos part.tempos).map (·.1))) = .ok (some [30]) := by decide +kernel
  cases hx : exampleProject.exec (.bulkAdd (part.moveToTick 20) {}) with
  | error x => rw [hx] at two; cases two
  | ok o =>
    rw [hx] at two
    cases o with
    | none => cases two
    | some q => exact ⟨_, _, p2, e', q.1, q.2, _, _, rfl, h1, rfl, rfl, h2, Option.some.inj (Except.ok.inj two)⟩

end Klavier
