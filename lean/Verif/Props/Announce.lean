import Verif.Lemmas.Announce
import Verif.Props.Edit

/-! # C69, C70: what an editor learns from the calls on the collections -/
set_option autoImplicit false
namespace Klavier
open Spec Project

/-- C69: whoever keeps a copy of the collections and follows the calls of a successful
edit has the collections of the edited project. -/
theorem C69_edit (p q : Project) (e : Edit) (c : ProjectCmd) (h : p.exec e = .ok (some (q, c))) :
    ∃ cs, p.calls e = .ok (some cs) ∧ Follows p cs q := by
  obtain ⟨cs, _, _, h1, h2, _⟩ := calls_spec h
  exact ⟨cs, h1, h2⟩

example : (match exampleProject.calls (.addNote { exampleNote with baseStartTick := 2000 } true) with
    | .ok (some cs) => some (cs.notes.length, cs.bars)
    | _ => none) = some (1, [.add 2480 { startTick := 2480 } {}]) := by decide +kernel

/-- C69: a refused edit makes no call; the calls of an edit that panics are those of
the state it leaves behind and are not looked at. -/
theorem C69_silent (p : Project) (e : Edit) :
    (p.exec e = .ok none ↔ p.calls e = .ok none) ∧ (∀ x, p.exec e = .error x ↔ p.calls e = .error x) :=
  ⟨by rw [← ending_none, ← ending_none, calls_ending], fun x => by rw [← ending_error, ← ending_error, calls_ending]⟩

example : exampleProject.calls (.tuplize [exampleNote]) = .ok none := rfl

example : (match exampleProject.calls (.addNote { exampleNote with baseStartTick := 4294967295 } true) with
    | .error x => x == .overflow
    | _ => false) = true := by decide +kernel

/-- C69: the same holds for taking back and for repeating any command. -/
theorem C69_undo (p : Project) (c : ProjectCmd) :
    Follows p c.undoCalls (c.undo p) ∧ Follows p c.redoCalls (c.redo p) := cmd_follows p c

example : (ProjectCmd.modelChanged { tempos := [⟨10, ⟨90⟩⟩] } { tempos := [⟨10, ⟨100⟩⟩] } {}).undoCalls.tempos.foldl follow
      [(10, ⟨10, ⟨90⟩⟩), (20, ⟨20, ⟨200⟩⟩)] = exampleProject.tempos := by decide

/-- C69: and so for any sequence of edits, undo and redo. -/
theorem C69_session (s s' : Session) (ops : List Op) (h : s.run ops = .ok s') :
    ∃ l, s.queue ops = .ok l ∧ l.length = ops.length ∧ Follows s.cur (joined l) s'.cur :=
  run_follows ops s s' h

example : (match Session.run (Session.start exampleProject) [.edit (.addBar { startTick := 100, key := some ⟨-3⟩ } true), .undo] with
    | .ok s => some s.cur.bars
    | _ => none) = some exampleProject.bars := by decide +kernel

/-- C70: a successful edit tells of exactly the items it puts in, with the hint it was
given, then of the bars it completes, with no hint; and of exactly the items it takes
away (not of those it replaces).  The recorded command has the same items and hint. -/
theorem C70_edit (p q : Project) (e : Edit) (c : ProjectCmd) (h : p.exec e = .ok (some (q, c))) :
    ∃ cs N bs, p.calls e = .ok (some cs) ∧ NewNotes N e ∧ Tells cs (withdrawn e) (putIn e N) (hint e) bs ∧
      Records c (putIn e N) (hint e) bs := by
  obtain ⟨cs, N, bs, h1, -, h2⟩ := calls_spec h
  exact ⟨cs, N, bs, h1, h2⟩

example : (match exampleProject.calls (.addNote { exampleNote with baseStartTick := 2000 } true) with
    | .ok (some cs) => some ((cs.notes.flatMap toldNote).map (·.2), cs.bars.flatMap told)
    | _ => none) = some ([{ needSelect := some true }], [({ startTick := 2480 }, {})]) := by decide +kernel

/-- C70: undo tells of exactly the recorded removed items, with the recorded hint, and
of the added items taken away; redo the other way round. -/
theorem C70_undo (added removed : Models) (md : Metadata) :
    Tells (ProjectCmd.modelChanged added removed md).undoCalls added removed md [] ∧
    Tells (ProjectCmd.modelChanged added removed md).redoCalls removed added md [] :=
  ⟨swapCalls_tells _ _ _, swapCalls_tells _ _ _⟩

example : (ProjectCmd.modelChanged { bars := [{ startTick := 5 }] } { bars := [{ startTick := 5, key := some ⟨1⟩ }] }
      { needSelect := some true }).undoCalls.bars =
    [.remove 5, .add 5 { startTick := 5, key := some ⟨1⟩ } { needSelect := some true }] := rfl

/-- C70: redo tells of the same items with the same hints as the edit itself exactly
when the edit completed no bars or had no hint. -/
theorem C70_redo_partial (p q : Project) (e : Edit) (c : ProjectCmd) (h : p.exec e = .ok (some (q, c))) :
    ∃ cs N bs, p.calls e = .ok (some cs) ∧ Records c (putIn e N) (hint e) bs ∧
      (SameNews cs c.redoCalls ↔ bs = [] ∨ hint e = {}) := by
  obtain ⟨cs, N, bs, h1, -, -, h2, h3⟩ := calls_spec h
  exact ⟨cs, N, bs, h1, h3, redo_news h2 h3⟩

example : ∃ q c, exampleProject.exec (.addBar { startTick := 3000 } true) = .ok (some (q, c)) ∧
    c.redoCalls.bars = [.add 3000 { startTick := 3000 } { needSelect := some true }] := ⟨_, _, rfl, rfl⟩

/-- A note after the last bar of `exampleProject`. -/
private def lateNote : Note := { exampleNote with baseStartTick := 2000 }

/-- C70: redo need not tell the same: a note put in selected after the last bar
completes a bar, of which the edit tells without a hint and redo with the hint to select it. -/
theorem C70_redo_false : ∃ (p q : Project) (e : Edit) (c : ProjectCmd) (cs : Calls), WF p ∧
    p.exec e = .ok (some (q, c)) ∧ p.calls e = .ok (some cs) ∧ ¬ SameNews cs c.redoCalls := by
  have h : (match exampleProject.exec (.addNote lateNote true) with
      | .ok (some (_, .modelChanged a _ _)) => a.bars
      | _ => []) = [{ startTick := 2480 }] := by decide +kernel
  match hx : exampleProject.exec (.addNote lateNote true), h with
  | .ok (some (q, .modelChanged a r md)), h =>
    obtain ⟨cs, N, bs, h1, h2, h3⟩ := C70_redo_partial _ _ _ _ hx
    refine ⟨exampleProject, q, _, _, cs, exampleProject_wf, hx, h1, fun h4 => ?_⟩
    have hb : a.bars = bs := congrArg Models.bars h2.1
    rcases h3.1 h4 with h5 | h5
    · cases (hb.trans h5).symm.trans h
    · cases h5

end Klavier
