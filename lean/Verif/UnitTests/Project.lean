import Verif.UnitTests.Notes
import Verif.Model.Session

/-! # The unit tests of the code, on the model: project.rs

As in `Verif.UnitTests.Values`: tests, not proofs.  A store is the sequence of what
was done to it since the empty project; `wait_until_saved` changes nothing. -/
set_option autoImplicit false
namespace Klavier
namespace UnitTests

/-- `f` of the model after these actions on a new store -/
def after {α : Type} (ops : List Op) (f : Project → α) : R α :=
  ((Session.start Project.default).run ops).map (fun s => f s.cur)

/-- the same for a method that may panic -/
def afterR {α : Type} (ops : List Op) (f : Project → R α) : R α :=
  ((Session.start Project.default).run ops) >>= fun s => f s.cur

/-- The sizes of the five repositories -/
def sizes (p : Project) : List Nat :=
  [p.notes.length, p.bars.length, p.tempos.length, p.dumpers.length, p.softs.length]

/-- `Rhythm::new(3, 4)` and so on -/
def r34 : Rhythm := ⟨3, .D4⟩
def r24 : Rhythm := ⟨2, .D4⟩
def r44 : Rhythm := ⟨4, .D4⟩
def r68 : Rhythm := ⟨6, .D8⟩
example : Rhythm.new 3 4 = .ok r34 ∧ Rhythm.new 2 4 = .ok r24 ∧ Rhythm.new 4 4 = .ok r44 ∧ Rhythm.new 6 8 = .ok r68 := by
  decide

/-- tempo -/
example : let s1 : Store Tempo := Store.add [] 10 ⟨10, ⟨100⟩⟩
    let s2 := s1.add 20 ⟨20, ⟨200⟩⟩
    tempoAt 0 [] = .ok ⟨120⟩ ∧
    [0, 10, 11].map (fun t => tempoAt t s1) = [.ok ⟨120⟩, .ok ⟨100⟩, .ok ⟨100⟩] ∧
    [0, 10, 11, 19, 20, 100].map (fun t => tempoAt t s2) =
      [.ok ⟨120⟩, .ok ⟨100⟩, .ok ⟨100⟩, .ok ⟨100⟩, .ok ⟨200⟩, .ok ⟨200⟩] := by decide +kernel

/-- C4, D4, E4, C3 -/
def C4 : Pitch := ⟨.C, .Oct4, .Null, 72, 42⟩
def D4 : Pitch := ⟨.D, .Oct4, .Null, 74, 43⟩
def E4 : Pitch := ⟨.E, .Oct4, .Null, 76, 44⟩
def C3 : Pitch := ⟨.C, .Oct3, .Null, 60, 35⟩
example : Pitch.new .C .Oct4 .Null = .ok C4 ∧ Pitch.new .D .Oct4 .Null = .ok D4 ∧ Pitch.new .E .Oct4 .Null = .ok E4 ∧
    Pitch.new .C .Oct3 .Null = .ok C3 := by decide

/-- undo_note_addition -/
example : let a : Op := .edit (.addNote (noteOf 100 C4 ⟨.Quarter, 2, 0⟩ 64 .ONE) false)
    after [a] (fun p => p.notes.length) = .ok 1 ∧ after [a, .undo] (fun p => p.notes.length) = .ok 0 := by decide +kernel

/-- undo_bar_addition -/
example : let a : Op := .edit (.addBar (bar 100) false)
    after [a] (fun p => p.bars.length) = .ok 1 ∧ after [a, .undo] (fun p => p.bars.length) = .ok 0 := by decide +kernel

/-- `location_to_tick` after these bars were added -/
def toTick (bars : List Bar) (i o : Nat) : R (Except LocationError Nat) :=
  afterR (bars.map (fun b => .edit (.addBar b false))) (fun p => p.locationToTick ⟨i, o⟩)

/-- location_to_tick -/
example : toTick [] 0 0 = .ok (.ok 0) ∧ toTick [] 0 1 = .ok (.ok 1) ∧ toTick [] 0 U32_MAX = .ok (.ok U32_MAX) ∧
    toTick [] 0 (U32_MAX + 1) = .ok (.error .overflow) ∧ toTick [] 1 1 = .ok (.ok (960 + 1)) := by decide +kernel
example : let b := [bar 100]
    toTick b 0 0 = .ok (.ok 0) ∧ toTick b 0 1 = .ok (.ok 1) ∧ toTick b 1 1 = .ok (.ok 101) ∧
    toTick b 1 (U32_MAX - 100) = .ok (.ok U32_MAX) ∧ toTick b 1 (U32_MAX - 99) = .ok (.error .overflow) ∧
    toTick b 2 1 = .ok (.ok (100 + 960 + 1)) := by decide +kernel
example : let b := [bar 100, bar 1000]
    toTick b 0 0 = .ok (.ok 0) ∧ toTick b 0 1 = .ok (.ok 1) ∧ toTick b 1 1 = .ok (.ok 101) ∧
    toTick b 2 0 = .ok (.ok 1000) := by decide +kernel
example : let b := [bar 100, bar 1000, ⟨2000, some r24, none, {}⟩, bar 3000]
    toTick b 4 1 = .ok (.ok 3001) ∧ toTick b 5 1 = .ok (.ok (3000 + 480 + 1)) := by decide +kernel

/-- tick_to_location -/
example : let b0 : Op := .edit (.addBar (bar 100) false)
    let b1 : Op := .edit (.addBar (bar 1000) false)
    let at_ (ops : List Op) (t : Nat) := afterR ops (fun p => p.tickToLocation t)
    at_ [] 0 = .ok ⟨0, 0⟩ ∧ at_ [] 100 = .ok ⟨0, 100⟩ ∧ at_ [] U32_MAX = .ok ⟨0, U32_MAX⟩ ∧
    at_ [b0] 0 = .ok ⟨0, 0⟩ ∧ at_ [b0] 99 = .ok ⟨0, 99⟩ ∧ at_ [b0] 100 = .ok ⟨1, 0⟩ ∧
    at_ [b0] U32_MAX = .ok ⟨1, U32_MAX - 100⟩ ∧
    at_ [b0, b1] 0 = .ok ⟨0, 0⟩ ∧ at_ [b0, b1] 99 = .ok ⟨0, 99⟩ ∧ at_ [b0, b1] 999 = .ok ⟨1, 899⟩ ∧
    at_ [b0, b1] 1000 = .ok ⟨2, 0⟩ ∧ at_ [b0, b1] U32_MAX = .ok ⟨2, U32_MAX - 1000⟩ := by decide +kernel

/-- rhythm_at -/
example : let r : Op := .edit (.setRhythm r68)
    let b0 : Op := .edit (.addBar (bar 100) false)
    let b1 : Op := .edit (.addBar ⟨200, some r34, none, {}⟩ false)
    let b2 : Op := .edit (.addBar (bar 300) false)
    let b3 : Op := .edit (.addBar ⟨400, some r44, none, {}⟩ false)
    let at_ (ops : List Op) (t : Nat) := afterR ops (fun p => p.rhythmAt t)
    let last (ops : List Op) := after ops (fun p => p.lastBar.map (·.2))
    last [r] = .ok none ∧ [500, 0].map (at_ [r]) = [.ok r68, .ok r68] ∧
    last [r, b0] = .ok (some (bar 100)) ∧
    [0, 99, 100, 101].map (at_ [r, b0]) = [.ok r68, .ok r68, .ok r68, .ok r68] ∧
    last [r, b0, b1] = .ok (some ⟨200, some r34, none, {}⟩) ∧ last [r, b0, b1, b2] = .ok (some (bar 300)) ∧
    last [r, b0, b1, b2, b3] = .ok (some ⟨400, some r44, none, {}⟩) ∧
    [0, 99, 100, 101, 199].map (at_ [r, b0, b1, b2, b3]) = [.ok r68, .ok r68, .ok r68, .ok r68, .ok r68] ∧
    [200, 201, 299, 300, 301, 399].map (at_ [r, b0, b1, b2, b3]) =
      [.ok r34, .ok r34, .ok r34, .ok r34, .ok r34, .ok r34] ∧
    [400, 401].map (at_ [r, b0, b1, b2, b3]) = [.ok r44, .ok r44] := by decide +kernel

/-- The notes of the next two tests: at C0 with `RateTrimmer::new(1.0, 1.0, 1.0, 1.0)` -/
def rnote (t : Nat) (d : Duration) : Note := noteOf t C0 d 10 (RateTrimmer.new (lit 1 1) (lit 1 1) (lit 1 1) (lit 1 1))

/-- note_max_tick_loc -/
example : let n0 := rnote 100 ⟨.Quarter, 2, 1⟩
    let n1 := rnote 100 ⟨.Whole, 2, 1⟩
    let n2 := noteOf 200 C0 ⟨.N8th, 2, 0⟩ 10 (RateTrimmer.new (lit 1 1) (lit 1 1) (lit 1 1) (lit 2 1))
    let a (n : Note) : Op := .edit (.addNote n false)
    afterR [] Project.noteMaxEndTick = .ok none ∧
    afterR [a n0] Project.noteMaxEndTick = .ok (some 460) ∧ n0.tickLen = .ok 360 ∧
    afterR [a n0, a n1] Project.noteMaxEndTick = .ok (some 1540) ∧ n1.tickLen = .ok 1440 ∧
    afterR [a n0, a n1, a n2] Project.noteMaxEndTick = .ok (some 1540) := by decide +kernel

/-- replenish_bars: the number of bars and the tick of the last after each step -/
example : let o0 : Op := .edit (.addNote (rnote 100 ⟨.Quarter, 2, 1⟩) false)
    let o1 : Op := .edit (.addNote (rnote 0 ⟨.Whole, 2, 0⟩) false)
    let o2 : Op := .edit (.addNote (rnote 960 ⟨.Whole, 2, 1⟩) false)
    let o3 : Op := .edit (.addTempo ⟨960 * 3, ⟨200⟩⟩ false)
    let o4 : Op := .edit (.addTempo ⟨960 * 3 + 1, ⟨200⟩⟩ false)
    let o5 : Op := .edit (.addDumper ⟨960 * 4, ⟨20⟩, 0⟩ false)
    let o6 : Op := .edit (.addDumper ⟨960 * 4 + 1, ⟨20⟩, 0⟩ false)
    let o7 : Op := .edit (.addSoft ⟨960 * 5, ⟨20⟩, 0⟩ false)
    let o8 : Op := .edit (.addDumper ⟨960 * 5 + 1, ⟨20⟩, 0⟩ false)
    let f (ops : List Op) := after ops (fun p => (p.bars.length, (Store.peekLast p.bars).map (·.1)))
    f [] = .ok (0, none) ∧ f [o0] = .ok (1, some 960) ∧ f [o0, o1] = .ok (1, some 960) ∧
    f [o0, o1, o2] = .ok (3, some (960 * 3)) ∧ f [o0, o1, o2, o3] = .ok (3, some (960 * 3)) ∧
    f [o0, o1, o2, o3, o4] = .ok (4, some (960 * 4)) ∧ f [o0, o1, o2, o3, o4, o5] = .ok (4, some (960 * 4)) ∧
    f [o0, o1, o2, o3, o4, o5, o6] = .ok (5, some (960 * 5)) ∧
    f [o0, o1, o2, o3, o4, o5, o6, o7] = .ok (5, some (960 * 5)) ∧
    f [o0, o1, o2, o3, o4, o5, o6, o7, o8] = .ok (6, some (960 * 6)) := by decide +kernel

/-- The notes of the remaining tests: eighths with velocity 64 -/
def enote (t : Nat) (p : Pitch) : Note := noteOf t p ⟨.N8th, 2, 0⟩ 64 .ONE

/-- tuplize -/
example : let a (t : Nat) : Op := .edit (.addNote (enote t C4) false)
    let t : Op := .edit (.tuplize [enote 100 C4, enote 120 C4, enote 150 C4])
    let f (ops : List Op) := after ops (fun p => p.notes.map (fun e => (e.1, e.2.duration)))
    (f [a 100, a 120, a 150]).map List.length = .ok 3 ∧
    f [a 100, a 120, a 150, t] =
      .ok [(100, ⟨.N8th, 3, 0⟩), (100 + 80, ⟨.N8th, 3, 0⟩), (100 + 80 * 2, ⟨.N8th, 3, 0⟩)] ∧
    f [a 100, a 120, a 150, t, .undo] = .ok [(100, ⟨.N8th, 2, 0⟩), (120, ⟨.N8th, 2, 0⟩), (150, ⟨.N8th, 2, 0⟩)] := by
  decide +kernel

/-- can_serialize_project -/
example : let p : Project := { Project.default with key := ⟨-2⟩, rhythm := r34, notes := [(100, enote 100 C4)] }
    (Project.load p.save).map (fun q => (q.key, q.rhythm, q.notes)) = .ok (⟨-2⟩, r34, [(100, enote 100 C4)]) := by
  decide +kernel

/-- can_undo_set_rhythm -/
example : let a : Op := .edit (.setRhythm ⟨12, .D8⟩)
    let b : Op := .edit (.setRhythm ⟨12, .D4⟩)
    let c : Op := .edit (.setRhythm ⟨16, .D8⟩)
    let f (ops : List Op) := after ops (fun p => p.rhythm)
    f [a] = .ok ⟨12, .D8⟩ ∧ f [a, b] = .ok ⟨12, .D4⟩ ∧ f [a, b, .undo] = .ok ⟨12, .D8⟩ ∧ f [a, b, .undo, .undo] = .ok r44 ∧
    f [a, b, .undo, .undo, .redo] = .ok ⟨12, .D8⟩ ∧ f [a, b, .undo, .undo, .redo, c] = .ok ⟨16, .D8⟩ ∧
    f [a, b, .undo, .undo, .redo, c, .undo] = .ok ⟨12, .D8⟩ := by decide +kernel

/-- can_undo_set_key -/
example : let a : Op := .edit (.setKey ⟨-1⟩)
    let b : Op := .edit (.setKey ⟨-2⟩)
    let f (ops : List Op) := after ops (fun p => p.key)
    f [a, b] = .ok ⟨-2⟩ ∧ f [a, b, .undo] = .ok ⟨-1⟩ ∧ f [a, b, .undo, .redo] = .ok ⟨-2⟩ := by decide +kernel

/-- can_undo_set_grid -/
example : let a : Op := .edit (.setGrid ⟨100⟩)
    let b : Op := .edit (.setGrid ⟨200⟩)
    let f (ops : List Op) := after ops (fun p => p.grid)
    f [a, b] = .ok ⟨200⟩ ∧ f [a, b, .undo] = .ok ⟨100⟩ ∧ f [a, b, .undo, .redo] = .ok ⟨200⟩ := by decide +kernel

/-- can_undo_add_note -/
example : let a : Op := .edit (.addNote (enote 100 C4) false)
    after [a] sizes = .ok [1, 1, 0, 0, 0] ∧ after [a, .undo] sizes = .ok [0, 0, 0, 0, 0] ∧
    after [a, .undo, .redo] sizes = .ok [1, 1, 0, 0, 0] ∧
    after [a, .undo, .redo] (fun p => p.notes) = .ok [(100, enote 100 C4)] := by decide +kernel

/-- can_undo_add_bar -/
example : let a : Op := .edit (.addBar ⟨1000, some r34, none, {}⟩ false)
    after [a] sizes = .ok [0, 1, 0, 0, 0] ∧ after [a, .undo] sizes = .ok [0, 0, 0, 0, 0] ∧
    after [a, .undo, .redo] (fun p => p.bars) = .ok [(1000, ⟨1000, some r34, none, {}⟩)] := by decide +kernel

/-- can_undo_add_tempo -/
example : let a : Op := .edit (.addTempo ⟨200, ⟨200⟩⟩ false)
    after [a] sizes = .ok [0, 1, 1, 0, 0] ∧ after [a, .undo] sizes = .ok [0, 0, 0, 0, 0] ∧
    after [a, .undo, .redo] sizes = .ok [0, 1, 1, 0, 0] ∧
    after [a, .undo, .redo] (fun p => p.tempos) = .ok [(200, ⟨200, ⟨200⟩⟩)] := by decide +kernel

/-- can_undo_add_dumper -/
example : let a : Op := .edit (.addDumper ⟨200, ⟨20⟩, 0⟩ false)
    after [a] sizes = .ok [0, 1, 0, 1, 0] ∧ after [a, .undo] sizes = .ok [0, 0, 0, 0, 0] ∧
    after [a, .undo, .redo] sizes = .ok [0, 1, 0, 1, 0] ∧
    after [a, .undo, .redo] (fun p => p.dumpers) = .ok [(200, ⟨200, ⟨20⟩, 0⟩)] := by decide +kernel

/-- can_undo_add_soft -/
example : let a : Op := .edit (.addSoft ⟨200, ⟨20⟩, 0⟩ false)
    after [a] sizes = .ok [0, 1, 0, 0, 1] ∧ after [a, .undo] sizes = .ok [0, 0, 0, 0, 0] ∧
    after [a, .undo, .redo] sizes = .ok [0, 1, 0, 0, 1] ∧
    after [a, .undo, .redo] (fun p => p.softs) = .ok [(200, ⟨200, ⟨20⟩, 0⟩)] := by decide +kernel

/-- can_undo_tuplize -/
example : let a (t : Nat) (p : Pitch) : Op := .edit (.addNote (enote t p) false)
    let t0 : Op := .edit (.tuplize [])
    let t1 : Op := .edit (.tuplize [enote 100 C4])
    let t3 : Op := .edit (.tuplize [enote 100 C4, enote 110 D4, enote 120 E4])
    let o := [t0, a 100 C4, t1, .undo, a 100 C4, a 110 D4, a 120 E4, t3]
    let f (ops : List Op) := after ops (fun p => p.notes.map (fun e => (e.1, e.2.pitch.solfa)))
    after [t0] sizes = .ok [0, 0, 0, 0, 0] ∧
    after [t0, a 100 C4, t1] sizes = .ok [1, 1, 0, 0, 0] ∧
    after [t0, a 100 C4, t1] (fun p => p.notes) = .ok [(100, enote 100 C4)] ∧
    after [t0, a 100 C4, t1, .undo] sizes = .ok [0, 0, 0, 0, 0] ∧
    after o sizes = .ok [3, 1, 0, 0, 0] ∧ after (o ++ [.undo]) sizes = .ok [3, 1, 0, 0, 0] ∧
    f (o ++ [.undo]) = .ok [(100, .C), (110, .D), (120, .E)] ∧
    after (o ++ [.undo, .redo]) sizes = .ok [3, 1, 0, 0, 0] ∧
    f (o ++ [.undo, .redo]) = .ok [(100, .C), (180, .D), (260, .E)] := by decide +kernel

/-- can_undo_bulk_remove, can_undo_bulk_add -/
example : let m : Models := { notes := [enote 100 C4], tempos := [⟨200, ⟨200⟩⟩] }
    let a : Op := .edit (.bulkAdd m {})
    let r : Op := .edit (.bulkRemove m {})
    after [a] sizes = .ok [1, 1, 1, 0, 0] ∧ after [a, r] sizes = .ok [0, 1, 0, 0, 0] ∧
    after [a, r, .undo] sizes = .ok [1, 1, 1, 0, 0] ∧ after [a, .undo] sizes = .ok [0, 0, 0, 0, 0] := by decide +kernel

/-- can_undo_change -/
example : let n0 := enote 100 C4
    let n1 := enote 101 C3
    let m0 := n0.withDurationNumerator .Half
    let m1 := n1.withDurationNumerator .Half
    let a : Op := .edit (.bulkAdd { notes := [n0, n1], tempos := [⟨200, ⟨200⟩⟩] } {})
    let c : Op := .edit (.change { notes := [(n0, m0), (n1, m1)] } {})
    after [a] sizes = .ok [2, 1, 1, 0, 0] ∧
    after [a, c] (fun p => p.notes) = .ok [(m0.startTick, m0), (m1.startTick, m1)] ∧
    after [a, c] (fun p => p.tempos) = .ok [(200, ⟨200, ⟨200⟩⟩)] ∧
    after [a, c, .undo] (fun p => p.notes) = .ok [(n0.startTick, n0), (n1.startTick, n1)] ∧
    after [a, c, .undo] (fun p => p.tempos) = .ok [(200, ⟨200, ⟨200⟩⟩)] := by decide +kernel

/-- many_changes: what is in the store, and what is there when it is opened again from
the first project and the whole log (the limit of ten undos, which belongs to the crate
serdo, only moves the point the log starts from). -/
example : let ops := [enote 100 C4, enote 101 C3].map (fun n => Op.edit (.addNote n false)) ++
      (List.range 20).map (fun i => Op.edit (.addTempo ⟨200 + i, ⟨200 + i⟩⟩ false))
    after ops (fun p => (p.notes.length, p.tempos.length)) = .ok (2, 20) ∧
    (do let s ← De.lift ((Session.start Project.default).run ops)
        let q ← reopen s.base.save (s.log.map ProjectCmd.bin) s.cursor
        pure (q.cur.notes.length, q.cur.tempos.length) : De (Nat × Nat)) = .ok (2, 20) := by decide +kernel

end UnitTests
end Klavier
