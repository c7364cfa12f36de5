import Verif.UnitTests.Values
import Verif.Model.Tuple
import Verif.Model.Undo
import Verif.Model.Clipboard
import Verif.Model.Text
import Verif.Model.Bincode

/-! # The unit tests of the code, on the model: notes, tuplets, the undo stack, texts

As in `Verif.UnitTests.Values`: tests, not proofs. -/
set_option autoImplicit false
namespace Klavier
namespace UnitTests

/-! ## location.rs -/

/-- A stand-in for the class `\d`: the ASCII digits. -/
def digit (c : Char) : Bool := '0' ≤ c ∧ c ≤ '9'

/-- parse_fail, parse_ok -/
example : parseLocation digit "".toList = .ok none ∧ parseLocation digit "012".toList = .ok none ∧
    parseLocation digit "01:".toList = .ok none ∧ parseLocation digit ":01".toList = .ok none ∧
    parseLocation digit "123:456".toList = .ok (some ⟨123, 456⟩) := by decide +kernel

/-! ## fly_weight.rs -/

/-- assume_interned: `d0`, `d1`, `d2` are at the places 0, 1, 2. -/
example : ((FlyWeight.new (T := Int)).internAll [⟨0, 0⟩, ⟨1, 0⟩, ⟨2, 1⟩]).2.map Ref.addr = [0, 0, 2] := by decide

/-! ## note.rs -/

/-- A note of these tests -/
def noteOf (t : Nat) (p : Pitch) (d : Duration) (v : Nat) (r : RateTrimmer) : Note :=
  ⟨t, p, d, false, false, Velocity.new v, Trimmer.ZERO, r, Trimmer.ZERO, 0⟩

/-- `RateTrimmer::new(1.0, 0.5, 2.0, 1.5)` -/
def rate : RateTrimmer := RateTrimmer.new (lit 1 1) (lit 5 10) (lit 2 1) (lit 15 10)

/-- tick_len -/
example : (Pitch.new .A .Oct1 .Null >>= fun p => (noteOf 123 p ⟨.Half, 2, 0⟩ 10 rate).tickLen) = .ok 720 := by decide +kernel

/-- up_score_offset -/
example : ((noteOf 123 MAX ⟨.Half, 2, 0⟩ 10 rate).upScoreOffset >>= unwrapR) = .error .unwrap ∧
    (Pitch.new .A .Oct1 .Null >>= fun p => (noteOf 123 p ⟨.Half, 2, 0⟩ 10 rate).upScoreOffset >>= unwrapR).map Note.pitch =
      Pitch.new .B .Oct1 .Null := by decide +kernel

/-- with_tick_added -/
example : let n := noteOf 123 MAX ⟨.Half, 2, 0⟩ 10 rate
    (n.withTickAdded 10 true >>= unwrapR).map Note.startTick = .ok 133 ∧
    (n.withTickAdded (-122) true >>= unwrapR).map Note.startTick = .ok 1 ∧
    (n.withTickAdded (-123) true >>= unwrapR).map Note.startTick = .ok 0 ∧
    (n.withTickAdded (-124) true >>= unwrapR).map Note.startTick = .error .unwrap := by decide +kernel

/-- builder -/
example : let b : NoteBuilder := { baseStartTick := some 12, baseVelocity := some (Velocity.new 99) }
    (NoteBuilder.build { b with baseStartTick := some 123 }).map Note.baseStartTick = .ok 123 ∧
      b.build.map Note.baseStartTick = .ok 12 := by decide +kernel

/-! ## tuple.rs -/

/-- A3 -/
def A3 : Pitch := ⟨.A, .Oct3, .Null, 69, 40⟩
example : Pitch.new .A .Oct3 .Null = .ok A3 := by decide
/-- The `note` of these tests, at A3 -/
def tnote (t : Nat) (d : Duration) : Note := noteOf t A3 d 64 RateTrimmer.ONE

/-- sort_by_start_tick -/
example : let n0 := tnote 0 ⟨.Quarter, 2, 0⟩
    let n1 := tnote 0 ⟨.Half, 2, 0⟩
    let n2 := tnote 100 ⟨.Quarter, 2, 0⟩
    Tuple.gcdUnits (Tuple.sort [n2, n1, n0]) = .ok (some 64) ∧
    (Tuple.group (Tuple.sort [n2, n1, n0]) none).map (List.map Tuple.Elem.notes) = .ok [[n1, n0], [n2]] := by decide +kernel

/-- unit -/
example : Tuple.numeratorUnit ⟨.N128th, 2, 0⟩ = .ok 2 ∧ Tuple.numeratorUnit ⟨.N128th, 5, 0⟩ = .ok 2 ∧
    Tuple.numeratorUnit ⟨.N128th, 2, 1⟩ = .ok 3 ∧ Tuple.numeratorUnit ⟨.N64th, 2, 1⟩ = .ok 6 := by decide +kernel

/-- tuplize_3_eigth, tuplize_3_eigth_again -/
example : (Tuple.tuplize [tnote 10 ⟨.N8th, 2, 0⟩, tnote 20 ⟨.N8th, 2, 0⟩, tnote 50 ⟨.N8th, 2, 0⟩]).map
      (List.map fun n => (n.baseStartTick, n.duration)) =
        .ok [(10, ⟨.N8th, 3, 0⟩), (10 + 80, ⟨.N8th, 3, 0⟩), (10 + 80 * 2, ⟨.N8th, 3, 0⟩)] ∧
    (Tuple.tuplize [tnote 0 ⟨.N8th, 3, 0⟩, tnote 80 ⟨.N8th, 3, 0⟩, tnote 160 ⟨.N8th, 3, 0⟩]).map
      (List.map fun n => (n.baseStartTick, n.duration)) =
        .ok [(0, ⟨.N8th, 3, 0⟩), (80, ⟨.N8th, 3, 0⟩), (160, ⟨.N8th, 3, 0⟩)] := by decide +kernel

/-! ## undo.rs; the five sets of models are numbered, the store never looks at them. -/

/-- should_be_dropped_when_capacity_reached -/
example : let s0 : UndoStore Nat := .new 3
    let s1 := s0.add 0
    let s2 := s1.add 1
    let s3 := s2.add 2
    let s4 := s3.add 3
    let s5 := s4.add 4
    s0.canUndo = false ∧ s0.undo.2 = none ∧ s1.store = [0] ∧ s1.canUndo = true ∧ s2.store = [1, 0] ∧ s2.canUndo = true ∧
    s3.store = [2, 1, 0] ∧ s3.len = 3 ∧ s4.store = [3, 2, 1] ∧ s4.len = 3 ∧ s4.canUndo = true ∧
    s5.store = [4, 3, 2] ∧ s5.len = 3 ∧ s5.canUndo = true := by decide

/-- can_undo -/
example : let s : UndoStore Nat := .new 3
    let s2 := (s.add 0).add 1
    let u := s2.undo
    let v := u.1.undo
    let w := v.1.undo
    let s3 := ((w.1.add 0).add 1).add 2
    let a := s3.undo
    let s4 := a.1.add 3
    let b := s4.undo
    let c := b.1.undo
    let d := c.1.undo
    let e := d.1.undo
    s.canUndo = false ∧ s2.canUndo = true ∧ u.2 = some 1 ∧ v.2 = some 0 ∧ w.2 = none ∧ w.1.canUndo = false ∧
    s3.canUndo = true ∧ a.2 = some 2 ∧ b.2 = some 3 ∧ c.2 = some 1 ∧ d.2 = some 0 ∧ e.2 = none ∧ e.1.canUndo = false := by
  decide

/-! ## models.rs and exported_project.rs -/

/-- No number of these tests is too large for `f64`. -/
def noOver : List Char → Bool := fun _ => false

/-- parse_empty, cannot_parse_version, version_error -/
example : Models.fromClipboardText noOver "".toList = .ok (.error .emptyString) ∧
    Models.fromClipboardText noOver " ".toList = .ok (.error .emptyString) ∧
    Models.fromClipboardText noOver "-1".toList = .ok (.error (.versionNotU64 "-1".toList)) ∧
    Models.fromClipboardText noOver "1.1".toList = .ok (.error (.versionNotU64 "1.1".toList)) ∧
    Models.fromClipboardText noOver "[0]".toList = .ok (.error (.versionNotU64 "[0]".toList)) ∧
    Models.fromClipboardText noOver "a".toList = .ok (.error (.cannotParse "a".toList)) ∧
    Models.fromClipboardText noOver "2".toList = .ok (.error (.versionErr 2)) := by decide +kernel

/-- C0 -/
def C0 : Pitch := ⟨.C, .Oct0, .Null, 24, 14⟩
example : Pitch.new .C .Oct0 .Null = .ok C0 := by decide
/-- The note of the next tests -/
def cnote : Note := noteOf 100 C0 ⟨.Quarter, 2, 1⟩ 10 (RateTrimmer.new (lit 1 1) (lit 1 1) (lit 1 1) (lit 1 1))

/-- normal_case -/
example : let m : Models := { notes := [cnote], bars := [bar 100] }
    Models.fromClipboardText noOver m.toClipboardText = .ok (.ok m) := by decide +kernel

/-- move_to_tick -/
example : let m0 : Models := ⟨[cnote], [bar 110], [⟨110, ⟨200⟩⟩, ⟨114, ⟨205⟩⟩], [⟨120, Velocity.new 64, 0⟩],
      [⟨90, Velocity.new 64, 0⟩]⟩
    let m := m0.moveToTick 50
    m.notes.map Note.baseStartTick = [60] ∧ m.bars.map Bar.startTick = [70] ∧ m.tempos.map Tempo.startTick = [70, 74] ∧
    m.dumpers.map CtrlChg.startTick = [80] ∧ m.softs.map CtrlChg.startTick = [50] := by decide +kernel

/-- import_key -/
example : (ClipProject.fromClipboardText noOver ('1' :: (ClipProject.enc { key := some ⟨-3⟩ }).text) >>= unwrapR).map
    ClipProject.key = .ok (some ⟨-3⟩) := by decide +kernel

/-- import_rhythm -/
example : (Rhythm.new 3 4 >>= fun r =>
    (ClipProject.fromClipboardText noOver ('1' :: (ClipProject.enc { rhythm := some r }).text) >>= unwrapR).map
      ClipProject.rhythm) = (Rhythm.new 3 4).map some := by decide +kernel

end UnitTests
end Klavier
