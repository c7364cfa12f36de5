import Verif.Model.Parts
import Verif.Model.Serde

/-! # The unit tests of the code, on the model: the value types

Nothing in this directory is a proof of a property.  The code is not run here, but
its unit tests are a record of what it does; each `example` transcribes one of them
(its name is in the comment).  `#[should_panic]` becomes a panic in the model, a
`json!` value becomes the text written (whose members are in the order of
declaration, while `Value` ignores the order).  Tests that only exercise the
crate klavier_helper (event queues, `f32` keys) have no counterpart. -/
set_option autoImplicit false
namespace Klavier
namespace UnitTests

/-- The `f32` literal `a / b` -/
def lit (a b : Nat) : F32 := F32.ofUnits false (F32.roundUnits (a * F32.ONE) b)
/-- The `f32` literal `- a / b` -/
def negLit (a b : Nat) : F32 := F32.ofUnits true (F32.roundUnits (a * F32.ONE) b)

/-- `serde_json::from_str`; no number is too large for `f64` in these tests. -/
def fromStr {α : Type} (de : Json → De α) (s : String) : De α := fromSlice (fun _ => false) de s.toList

/-! ## duration.rs -/

/-- low_denominator, high_dot -/
example : Denominator.fromValue 1 = none ∧ Dots.fromValue 8 = none := by decide

/-- getter -/
example : Denominator.fromValue 2 = some 2 ∧ Dots.fromValue 3 = some 3 := by decide

/-- tick_length -/
example : Duration.tickLength ⟨.Quarter, 2, 0⟩ = .ok 240 ∧ Duration.tickLength ⟨.Half, 2, 0⟩ = .ok 480 ∧
    Duration.tickLength ⟨.Quarter, 3, 0⟩ = .ok 160 ∧ Duration.tickLength ⟨.Quarter, 2, 1⟩ = .ok 360 := by decide

/-! ## rhythm.rs -/

/-- new_with_invalid_denominator, new_with_invalid_numerator -/
example : Rhythm.new 1 3 = .error .explicit ∧ Rhythm.new 100 4 = .error .explicit := by decide

/-- value_of_with_invalid_denominator, value_of_with_invalid_numerator, value_of -/
example : Rhythm.valueOf 1 3 = .error (.denominator 3) ∧ Rhythm.valueOf 100 2 = .error (.numerator 100) ∧
    unwrapR (Rhythm.valueOf 2 4) = Rhythm.new 2 4 := by decide

/-- tick_len -/
example : (Rhythm.new 4 4).map Rhythm.tickLen = .ok (240 * 4) ∧ (Rhythm.new 2 4).map Rhythm.tickLen = .ok (240 * 2) ∧
    (Rhythm.new 2 2).map Rhythm.tickLen = .ok (480 * 2) ∧ (Rhythm.new 6 8).map Rhythm.tickLen = .ok (120 * 6) := by decide

/-- can_serialize_to_json -/
example : (Rhythm.new 3 4).map (fun r => r.enc.text) = .ok "{\"numerator\":3,\"denominator\":\"D4\"}".toList := by decide +kernel

/-- can_deserialize_from_json -/
example : fromStr Rhythm.de "
            {
                \"numerator\": 3,
                \"denominator\": \"D4\"
            }
        " = De.lift (Rhythm.new 3 4) := by decide +kernel

/-! ## percent.rs -/

/-- too_high, too_low, to_f32 -/
example : Percent.ofF32 (lit 201 1) = Percent.MAX ∧ Percent.ofF32 (negLit 1 10) = Percent.ofF32 (lit 0 1) ∧
    (Percent.ofF32 (lit 15 10)).toF32 = lit 15 10 := by decide +kernel

/-- apply -/
example : (Percent.ofF32 (lit 5 10)).apply 60 = 30 := by decide +kernel

/-- from_f32 -/
example : Percent.ofF32 .nan = ⟨0⟩ ∧ Percent.ofF32 (lit 2 1) = Percent.MAX ∧ Percent.ofF32 (lit 100 1) = Percent.MAX ∧
    Percent.ofF32 (lit 0 1) = ⟨0⟩ ∧ Percent.ofF32 (negLit 100 1) = ⟨0⟩ := by decide +kernel

/-! ## trimmer.rs -/

/-- sum -/
example : (Trimmer.new 0 1 2 3).value 0 = .ok 0 ∧ (Trimmer.new 0 1 2 3).value 1 = .ok 1 ∧
    (Trimmer.new 0 1 2 3).value 2 = .ok 2 ∧ (Trimmer.new 0 1 2 3).value 3 = .ok 3 ∧
    (Trimmer.new 0 1 2 3).toVec = [0, 1, 2, 3] ∧ (Trimmer.new 0 1 2 3).sum = 6 := by decide

/-- eq -/
example : (Trimmer.new 0 1 2 3).eq (Trimmer.new 0 1 2 3) = true ∧
    (Trimmer.new 0 1 2 3).eq (Trimmer.new 1 0 2 3) = false := by decide

/-- updated -/
example : ((Trimmer.new 0 1 2 3).updated (fun v => (v.1, 10, v.2.2))).map Trimmer.toVec = .ok [0, 10, 2, 3] := by decide

/-- rate_sum; the last assertion is that the sum is within 0.01 of 1.485. -/
example : let v := RateTrimmer.new (lit 9 10) (lit 15 10) (lit 11 10) (lit 1 1)
    v.toVec.map Percent.toF32 = [lit 9 10, lit 15 10, lit 11 10, lit 1 1] ∧
      (v.value 0).map Percent.toF32 = .ok (lit 9 10) ∧ (v.value 1).map Percent.toF32 = .ok (lit 15 10) ∧
      (v.value 2).map Percent.toF32 = .ok (lit 11 10) ∧ (v.value 3).map Percent.toF32 = .ok (lit 1 1) ∧
      1475 < v.sum.value ∧ v.sum.value < 1495 := by decide +kernel

/-- rate_eq -/
example : let v0 := RateTrimmer.new (lit 0 1) (lit 1 1) (lit 2 1) (lit 3 1)
    let v2 := RateTrimmer.new (lit 1 1) (lit 0 1) (lit 2 1) (lit 3 1)
    v0.eq v0 = true ∧ v0.eq v2 = false := by decide +kernel

/-- rate -/
example : let v := RateTrimmer.new (lit 5 10) (lit 1 1) (lit 2 1) (lit 3 1)
    let w := RateTrimmer.new (lit 5 10) (lit 1 1) (lit 15 10) (lit 2 1)
    v.sum.toF32 = lit 2 1 ∧ v.apply 100 = 200 ∧ w.sum.toF32 = lit 15 10 ∧ w.apply 100 = 150 ∧
      (RateTrimmer.fromArray .HUNDRED .HUNDRED .HUNDRED .HUNDRED).sum = .HUNDRED := by decide +kernel

/-- added -/
example : let v0 := Trimmer.new 0 1 2 3
    v0.added 100 = .ok (Trimmer.new 100 1 2 3) ∧
    v0.added (I16_MAX + 1) = .ok (Trimmer.new I16_MAX 2 2 3) ∧
    v0.added (I16_MAX * 2) = .ok (Trimmer.new I16_MAX I16_MAX 3 3) ∧
    v0.added (I16_MAX * 3) = .ok (Trimmer.new I16_MAX I16_MAX I16_MAX 6) ∧
    v0.added (I16_MAX * 4 - 6) = .ok (Trimmer.new I16_MAX I16_MAX I16_MAX I16_MAX) ∧
    v0.added (I16_MAX * 4 - 5) = .ok (Trimmer.new I16_MAX I16_MAX I16_MAX I16_MAX) := by decide +kernel

/-! ## tempo.rs -/

/-- can_deserialize_tempo, can_serialize_tempo -/
example : fromStr Tempo.de "
            {
                \"start_tick\": 123,
                \"value\": 234
            }" = .ok ⟨123, ⟨234⟩⟩ ∧
    (Tempo.enc ⟨123, ⟨234⟩⟩).text = "{\"start_tick\":123,\"value\":234}".toList := by decide +kernel

/-! ## ctrl_chg.rs -/

/-- can_deserialize_ctrl_chg, can_serialize_ctrl_chg -/
example : fromStr CtrlChg.de "
            {
                \"start_tick\": 123,
                \"velocity\": 64,
                \"channel\": 0
            }" = .ok ⟨123, Velocity.new 64, 0⟩ ∧
    (Channel.new 1).map (fun c => (CtrlChg.enc ⟨123, Velocity.new 64, c⟩).text) =
      .ok "{\"start_tick\":123,\"velocity\":64,\"channel\":1}".toList := by decide +kernel

/-! ## grid.rs -/

/-- empty_str, non_numerical_str, zero, ok -/
example : Grid.valueOf "".toList = .error ⟨"".toList⟩ ∧ Grid.valueOf "1a".toList = .error ⟨"1a".toList⟩ ∧
    Grid.valueOf "0".toList = .error ⟨"0".toList⟩ ∧ Grid.valueOf "120".toList = .ok ⟨120⟩ := by decide +kernel

/-- snap -/
example : let g : Grid := ⟨100⟩
    Grid.fromU32 100 = .ok g ∧ g.snap 49 = .ok 0 ∧ g.snap 50 = .ok 100 ∧ g.snap 99 = .ok 100 ∧ g.snap 149 = .ok 100 ∧
    g.snap 150 = .ok 200 ∧ g.snap 199 = .ok 200 ∧ g.snap 249 = .ok 200 ∧ g.snap (-49) = .ok 0 ∧
    g.snap (-50) = .ok (-100) := by decide +kernel

/-! ## clipper.rs -/

/-- can_i32_clipped; can_f32_clipped is the same with these numbers as `f32`, which
are ordered alike. -/
example : let c := clip (fun a b : Int => decide (a < b)) 5 10
    c 4 = 5 ∧ c 5 = 5 ∧ c 6 = 6 ∧ c 9 = 9 ∧ c 10 = 10 ∧ c 11 = 10 := by decide

/-! ## solfa.rs -/

/-- score_offset_is_valid, pitch_offset_is_valid, all -/
example : Solfa.ALL = [.C, .D, .E, .F, .G, .A, .B] ∧ Solfa.ALL.map Solfa.scoreOffset = [0, 1, 2, 3, 4, 5, 6] ∧
    Solfa.ALL.map Solfa.pitchOffset = [0, 2, 4, 5, 7, 9, 11] := by decide

/-- from_score_offset -/
example : ([-1, 0, 1, 2, 3, 4, 5, 6, 7].map Solfa.fromScoreOffset : List (R Solfa)) =
    [.ok .C, .ok .C, .ok .D, .ok .E, .ok .F, .ok .G, .ok .A, .ok .B, .ok .B] := by decide

/-- add_assign, add_assign_error, sub_assign, sub_assign_error -/
example : Solfa.addAssign .C 1 = .ok .D ∧ Solfa.addAssign .D 2 = .ok .F ∧ Solfa.addAssign .B 1 = .error .explicit ∧
    Solfa.subAssign .B 1 = .ok .A ∧ Solfa.subAssign .A 2 = .ok .F ∧ Solfa.subAssign .C 1 = .error .explicit := by decide

/-! ## octave.rs -/

/-- value_too_small, value_too_big: `unwrap` of these panics. -/
example : (Octave.valueOf (-3) >>= unwrapR) = .error .unwrap ∧ (Octave.valueOf 10 >>= unwrapR) = .error .unwrap := by decide

/-- can_read_value, can_read_score_offset, can_read_offset, can_add -/
example : Octave.valueOf 1 = .ok (.ok .Oct1) ∧ Octave.Oct1.value = 1 ∧ Octave.Oct1.offset = 3 ∧
    Octave.valueOf (-1) = .ok (.ok .OctM1) ∧ Octave.OctM1.offset = 1 ∧
    Octave.valueOf 2 = .ok (.ok .Oct2) ∧ Octave.valueOf 3 = .ok (.ok .Oct3) ∧
    Octave.add .Oct1 .Oct2 = .ok .Oct3 := by decide

/-- add_assign, add_assign_error, sub_assign, sub_assign_error -/
example : Octave.addAssign .Oct0 1 = .ok .Oct1 ∧ Octave.addAssign .Oct1 2 = .ok .Oct3 ∧
    Octave.addAssign .Oct8 1 = .error .index ∧ Octave.subAssign .Oct1 1 = .ok .Oct0 ∧
    Octave.subAssign .Oct0 2 = .ok .OctM2 ∧ Octave.subAssign .Oct0 3 = .error .unwrap := by decide

/-! ## sharp_flat.rs -/

/-- offset_is_valid -/
example : SharpFlat.ALL.map SharpFlat.offset = [1, 2, -1, -2, 0, 0] := by decide

/-! ## key.rs -/

/-- can_match -/
example : Key.NONE.offset = 0 := by decide

/-- can_serialize_to_json, can_deserialize_from_json -/
example : (Key.enc ⟨-2⟩).text = "-2".toList ∧ fromStr Key.de "-2" = .ok ⟨-2⟩ := by decide +kernel

/-! ## pitch.rs -/

/-- src/pitch.rs:67-68 `MIN`, `MAX` -/
def MIN : Pitch := ⟨.C, .OctM2, .Null, 0, 0⟩
def MAX : Pitch := ⟨.G, .Oct8, .Null, 127, 74⟩

/-- too_low, lowest, f7, highest, too_high -/
example : Pitch.new .C .OctM2 .Flat = .error .explicit ∧ Pitch.new .C .OctM2 .Null = .ok MIN ∧
    (Pitch.new .F .Oct7 .Null).map Pitch.value = .ok 113 ∧ Pitch.new .G .Oct8 .Null = .ok MAX ∧
    Pitch.new .G .Oct8 .Sharp = .error .explicit := by decide

/-- lowest_score_offset, score_offset -/
example : (Pitch.new .C .OctM2 .Null).map Pitch.scoreOffset = .ok 0 ∧ (Pitch.new .D .OctM2 .Null).map Pitch.scoreOffset = .ok 1 ∧
    (Pitch.new .B .OctM2 .Null).map Pitch.scoreOffset = .ok 6 ∧ (Pitch.new .C .OctM1 .Null).map Pitch.scoreOffset = .ok 7 := by decide

/-- up_err, up, down, down_err -/
example : (MAX.up >>= unwrapR) = .error .unwrap ∧
    (Pitch.new .F .Oct8 .Null >>= fun p => p.up >>= unwrapR) = Pitch.new .G .Oct8 .Null ∧
    (Pitch.new .B .Oct7 .Null >>= fun p => p.up >>= unwrapR) = Pitch.new .C .Oct8 .Null ∧
    (Pitch.new .C .Oct8 .Null >>= fun p => p.down >>= unwrapR) = Pitch.new .B .Oct7 .Null ∧
    (Pitch.new .D .Oct7 .Null >>= fun p => p.down >>= unwrapR) = Pitch.new .C .Oct7 .Null ∧
    (MIN.down >>= unwrapR) = .error .unwrap := by decide

/-- from_score_offset -/
example : Pitch.fromScoreOffset (-1) = .ok MIN ∧ Pitch.fromScoreOffset 75 = .ok MAX ∧ Pitch.fromScoreOffset 0 = .ok MIN ∧
    Pitch.fromScoreOffset 74 = .ok MAX := by decide

/-- with_score_offset_delta, with_score_offset_delta_min_error, …_max_error -/
example :
    (Pitch.new .C .Oct8 .Flat >>= fun p => p.withScoreOffsetDelta 1 >>= unwrapR) = Pitch.new .D .Oct8 .Flat ∧
    (Pitch.new .C .Oct7 .Sharp >>= fun p => p.withScoreOffsetDelta 8 >>= unwrapR) = Pitch.new .D .Oct8 .Sharp ∧
    (Pitch.new .C .Oct7 .Sharp >>= fun p => p.withScoreOffsetDelta (-8) >>= unwrapR) = Pitch.new .B .Oct5 .Sharp ∧
    (MIN.withScoreOffsetDelta (-1) >>= unwrapR) = .error .unwrap ∧
    (MAX.withScoreOffsetDelta 1 >>= unwrapR) = .error .unwrap := by decide

/-- can_serialize_pitch, can_deserialize_pitch -/
example : (Pitch.new .C .Oct2 .DoubleFlat).map (fun p => p.enc.text) =
      .ok "{\"solfa\":\"C\",\"octave\":\"Oct2\",\"sharp_flat\":\"DoubleFlat\"}".toList ∧
    fromStr Pitch.de "
            {
                \"octave\": \"Oct2\",
                \"sharp_flat\": \"DoubleFlat\",
                \"solfa\": \"C\"
            }" = De.lift (Pitch.new .C .Oct2 .DoubleFlat) := by decide +kernel

/-- apply -/
example :
    (Pitch.new .F .Oct1 .Null >>= fun p => unwrapR (p.applyKey ⟨1⟩)) = Pitch.new .F .Oct1 .Sharp ∧
    (Pitch.new .F .Oct1 .Flat >>= fun p => unwrapR (p.applyKey ⟨1⟩)) = Pitch.new .F .Oct1 .Flat ∧
    (Pitch.new .E .Oct1 .Null >>= fun p => unwrapR (p.applyKey ⟨-2⟩)) = Pitch.new .E .Oct1 .Flat ∧
    (Pitch.new .E .Oct1 .Sharp >>= fun p => unwrapR (p.applyKey ⟨-2⟩)) = Pitch.new .E .Oct1 .Sharp ∧
    (Pitch.new .F .Oct1 .Null >>= fun p => unwrapR (p.applyKey ⟨-2⟩)) = Pitch.new .F .Oct1 .Null := by decide

/-! ## bar.rs -/

/-- `repeat_set!` of two marks: the last one is added first. -/
def repeatSet (l : List Repeat) : R RepeatSet := l.reverse.foldlM (fun s r => unwrapR (s.tryAdd r)) RepeatSet.EMPTY

/-- can_serialize_dc_fine, can_serialize_end_or_region, can_serialize_repeat_start -/
example : (repeatSet [.Dc]).map (fun s => s.enc.text) = .ok "{\"value\":4}".toList ∧
    (repeatSet [.Var1]).map (fun s => s.enc.text) = .ok "{\"value\":128}".toList ∧
    (repeatSet []).map (fun s => s.enc.text) = .ok "{\"value\":0}".toList := by decide +kernel

/-- can_deserialize_dc_fine, can_deserialize_end_or_region, can_deserialize_repeat_start -/
example : fromStr RepeatSet.de "{ \"value\": 4 }" = .ok { dc := true } ∧
    fromStr RepeatSet.de "{ \"value\": 64 } " = De.lift (repeatSet [.Coda]) ∧
    fromStr RepeatSet.de "{ \"value\": 0 }" = De.lift (repeatSet []) := by decide +kernel

/-- can_serialize_bar -/
example : (do let r ← Rhythm.new 3 4
              let s ← repeatSet [.End, .Start]
              pure (Bar.enc ⟨123, some r, none, s⟩).text : R _) =
    .ok "{\"start_tick\":123,\"rhythm\":{\"numerator\":3,\"denominator\":\"D4\"},\"key\":null,\"repeats\":{\"value\":3}}".toList := by
  decide +kernel

/-- A bar of `Bar::new(tick, None, None, RepeatSet::EMPTY)` -/
def bar (t : Nat) : Bar := ⟨t, none, none, {}⟩

/-- should_sorted, index, find, update (with natural numbers for the `f32` keys) -/
example : let s : Store Bar := Store.add (Store.add (Store.add [] 2 (bar 2)) 10 (bar 10)) 0 (bar 0)
    s = [(0, bar 0), (2, bar 2), (10, bar 10)] ∧ Store.find s 2 = .ok 1 ∧ Store.find s 0 = .ok 0 ∧
      Store.find s 10 = .ok 2 ∧ Store.find s 1 = .error 1 ∧
      Store.add s 2 (bar 7) = [(0, bar 0), (2, bar 7), (10, bar 10)] := by decide

/-- empty_repeat_set, repeat_set_contains, cannot_dc_and_start -/
example : repeatSet [] = .ok {} ∧ repeatSet [.Start, .End] = .ok { start := true, end_ := true } ∧
    RepeatSet.tryAdd { dc := true } .Start = .error { dc := true } ∧ repeatSet [.Dc] = .ok { dc := true } := by decide

end UnitTests
end Klavier
