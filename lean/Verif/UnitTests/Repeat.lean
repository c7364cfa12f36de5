import Verif.UnitTests.Values
import Verif.Model.Repeat

/-! # The unit tests of the code, on the model: repeat.rs and global_repeat.rs

As in `Verif.UnitTests.Values`: tests, not proofs. -/
set_option autoImplicit false
namespace Klavier
namespace UnitTests

/-- `Bar::new(t, None, None, s)` -/
def b (t : Nat) (s : RepeatSet) : Bar := ⟨t, none, none, s⟩

/-- `render_region(rhythm, bars.iter()).unwrap().0.to_chunks()` -/
def chunksOf (r : Rhythm) (bars : List Bar) : RR (List Chunk) := do
  let p ← renderRegion false r bars
  liftR (p.1.toChunks false)

/-- `PlayStartTick::new(t, i).to_accum_tick(&Chunk::by_accum_tick(&chunks))`, the chunks
being optimized before or not -/
def accum (optimized : Bool) (c : RR (List Chunk)) (t i : Nat) : RR (Except CannotFind Nat) := do
  let c ← c
  let l ← liftR (Chunk.byAccumTick (if optimized then Chunk.optimize c else c))
  liftR ((PlayStartTick.new t i).toAccumTick l)

/-! ## repeat.rs -/

/-- empty -/
example : let bs : List Bar := []
    let c := chunksOf ⟨4, .D4⟩ bs
    let a (t i : Nat) := accum false c t i
    c = .ok [⟨0, U32_MAX⟩] ∧
    a 0 1 = .ok (.ok 0) ∧
    a 100 1 = .ok (.ok 100) ∧
    a 100 2 = .ok (.error ⟨2, 1⟩) := by decide +kernel

/-- single_bar -/
example : let bs : List Bar := [b 100 {}]
    let c := chunksOf ⟨4, .D4⟩ bs
    let a (t i : Nat) := accum false c t i
    c = .ok [⟨0, U32_MAX⟩] ∧
    a 0 1 = .ok (.ok 0) ∧
    a 100 1 = .ok (.ok 100) ∧
    a 100 2 = .ok (.error ⟨2, 1⟩) := by decide +kernel

/-- default_start_repeat -/
example : let bs : List Bar := [b 100 { end_ := true }]
    let c := chunksOf ⟨4, .D4⟩ bs
    let a (t i : Nat) := accum true c t i
    c = .ok [⟨0, 100⟩, ⟨0, 100⟩, ⟨100, U32_MAX⟩] ∧
    c.map Chunk.optimize = .ok [⟨0, 100⟩, ⟨0, U32_MAX⟩] ∧
    a 0 1 = .ok (.ok 0) ∧
    a 50 1 = .ok (.ok 50) ∧
    a 0 2 = .ok (.ok 100) ∧
    a 50 2 = .ok (.ok 150) ∧
    a 100 1 = .ok (.ok 200) ∧
    a 150 1 = .ok (.ok 250) ∧
    a 100 2 = .ok (.error ⟨2, 1⟩) := by decide +kernel

/-- invalid_repeat_end -/
example : chunksOf ⟨4, .D4⟩
    [b 100 { end_ := true }, b 200 { end_ := true }] = .error (.err (.orphanRepeatEnd 200)) := by decide +kernel

/-- single_repeat -/
example : let bs : List Bar := [b 100 { start := true }, b 200 { end_ := true }]
    let c := chunksOf ⟨4, .D4⟩ bs
    let a (t i : Nat) := accum true c t i
    c = .ok [⟨0, 100⟩, ⟨100, 200⟩, ⟨100, 200⟩, ⟨200, U32_MAX⟩] ∧
    c.map Chunk.optimize = .ok [⟨0, 200⟩, ⟨100, U32_MAX⟩] ∧
    a 0 1 = .ok (.ok 0) ∧
    a 0 2 = .ok (.error ⟨2, 1⟩) ∧
    a 50 2 = .ok (.error ⟨2, 1⟩) ∧
    a 100 1 = .ok (.ok 100) ∧
    a 150 1 = .ok (.ok 150) ∧
    a 100 2 = .ok (.ok 200) ∧
    a 150 2 = .ok (.ok 250) ∧
    a 200 1 = .ok (.ok 300) ∧
    a 250 1 = .ok (.ok 350) ∧
    a 200 2 = .ok (.error ⟨2, 1⟩) ∧
    a 250 2 = .ok (.error ⟨2, 1⟩) := by decide +kernel

/-- single_repeat2 -/
example : let bs : List Bar := [b 50 { start := true }, b 200 { end_ := true }]
    let c := chunksOf ⟨4, .D4⟩ bs
    let a (t i : Nat) := accum true c t i
    c = .ok [⟨0, 50⟩, ⟨50, 200⟩, ⟨50, 200⟩, ⟨200, U32_MAX⟩] ∧
    c.map Chunk.optimize = .ok [⟨0, 200⟩, ⟨50, U32_MAX⟩] ∧
    a 0 1 = .ok (.ok 0) ∧
    a 50 1 = .ok (.ok 50) ∧
    a 50 2 = .ok (.ok 200) ∧
    a 199 2 = .ok (.ok 349) ∧
    a 200 1 = .ok (.ok 350) ∧
    a 200 2 = .ok (.error ⟨2, 1⟩) := by decide +kernel

/-- simple_variation -/
example : let bs : List Bar := [b 50 { var1 := true }, b 100 { var2 := true }, b 150 {}]
    let c := chunksOf ⟨4, .D4⟩ bs
    let a (t i : Nat) := accum true c t i
    c = .ok [⟨0, 50⟩, ⟨50, 100⟩, ⟨0, 50⟩, ⟨100, 150⟩, ⟨150, U32_MAX⟩] ∧
    c.map Chunk.optimize = .ok [⟨0, 100⟩, ⟨0, 50⟩, ⟨100, U32_MAX⟩] ∧
    a 0 1 = .ok (.ok 0) ∧
    a 0 2 = .ok (.ok 100) ∧
    a 20 2 = .ok (.ok 120) ∧
    a 100 1 = .ok (.ok 150) ∧
    a 100 2 = .ok (.error ⟨2, 1⟩) := by decide +kernel

/-- simple_variation2 -/
example : let bs : List Bar := [b 100 { var1 := true }, b 200 { var1 := true }, b 350 { var2 := true }, b 500 { var2 := true }, b 650 {}]
    let c := chunksOf ⟨4, .D4⟩ bs
    let a (t i : Nat) := accum true c t i
    c = .ok [⟨0, 100⟩, ⟨100, 350⟩, ⟨0, 100⟩, ⟨350, 650⟩, ⟨650, U32_MAX⟩] ∧
    c.map Chunk.optimize = .ok [⟨0, 350⟩, ⟨0, 100⟩, ⟨350, U32_MAX⟩] ∧
    a 0 1 = .ok (.ok 0) ∧
    a 200 1 = .ok (.ok 200) ∧
    a 0 2 = .ok (.ok 350) ∧
    a 350 1 = .ok (.ok 450) ∧
    a 650 1 = .ok (.ok 750) ∧
    a 650 2 = .ok (.error ⟨2, 1⟩) ∧
    a 0 3 = .ok (.error ⟨3, 2⟩) := by decide +kernel

/-- simple_dc -/
example : let bs : List Bar := [b 480 { fine := true }, b 960 {}, b 1440 { dc := true }]
    let c := chunksOf ⟨2, .D4⟩ bs
    let a (t i : Nat) := accum true c t i
    c = .ok [⟨0, 1440⟩, ⟨0, 480⟩] ∧
    c.map Chunk.optimize = .ok [⟨0, 1440⟩, ⟨0, 480⟩] ∧
    a 0 1 = .ok (.ok 0) ∧
    a 0 2 = .ok (.ok 1440) ∧
    a 0 3 = .ok (.error ⟨3, 2⟩) := by decide +kernel

/-- simple_var_dc -/
example : let bs : List Bar := [b 480 { var1 := true }, b 580 { var1 := true }, b 730 { var2 := true }, b 880 { var2 := true }, b 1030 { fine := true }, b 1180 {}, b 1280 { dc := true }]
    let c := chunksOf ⟨2, .D4⟩ bs
    let a (t i : Nat) := accum true c t i
    c = .ok [⟨0, 480⟩, ⟨480, 730⟩, ⟨0, 480⟩, ⟨730, 1030⟩, ⟨1030, 1280⟩, ⟨0, 480⟩, ⟨730, 1030⟩] ∧
    c.map Chunk.optimize = .ok [⟨0, 730⟩, ⟨0, 480⟩, ⟨730, 1280⟩, ⟨0, 480⟩, ⟨730, 1030⟩] ∧
    a 0 1 = .ok (.ok 0) ∧
    a 480 1 = .ok (.ok 480) ∧
    a 400 2 = .ok (.ok (730 + 400)) ∧
    a 800 1 = .ok (.ok (730 + 480 + (800 - 730))) ∧
    a 1180 1 = .ok (.ok (730 + 480 + (1180 - 730))) ∧
    a 0 3 = .ok (.ok (730 + 480 + (1280 - 730))) ∧
    a 0 4 = .ok (.error ⟨4, 3⟩) ∧
    a 730 2 = .ok (.ok (730 + 480 + (1280 - 730) + 480)) ∧
    a 730 3 = .ok (.error ⟨3, 2⟩) := by decide +kernel

/-- dc_and_repeat_end -/
example : let bs : List Bar := [b 480 { start := true }, b 530 { start := true,  end_ := true,  fine := true }, b 600 { start := true,  end_ := true }, b 1080 { dc := true,  end_ := true }]
    let c := chunksOf ⟨2, .D4⟩ bs
    c = .ok [⟨0, 480⟩, ⟨480, 530⟩, ⟨480, 530⟩, ⟨530, 600⟩, ⟨530, 600⟩, ⟨600, 1080⟩, ⟨600, 1080⟩, ⟨0, 480⟩, ⟨480, 530⟩] ∧
    c.map Chunk.optimize = .ok [⟨0, 530⟩, ⟨480, 600⟩, ⟨530, 1080⟩, ⟨600, 1080⟩, ⟨0, 530⟩] := by decide +kernel

/-- two_vars -/
example : let bs : List Bar := [b 50 { start := true }, b 100 {}, b 150 { var1 := true }, b 200 { var2 := true }, b 250 { start := true }, b 300 {}, b 350 { var1 := true }, b 400 { var2 := true }, b 450 {}]
    let c := chunksOf ⟨2, .D4⟩ bs
    c = .ok [⟨0, 50⟩, ⟨50, 150⟩, ⟨150, 200⟩, ⟨50, 150⟩, ⟨200, 250⟩, ⟨250, 350⟩, ⟨350, 400⟩, ⟨250, 350⟩, ⟨400, 450⟩, ⟨450, U32_MAX⟩] ∧
    c.map Chunk.optimize = .ok [⟨0, 200⟩, ⟨50, 150⟩, ⟨200, 400⟩, ⟨250, 350⟩, ⟨400, U32_MAX⟩] := by decide +kernel

/-- two_vars_with_end_bar -/
example : let bs : List Bar := [b 50 { start := true }, b 100 {}, b 150 { var1 := true }, b 200 { var2 := true }, b 250 {}, b 300 { start := true }, b 350 {}, b 400 { var1 := true }, b 450 { var1 := true }, b 500 { var2 := true }, b 550 {}, b 600 {}]
    let c := chunksOf ⟨2, .D4⟩ bs
    c = .ok [⟨0, 50⟩, ⟨50, 150⟩, ⟨150, 200⟩, ⟨50, 150⟩, ⟨200, 250⟩, ⟨250, 300⟩, ⟨300, 400⟩, ⟨400, 500⟩, ⟨300, 400⟩, ⟨500, 550⟩, ⟨550, U32_MAX⟩] ∧
    c.map Chunk.optimize = .ok [⟨0, 200⟩, ⟨50, 150⟩, ⟨200, 500⟩, ⟨300, 400⟩, ⟨500, U32_MAX⟩] := by decide +kernel

/-- repeat_and_dc -/
example : let bs : List Bar := [b 240 { start := true }, b 320 {}, b 370 { var1 := true }, b 420 { var2 := true }, b 470 {}, b 520 { start := true }, b 570 {}, b 620 { var1 := true }, b 670 { var2 := true }, b 720 { fine := true }, b 770 { start := true }, b 820 {}, b 870 {}, b 920 { end_ := true }, b 970 { dc := true }]
    let c := chunksOf ⟨2, .D4⟩ bs
    c = .ok [⟨0, 240⟩, ⟨240, 370⟩, ⟨370, 420⟩, ⟨240, 370⟩, ⟨420, 470⟩, ⟨470, 520⟩, ⟨520, 620⟩, ⟨620, 670⟩, ⟨520, 620⟩, ⟨670, 720⟩, ⟨720, 770⟩, ⟨770, 920⟩, ⟨770, 920⟩, ⟨920, 970⟩, ⟨0, 240⟩, ⟨240, 370⟩, ⟨420, 470⟩, ⟨470, 520⟩, ⟨520, 620⟩, ⟨670, 720⟩] ∧
    c.map Chunk.optimize = .ok [⟨0, 420⟩, ⟨240, 370⟩, ⟨420, 670⟩, ⟨520, 620⟩, ⟨670, 920⟩, ⟨770, 970⟩, ⟨0, 370⟩, ⟨420, 620⟩, ⟨670, 720⟩] := by decide +kernel

/-- consecutive_repeat -/
example : let bs : List Bar := [b 50 {}, b 200 { start := true,  end_ := true }, b 300 { end_ := true }]
    let c := chunksOf ⟨2, .D4⟩ bs
    c = .ok [⟨0, 200⟩, ⟨0, 200⟩, ⟨200, 300⟩, ⟨200, 300⟩, ⟨300, U32_MAX⟩] ∧
    c.map Chunk.optimize = .ok [⟨0, 200⟩, ⟨0, 300⟩, ⟨200, U32_MAX⟩] := by decide +kernel

/-- fine_and_repeat -/
example : let bs : List Bar := [b 120 {}, b 270 { start := true,  end_ := true,  fine := true }, b 370 { dc := true,  end_ := true }]
    let c := chunksOf ⟨1, .D4⟩ bs
    c = .ok [⟨0, 270⟩, ⟨0, 270⟩, ⟨270, 370⟩, ⟨270, 370⟩, ⟨0, 270⟩] ∧
    c.map Chunk.optimize = .ok [⟨0, 270⟩, ⟨0, 370⟩, ⟨270, 370⟩, ⟨0, 270⟩] := by decide +kernel

/-- dc_and_repeat -/
example : let bs : List Bar := [b 120 { start := true }, b 170 { start := true,  end_ := true,  fine := true }, b 270 { start := true,  end_ := true }, b 370 { dc := true,  end_ := true }]
    let c := chunksOf ⟨1, .D4⟩ bs
    c = .ok [⟨0, 120⟩, ⟨120, 170⟩, ⟨120, 170⟩, ⟨170, 270⟩, ⟨170, 270⟩, ⟨270, 370⟩, ⟨270, 370⟩, ⟨0, 120⟩, ⟨120, 170⟩] ∧
    c.map Chunk.optimize = .ok [⟨0, 170⟩, ⟨120, 270⟩, ⟨170, 370⟩, ⟨270, 370⟩, ⟨0, 170⟩] := by decide +kernel

/-- dc_without_fine -/
example : let bs : List Bar := [b 120 {}, b 170 { start := true }, b 270 {}, b 370 { dc := true,  end_ := true }, b 470 {}]
    let c := chunksOf ⟨1, .D4⟩ bs
    c = .ok [⟨0, 170⟩, ⟨170, 370⟩, ⟨170, 370⟩, ⟨0, 170⟩, ⟨170, 370⟩, ⟨370, U32_MAX⟩] ∧
    c.map Chunk.optimize = .ok [⟨0, 370⟩, ⟨170, 370⟩, ⟨0, U32_MAX⟩] := by decide +kernel

/-- simple_ds -/
example : let bs : List Bar := [b 120 {}, b 200 { segno := true }, b 270 { start := true,  end_ := true,  fine := true }, b 370 { ds := true,  end_ := true }]
    let c := chunksOf ⟨1, .D4⟩ bs
    c = .ok [⟨0, 270⟩, ⟨0, 270⟩, ⟨270, 370⟩, ⟨270, 370⟩, ⟨200, 270⟩] ∧
    c.map Chunk.optimize = .ok [⟨0, 270⟩, ⟨0, 370⟩, ⟨270, 370⟩, ⟨200, 270⟩] := by decide +kernel

/-- var_and_ds -/
example : let bs : List Bar := [b 120 {}, b 200 { segno := true }, b 270 { start := true,  end_ := true,  fine := true }, b 370 { var1 := true }, b 470 { var2 := true }, b 570 { ds := true }]
    let c := chunksOf ⟨1, .D4⟩ bs
    c = .ok [⟨0, 270⟩, ⟨0, 270⟩, ⟨270, 370⟩, ⟨370, 470⟩, ⟨270, 370⟩, ⟨470, 570⟩, ⟨200, 270⟩] ∧
    c.map Chunk.optimize = .ok [⟨0, 270⟩, ⟨0, 470⟩, ⟨270, 370⟩, ⟨470, 570⟩, ⟨200, 270⟩] := by decide +kernel

/-- ds_and_coda -/
example : let bs : List Bar := [b 120 {}, b 200 { segno := true }, b 270 { end_ := true }, b 370 { coda := true }, b 470 {}, b 570 { coda := true }, b 670 { ds := true }]
    let c := chunksOf ⟨1, .D4⟩ bs
    c = .ok [⟨0, 270⟩, ⟨0, 270⟩, ⟨270, 670⟩, ⟨200, 270⟩, ⟨270, 370⟩, ⟨570, U32_MAX⟩] ∧
    c.map Chunk.optimize = .ok [⟨0, 270⟩, ⟨0, 670⟩, ⟨200, 370⟩, ⟨570, U32_MAX⟩] := by decide +kernel

/-- ds_and_coda_fine -/
example : let bs : List Bar := [b 120 {}, b 200 { segno := true }, b 270 { end_ := true }, b 370 { coda := true }, b 470 {}, b 570 { coda := true }, b 670 { fine := true }, b 770 { ds := true }]
    let c := chunksOf ⟨1, .D4⟩ bs
    c = .ok [⟨0, 270⟩, ⟨0, 270⟩, ⟨270, 770⟩, ⟨200, 270⟩, ⟨270, 370⟩, ⟨570, 670⟩] ∧
    c.map Chunk.optimize = .ok [⟨0, 270⟩, ⟨0, 770⟩, ⟨200, 370⟩, ⟨570, 670⟩] := by decide +kernel

/-- ds_and_coda_skip_ds -/
example : let bs : List Bar := [b 120 {}, b 200 { segno := true }, b 270 { end_ := true }, b 370 { coda := true }, b 470 {}, b 570 { ds := true }, b 670 { coda := true }]
    let c := chunksOf ⟨1, .D4⟩ bs
    c = .ok [⟨0, 270⟩, ⟨0, 270⟩, ⟨270, 570⟩, ⟨200, 270⟩, ⟨270, 370⟩, ⟨670, U32_MAX⟩] ∧
    c.map Chunk.optimize = .ok [⟨0, 270⟩, ⟨0, 570⟩, ⟨200, 370⟩, ⟨670, U32_MAX⟩] := by decide +kernel

/-- dc_goes_to_fine -/
example : let bs : List Bar := [b 200 { fine := true }, b 400 { dc := true }]
    let c := chunksOf ⟨1, .D4⟩ bs
    c.map List.length = .ok 1 := by decide +kernel

/-- render_sequence_region_when_non_dcds, render_sequence_region_when_dcds_iter0 -/
example : let f (p : RenderPhase) := (SimpleRegion.seq ⟨100, 200⟩).renderChunks false p
    f .nonDcDs = .ok [⟨100, 200⟩] ∧ f (.iter0 99) = .ok [] ∧ f (.iter0 100) = .ok [] ∧ f (.iter0 101) = .ok [⟨100, 101⟩] ∧
    f (.iter0 199) = .ok [⟨100, 199⟩] ∧ f (.iter0 200) = .ok [⟨100, 200⟩] ∧ f (.iter0 201) = .ok [⟨100, 200⟩] := by
  decide +kernel

/-- src/global_repeat.rs:143-146 `adding_first_bar_len` (called only in tests) -/
def withFirst (l : Nat) (g : GlobalRepeatBuilder) : RR GlobalRepeatBuilder := .ok { g with firstBarLen := some l }

/-- render_sequence_region_when_dcds_iter1 -/
example : (do let g ← (GlobalRepeatBuilder.new ⟨4, .D4⟩).addingSegno 99
              let g ← g.addingDc 400 100
              let g ← withFirst 30 g
              let p ← g.build false
              match p.1 with
              | some g => liftR ((SimpleRegion.seq ⟨100, 200⟩).renderChunks false (.iter1 g))
              | none => .error (.panic .unwrap) : RR (List Chunk)) = .ok [⟨100, 200⟩] := by decide +kernel

/-! ## global_repeat.rs -/

/-- The ranges of the second pass after these calls on `GlobalRepeatBuilder::new(Rhythm::new(4, 4))` -/
def ranges (fs : List (GlobalRepeatBuilder → RR GlobalRepeatBuilder)) : RR (Option IntervalSet) := do
  let g ← fs.foldlM (fun g f => f g) (GlobalRepeatBuilder.new ⟨4, .D4⟩)
  let p ← g.build false
  pure (p.1.map GlobalRepeat.iter1)

/-- dc_without_fine, dc_with_fine, dc_with_fine_auftakt, dc_with_coda_fine_auftakt -/
example : ranges [(·.addingDc 4000 (240 * 4)), withFirst (240 * 4)] = .ok (some [(0, U32_MAX - 1)]) ∧
    ranges [(·.addingDc 8000 (240 * 4)), (·.addingFine 4000), withFirst (240 * 4)] = .ok (some [(0, 4000 - 1)]) ∧
    ranges [(·.addingDc 4000 (240 * 4)), (·.addingFine 2000), withFirst 240] = .ok (some [(240, 2000 - 1)]) ∧
    ranges [(·.addingDc 4000 (240 * 4)), (·.addingCoda 1000), (·.addingCoda 5000), (·.addingFine 8000), withFirst 240] =
      .ok (some [(240, 1000 - 1), (5000, 8000 - 1)]) := by decide +kernel

/-- ds_without_fine, ds_with_fine, ds_with_coda_fine -/
example : ranges [(·.addingDs 4000), (·.addingSegno 100)] = .ok (some [(100, U32_MAX - 1)]) ∧
    ranges [(·.addingDs 8000), (·.addingFine 4000), (·.addingSegno 100)] = .ok (some [(100, 4000 - 1)]) ∧
    ranges [(·.addingDs 4000), (·.addingCoda 1000), (·.addingCoda 5000), (·.addingFine 8000), (·.addingSegno 240)] =
      .ok (some [(240, 1000 - 1), (5000, 8000 - 1)]) := by decide +kernel

end UnitTests
end Klavier
