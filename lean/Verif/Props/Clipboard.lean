import Verif.Lemmas.Clipboard

/-! # C39: moving a copied selection -/
set_option autoImplicit false
namespace Klavier
open Models

private def nt (base : Nat) (trim : Int) : Note :=
  ⟨base, ⟨.C, .Oct4, .Null, 60, 35⟩, ⟨.Quarter, 2, 0⟩, false, false, ⟨64⟩, .new trim 0 0 0, .ONE, .ZERO, 0⟩

/-- A selection with an item of every kind, as in the test of models.rs. -/
private def sel : Models :=
  { notes := [nt 100 0], bars := [{ startTick := 110 }], tempos := [⟨110, ⟨200⟩⟩, ⟨114, ⟨205⟩⟩],
    dumpers := [⟨120, ⟨64⟩, 0⟩], softs := [⟨90, ⟨64⟩, 0⟩] }

/-- C39: in a non-empty selection whose ticks stay within 32 bits, every tick is
moved by the same distance and the earliest item starts at the requested tick. -/
theorem C39_moved (m : Models) (tick f : Nat)
    (hb : ∀ t ∈ m.ticks, t ≤ U32_MAX) (hf : Earliest m.ticks f)
    (hfit : ∀ t ∈ m.ticks, t - f + tick ≤ U32_MAX) :
    (m.moveToTick tick).ticks = m.ticks.map (fun t => t - f + tick) ∧
    Earliest (m.moveToTick tick).ticks tick := by
  have e : (m.moveToTick tick).ticks = m.ticks.map (fun t => t - f + tick) := by
    rw [moveToTick_ticks m tick hb, smallestTick_earliest m f hf hb]
    refine List.map_congr_left fun t h => ?_
    have h1 := hfit t h
    have h2 := hf.2 t h
    have := asU32_of_range (x := (t : Int) + ((tick : Int) - f)) (by omega) (by omega)
    omega
  refine ⟨e, ?_⟩
  rw [e]
  refine ⟨List.mem_map.2 ⟨f, hf.1, by omega⟩, fun t h => ?_⟩
  obtain ⟨s, _, rfl⟩ := List.mem_map.1 h
  omega

example : (∀ t ∈ sel.ticks, t ≤ U32_MAX) ∧ Earliest sel.ticks 90 ∧ (∀ t ∈ sel.ticks, t - 90 + 50 ≤ U32_MAX) ∧
    (sel.moveToTick 50).ticks = [60, 70, 70, 74, 80, 50] := by
  unfold Earliest; decide

/-- C39: the distance between any two items is kept, in either direction. -/
theorem C39_distances (m : Models) (tick f : Nat)
    (hb : ∀ t ∈ m.ticks, t ≤ U32_MAX) (hf : Earliest m.ticks f)
    (hfit : ∀ t ∈ m.ticks, t - f + tick ≤ U32_MAX) (i j : Nat) (a b a' b' : Nat)
    (ha : m.ticks[i]? = some a) (hb' : m.ticks[j]? = some b)
    (ha' : (m.moveToTick tick).ticks[i]? = some a') (hb'' : (m.moveToTick tick).ticks[j]? = some b') :
    (a' : Int) - b' = a - b := by
  rw [(C39_moved m tick f hb hf hfit).1, List.getElem?_map] at ha' hb''
  rw [ha] at ha'; rw [hb'] at hb''
  simp only [Option.map_some, Option.some.injEq] at ha' hb''
  have h1 := hf.2 a (List.mem_of_getElem? ha)
  have h2 := hf.2 b (List.mem_of_getElem? hb')
  omega

example : sel.ticks = [100, 110, 110, 114, 120, 90] ∧ (sel.moveToTick 200).ticks = [210, 220, 220, 224, 230, 200] ∧
    (sel.moveToTick 200).ticks[0]? = some 210 ∧ (sel.moveToTick 200).ticks[5]? = some 200 := by decide

/-- C39: everything but the ticks is kept (for every tick, also when ticks wrap):
the same items in the same order with the same attributes. -/
theorem C39_attributes (m : Models) (tick : Nat) : m.SameButTicks (m.moveToTick tick) :=
  moveToTick_same m tick

example : sel.SameButTicks (sel.moveToTick 4294967295) ∧ (sel.moveToTick 4294967295).ticks = [9, 19, 19, 23, 29, 4294967295] :=
  ⟨C39_attributes _ _, by decide⟩

/-- C39: an empty selection is returned as it is. -/
theorem C39_empty (m : Models) (tick : Nat) (h : m.ticks = []) : m.moveToTick tick = m := by
  obtain ⟨n, b, t, d, s⟩ := m
  simp only [ticks, List.append_eq_nil_iff, List.map_eq_nil_iff] at h
  obtain ⟨⟨⟨⟨rfl, rfl⟩, rfl⟩, rfl⟩, rfl⟩ := h
  unfold moveToTick
  simp

example : ({} : Models).ticks = [] := rfl

/-- C39: a selection moved to where it already starts is unchanged. -/
theorem C39_stay (m : Models) (f : Nat) (hb : ∀ t ∈ m.ticks, t ≤ U32_MAX) (hf : Earliest m.ticks f) :
    m.moveToTick f = m := by
  unfold moveToTick
  simp [smallestTick_earliest m f hf hb]

example : (∀ t ∈ sel.ticks, t ≤ U32_MAX) ∧ Earliest sel.ticks 90 ∧ sel.moveToTick 90 = sel :=
  ⟨by decide, by unfold Earliest; decide, C39_stay sel 90 (by decide) (by unfold Earliest; decide)⟩

/-- C39: the trimmed start of every note (base tick plus trim total, before it is
clamped at 0) moves by the same distance. -/
theorem C39_sounding (m : Models) (tick f : Nat)
    (hb : ∀ t ∈ m.ticks, t ≤ U32_MAX) (hf : Earliest m.ticks f)
    (hfit : ∀ t ∈ m.ticks, t - f + tick ≤ U32_MAX) :
    (m.moveToTick tick).sounding = m.sounding.map (fun (s : Int) => s - f + tick) := by
  unfold moveToTick
  rw [smallestTick_earliest m f hf hb]
  simp only
  split
  · rename_i h
    conv => lhs; rw [← List.map_id m.sounding]
    refine List.map_congr_left fun s _ => ?_
    simp only [id]; omega
  · simp only [sounding, List.map_map]
    refine List.map_congr_left fun n hn => ?_
    have hm : n.baseStartTick ∈ m.ticks := by
      simp only [ticks, List.mem_append, List.mem_map]
      exact .inl (.inl (.inl (.inl ⟨n, hn, rfl⟩)))
    have h1 := hfit _ hm
    have h2 := hf.2 _ hm
    have := asU32_of_range (x := (n.baseStartTick : Int) + ((tick : Int) - f)) (by omega) (by omega)
    simp only [Function.comp]
    omega

example : (⟨[nt 100 (-20), nt 130 7], [], [], [], []⟩ : Models).sounding = [80, 137] ∧
    ((⟨[nt 100 (-20), nt 130 7], [], [], [], []⟩ : Models).moveToTick 10).sounding = [-10, 47] := by decide

/-- C39: what does not hold: `Note::start_tick` is clamped at 0, so the distance
between two played notes can change. -/
theorem C39_played_false : ∃ (m : Models) (tick f : Nat) (a b a' b' : Note), tick ≤ U32_MAX ∧
    (∀ t ∈ m.ticks, t ≤ U32_MAX) ∧ Earliest m.ticks f ∧ (∀ t ∈ m.ticks, t - f + tick ≤ U32_MAX) ∧
    m.notes = [a, b] ∧ (m.moveToTick tick).notes = [a', b'] ∧
    (b.startTick : Int) - a.startTick = 30 ∧ (b'.startTick : Int) - a'.startTick = 40 :=
  ⟨{ notes := [nt 10 (-20), nt 30 0] }, 100, 10, nt 10 (-20), nt 30 0, nt 100 (-20), nt 120 0,
    by decide, by decide, by unfold Earliest; decide, by decide, rfl, by decide, by decide, by decide⟩

/-- C39: without the bound of 32 bits it fails: a tick that does not fit wraps
silently, and the earliest item no longer starts at the requested tick. -/
theorem C39_wrap_false : ∃ (m : Models) (tick f : Nat), tick ≤ U32_MAX ∧
    (∀ t ∈ m.ticks, t ≤ U32_MAX) ∧ Earliest m.ticks f ∧ m.ticks = [0, 100] ∧
    (m.moveToTick tick).ticks = [4294967295, 99] ∧ ¬ Earliest (m.moveToTick tick).ticks tick :=
  ⟨{ tempos := [⟨0, ⟨120⟩⟩, ⟨100, ⟨90⟩⟩] }, 4294967295, 0, by decide, by decide,
    by unfold Earliest; decide, by decide, by decide, by unfold Earliest; decide⟩

end Klavier
