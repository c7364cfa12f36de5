import Verif.Lemmas.Pitch

/-! # C01-C05: pitches -/
set_option autoImplicit false
namespace Klavier
open Spec

/-! ## C01 -/

/-- C01: decision logic of building a pitch, against the musical MIDI number. -/
theorem C01_construct (s : Solfa) (o : Octave) (a : SharpFlat) :
    (midi s o a < 0 → Pitch.valueOf s o a = .error (.tooLow s o a (midi s o a)) ∧
      Pitch.new s o a = .error .explicit) ∧
    (127 < midi s o a → Pitch.valueOf s o a = .error (.tooHigh s o a (midi s o a)) ∧
      Pitch.new s o a = .error .explicit) ∧
    (0 ≤ midi s o a → midi s o a ≤ 127 →
      ∃ p : Pitch, Pitch.valueOf s o a = .ok p ∧ Pitch.new s o a = .ok p ∧
        p.solfa = s ∧ p.octave = o ∧ p.sharpFlat = a ∧
        (p.value : Int) = midi s o a ∧ p.scoreOffset = staff s o) := by
  have hs := valueOf_spec s o a
  refine ⟨fun h => ?_, fun h => ?_, fun h1 h2 => ?_⟩
  · rw [if_pos h] at hs
    exact ⟨hs, by simp only [Pitch.new, hs]⟩
  · rw [if_neg (by omega), if_pos h] at hs
    exact ⟨hs, by simp only [Pitch.new, hs]⟩
  · rw [if_neg (by omega), if_neg (by omega)] at hs
    refine ⟨_, hs, by simp only [Pitch.new, hs], rfl, rfl, rfl, ?_, rfl⟩
    simp only
    omega

example : midi .G .Oct8 .Null = 127 ∧ Pitch.new .G .Oct8 .Null = .ok ⟨.G, .Oct8, .Null, 127, 74⟩ ∧
    midi .G .Oct8 .Sharp = 128 ∧ Pitch.valueOf .G .Oct8 .Sharp = .error (.tooHigh .G .Oct8 .Sharp 128) := by decide +kernel

/-- The edits the API offers on a pitch. -/
inductive PitchEdit where
  | up | down | sharp | flat | natural
  | shift (d : Int)
  | key (k : Key)

/-- Run one edit. -/
def PitchEdit.run : PitchEdit → Pitch → R (Except PitchError Pitch)
  | .up, p => p.up
  | .down, p => p.down
  | .sharp, p => .ok p.toggleSharp
  | .flat, p => .ok p.toggleFlat
  | .natural, p => .ok p.toggleNatural
  | .shift d, p => p.withScoreOffsetDelta d
  | .key k, p => .ok (p.applyKey k)

/-- Pitches obtainable by constructing one and editing it any number of times. -/
inductive PitchReachable : Pitch → Prop
  | new {s o a p} : Pitch.new s o a = .ok p → PitchReachable p
  | line {n p} : Pitch.fromScoreOffset n = .ok p → PitchReachable p
  | edit {p q} (e : PitchEdit) : PitchReachable p → e.run p = .ok (.ok q) → PitchReachable q

private theorem valid_of_valueOf {s o a q} (h : Pitch.valueOf s o a = .ok q) : ValidPitch q :=
  ((valueOf_ok_iff ..).1 h).1

/-- C01: whatever chain of edits produced it, a pitch is a MIDI note in 0..127
whose cached MIDI number and staff position are the ones its name denotes. -/
theorem C01_reachable_valid {p : Pitch} (h : PitchReachable p) : ValidPitch p := by
  induction h with
  | new h =>
    simp only [Pitch.new] at h
    split at h
    · cases h
    · next hq => cases h; exact valid_of_valueOf hq
  | line h =>
    simp only [Pitch.fromScoreOffset] at h
    revert h
    generalize (if _ < Pitch.MIN_SCORE_OFFSET then (_ : Int) else _) = m
    intro h
    cases hs : Pitch.scoreOffsetToSolfaOctave m with
    | error e => rw [hs] at h; cases h
    | ok so =>
      rw [hs] at h
      have h : unwrapR (Pitch.valueOf so.1 so.2 .Null) = .ok _ := h
      cases hv : Pitch.valueOf so.1 so.2 .Null with
      | error e => rw [hv] at h; cases h
      | ok q => rw [hv] at h; cases h; exact valid_of_valueOf hv
  | @edit p q e _ hrun ih =>
    cases e with
    | up =>
      obtain ⟨s, o, _, hu⟩ := up_spec p (B8_not_valid ih)
      simp only [PitchEdit.run, hu] at hrun
      exact valid_of_valueOf (Except.ok.inj hrun)
    | down =>
      by_cases hc : p.solfa = .C ∧ p.octave = .OctM2
      · simp only [PitchEdit.run, Pitch.down, hc.1, hc.2, Octave.MIN] at hrun
        cases hrun
      · obtain ⟨s, o, _, hu⟩ := down_spec p hc
        simp only [PitchEdit.run, hu] at hrun
        exact valid_of_valueOf (Except.ok.inj hrun)
    | sharp => exact valid_of_valueOf (Except.ok.inj hrun)
    | flat => exact valid_of_valueOf (Except.ok.inj hrun)
    | natural => exact valid_of_valueOf (Except.ok.inj hrun)
    | shift d =>
      simp only [PitchEdit.run, Pitch.withScoreOffsetDelta] at hrun
      cases hc : chkI32 (p.scoreOffset + d) with
      | error e => rw [hc] at hrun; cases hrun
      | ok n =>
        rw [hc] at hrun
        simp only [bind, Except.bind] at hrun
        split at hrun
        · cases hrun
        · cases hs : Pitch.scoreOffsetToSolfaOctave n with
          | error e => rw [hs] at hrun; cases hrun
          | ok so =>
            rw [hs] at hrun
            exact valid_of_valueOf (Except.ok.inj hrun)
    | key k =>
      have hrun := Except.ok.inj hrun
      simp only [Pitch.applyKey] at hrun
      split at hrun
      · split at hrun
        · split at hrun
          · exact valid_of_valueOf hrun
          · cases hrun; exact ih
        · cases hrun; exact ih
      · cases hrun; exact ih

example : ∃ p, PitchReachable p ∧ p.value = 61 ∧ p.sharpFlat = .Sharp :=
  ⟨⟨.C, .Oct3, .Sharp, 61, 35⟩,
    .edit .sharp (.new (s := .C) (o := .Oct3) (a := .Null) (by decide +kernel : _ = Except.ok ⟨.C, .Oct3, .Null, 60, 35⟩))
      (by decide +kernel), rfl, rfl⟩

/-! ## C02 -/

/-- C02: exact result of one staff step up. -/
theorem C02_up {p : Pitch} (hp : ValidPitch p) :
    ∃ s o, staff s o = staff p.solfa p.octave + 1 ∧
      (midi s o p.sharpFlat ≤ 127 → ∃ q, p.up = .ok (.ok q) ∧ ValidPitch q ∧
        q.solfa = s ∧ q.octave = o ∧ q.sharpFlat = p.sharpFlat ∧
        q.scoreOffset = p.scoreOffset + 1 ∧ p.value < q.value ∧ q.value ≤ p.value + 2) ∧
      (127 < midi s o p.sharpFlat →
        p.up = .ok (.error (.tooHigh s o p.sharpFlat (midi s o p.sharpFlat)))) := by
  obtain ⟨s, o, hso, hu⟩ := up_spec p (B8_not_valid hp)
  have hstep := naturalMidi_step (staff p.solfa p.octave)
  have hm : midi s o p.sharpFlat = naturalMidi (staff p.solfa p.octave + 1) + alter p.sharpFlat := by
    simp only [midi, hso]
  have hp1 := hp.value
  have hp2 := hp.low
  have hp0 : midi p.solfa p.octave p.sharpFlat = naturalMidi (staff p.solfa p.octave) + alter p.sharpFlat := rfl
  refine ⟨s, o, hso, fun h => ?_, fun h => ?_⟩
  · obtain ⟨_, _, h3⟩ := C01_construct s o p.sharpFlat
    obtain ⟨q, hq, -, hs, ho, ha, hv, hst⟩ := h3 (by omega) h
    refine ⟨q, by rw [hu, hq], valid_of_valueOf hq, hs, ho, ha, ?_, by omega, by omega⟩
    have := hp.staff
    omega
  · rw [hu, ((C01_construct s o p.sharpFlat).2.1 h).1]

example : ValidPitch ⟨.G, .Oct8, .Null, 127, 74⟩ ∧ staff .A .Oct8 = staff .G .Oct8 + 1 ∧ midi .A .Oct8 .Null = 129 ∧
    Pitch.up ⟨.G, .Oct8, .Null, 127, 74⟩ = .ok (.error (.tooHigh .A .Oct8 .Null 129)) :=
  ⟨⟨by decide, by decide, by decide, by decide⟩, by decide +kernel⟩

/-- C02: exact result of one staff step down. -/
theorem C02_down {p : Pitch} (hp : ValidPitch p) :
    (staff p.solfa p.octave = 0 → p.down = .ok (.error (.tooLow .C .OctM2 p.sharpFlat (-1)))) ∧
    (0 < staff p.solfa p.octave → ∃ s o, staff s o + 1 = staff p.solfa p.octave ∧
      (0 ≤ midi s o p.sharpFlat → ∃ q, p.down = .ok (.ok q) ∧ ValidPitch q ∧
        q.solfa = s ∧ q.octave = o ∧ q.sharpFlat = p.sharpFlat ∧
        q.scoreOffset = p.scoreOffset - 1 ∧ q.value < p.value ∧ p.value ≤ q.value + 2) ∧
      (midi s o p.sharpFlat < 0 →
        p.down = .ok (.error (.tooLow s o p.sharpFlat (midi s o p.sharpFlat))))) := by
  constructor
  · intro h
    obtain ⟨h1, h2⟩ := staff_inj p.solfa p.octave .C .OctM2 (by rw [h]; decide)
    simp only [Pitch.down, h1, h2, Octave.MIN]
    rfl
  · intro hpos
    have hne : ¬ (p.solfa = .C ∧ p.octave = .OctM2) := by
      rintro ⟨h1, h2⟩
      rw [h1, h2] at hpos
      exact absurd hpos (by decide)
    obtain ⟨s, o, hso, hu⟩ := down_spec p hne
    have hstep := naturalMidi_step (staff s o)
    have hm : midi p.solfa p.octave p.sharpFlat = naturalMidi (staff s o + 1) + alter p.sharpFlat := by
      simp only [midi, hso]
    have hm0 : midi s o p.sharpFlat = naturalMidi (staff s o) + alter p.sharpFlat := rfl
    have hp1 := hp.value
    have hp2 := hp.high
    refine ⟨s, o, hso, fun h => ?_, fun h => ?_⟩
    · obtain ⟨_, _, h3⟩ := C01_construct s o p.sharpFlat
      obtain ⟨q, hq, -, hs, ho, ha, hv, hst⟩ := h3 h (by omega)
      refine ⟨q, by rw [hu, hq], valid_of_valueOf hq, hs, ho, ha, ?_, by omega, by omega⟩
      have := hp.staff
      omega
    · rw [hu, ((C01_construct s o p.sharpFlat).1 h).1]

example : ValidPitch ⟨.C, .Oct4, .Flat, 71, 42⟩ ∧ Pitch.down ⟨.C, .Oct4, .Flat, 71, 42⟩ = .ok (.ok ⟨.B, .Oct3, .Flat, 70, 41⟩) ∧
    ValidPitch ⟨.C, .OctM2, .Sharp, 1, 0⟩ ∧ Pitch.down ⟨.C, .OctM2, .Sharp, 1, 0⟩ = .ok (.error (.tooLow .C .OctM2 .Sharp (-1))) :=
  ⟨⟨by decide, by decide, by decide, by decide⟩, by decide +kernel, ⟨by decide, by decide, by decide, by decide⟩, by decide +kernel⟩

/-- C02: stepping down undoes a successful step up. -/
theorem C02_down_up {p q : Pitch} (hp : ValidPitch p) (h : p.up = .ok (.ok q)) :
    q.down = .ok (.ok p) := by
  obtain ⟨s, o, hso, h1, h2⟩ := C02_up hp
  by_cases hm : midi s o p.sharpFlat ≤ 127
  · obtain ⟨q', hq', hqv, hqs, hqo, hqa, -⟩ := h1 hm
    rw [h] at hq'
    obtain rfl : q = q' := by injection hq' with h; injection h
    obtain ⟨-, hd⟩ := C02_down hqv
    obtain ⟨s', o', hso', hd1, -⟩ := hd (by rw [hqs, hqo, hso]; omega)
    rw [hqs, hqo, hso] at hso'
    obtain ⟨rfl, rfl⟩ := staff_inj s' o' p.solfa p.octave (by omega)
    obtain ⟨r, hr, hrv, hrs, hro, hra, -⟩ := hd1 (by rw [hqa]; exact hp.low)
    rw [hr, valid_ext hrv hp hrs hro (hra.trans hqa)]
  · rw [h2 (by omega)] at h
    cases h

example : Pitch.down ⟨.C, .Oct4, .Flat, 71, 42⟩ = .ok (.ok ⟨.B, .Oct3, .Flat, 70, 41⟩) :=
  C02_down_up ⟨by decide, by decide, by decide, by decide⟩ (by decide +kernel)

/-- C02: stepping up undoes a successful step down. -/
theorem C02_up_down {p q : Pitch} (hp : ValidPitch p) (h : p.down = .ok (.ok q)) :
    q.up = .ok (.ok p) := by
  obtain ⟨h0, h1⟩ := C02_down hp
  by_cases hz : staff p.solfa p.octave = 0
  · rw [h0 hz] at h; cases h
  · obtain ⟨s, o, hso, h1, h2⟩ := h1 (by omega)
    by_cases hm : 0 ≤ midi s o p.sharpFlat
    · obtain ⟨q', hq', hqv, hqs, hqo, hqa, -⟩ := h1 hm
      rw [h] at hq'
      obtain rfl : q = q' := by injection hq' with h; injection h
      obtain ⟨s', o', hso', hd1, -⟩ := C02_up hqv
      rw [hqs, hqo, hso] at hso'
      obtain ⟨rfl, rfl⟩ := staff_inj s' o' p.solfa p.octave (by omega)
      obtain ⟨r, hr, hrv, hrs, hro, hra, -⟩ := hd1 (by rw [hqa]; exact hp.high)
      rw [hr, valid_ext hrv hp hrs hro (hra.trans hqa)]
    · rw [h2 (by omega)] at h
      cases h

example : ValidPitch ⟨.B, .Oct3, .Flat, 70, 41⟩ ∧
    Pitch.up ⟨.B, .Oct3, .Flat, 70, 41⟩ = .ok (.ok ⟨.C, .Oct4, .Flat, 71, 42⟩) :=
  ⟨⟨by decide, by decide, by decide, by decide⟩, by decide +kernel⟩

/-! ## C03 -/

private theorem shift_core {p : Pitch} (hp : ValidPitch p) (d : Int)
    (hlo : I32_MIN ≤ p.scoreOffset + d) (hhi : p.scoreOffset + d ≤ I32_MAX) :
    (p.scoreOffset + d < 0 ∨ 74 < p.scoreOffset + d →
      p.withScoreOffsetDelta d = .ok (.error (.invalidScoreOffset (p.scoreOffset + d)))) ∧
    (0 ≤ p.scoreOffset + d → p.scoreOffset + d ≤ 74 →
      ∃ s o, (staff s o : Int) = p.scoreOffset + d ∧
        p.withScoreOffsetDelta d = .ok (Pitch.valueOf s o p.sharpFlat)) := by
  have _ := hp
  constructor
  · intro h
    simp only [Pitch.withScoreOffsetDelta, chkI32, if_pos (And.intro hlo hhi), bind, Except.bind,
      Pitch.MIN_SCORE_OFFSET, Pitch.MAX_SCORE_OFFSET, if_pos h]
    rfl
  · intro h1 h2
    obtain ⟨so, hso, hst⟩ := staff_surj ⟨(p.scoreOffset + d).toNat, by omega⟩
    simp only at hst hso
    rw [Int.toNat_of_nonneg h1] at hso
    refine ⟨so.1, so.2, by omega, ?_⟩
    simp only [Pitch.withScoreOffsetDelta, chkI32, if_pos (And.intro hlo hhi), bind, Except.bind,
      Pitch.MIN_SCORE_OFFSET, Pitch.MAX_SCORE_OFFSET]
    rw [if_neg (by omega), hso]
    rfl

/-- C03: exact result of moving a pitch by `d` staff steps (the sum fits `i32`). -/
theorem C03_shift {p : Pitch} (hp : ValidPitch p) (d : Int)
    (hlo : I32_MIN ≤ p.scoreOffset + d) (hhi : p.scoreOffset + d ≤ I32_MAX) :
    (p.scoreOffset + d < 0 ∨ 74 < p.scoreOffset + d →
      p.withScoreOffsetDelta d = .ok (.error (.invalidScoreOffset (p.scoreOffset + d)))) ∧
    (0 ≤ p.scoreOffset + d → p.scoreOffset + d ≤ 74 →
      ∃ s o, (staff s o : Int) = p.scoreOffset + d ∧
        (midi s o p.sharpFlat < 0 → p.withScoreOffsetDelta d =
          .ok (.error (.tooLow s o p.sharpFlat (midi s o p.sharpFlat)))) ∧
        (127 < midi s o p.sharpFlat → p.withScoreOffsetDelta d =
          .ok (.error (.tooHigh s o p.sharpFlat (midi s o p.sharpFlat)))) ∧
        (0 ≤ midi s o p.sharpFlat → midi s o p.sharpFlat ≤ 127 →
          ∃ q, p.withScoreOffsetDelta d = .ok (.ok q) ∧ ValidPitch q ∧
            q.scoreOffset = p.scoreOffset + d ∧ q.sharpFlat = p.sharpFlat ∧
            q.solfa = s ∧ q.octave = o)) := by
  obtain ⟨h1, h2⟩ := shift_core hp d hlo hhi
  refine ⟨h1, fun ha hb => ?_⟩
  obtain ⟨s, o, hso, hw⟩ := h2 ha hb
  obtain ⟨c1, c2, c3⟩ := C01_construct s o p.sharpFlat
  refine ⟨s, o, hso, fun h => by rw [hw, (c1 h).1], fun h => by rw [hw, (c2 h).1], fun h h' => ?_⟩
  obtain ⟨q, hq, -, e1, e2, e3, -, e5⟩ := c3 h h'
  exact ⟨q, by rw [hw, hq], valid_of_valueOf hq, by omega, e3, e1, e2⟩

example : Pitch.withScoreOffsetDelta ⟨.C, .Oct3, .Sharp, 61, 35⟩ (-36) = .ok (.error (.invalidScoreOffset (-1))) :=
  (C03_shift (p := ⟨.C, .Oct3, .Sharp, 61, 35⟩) ⟨by decide, by decide, by decide, by decide⟩ (-36) (by decide) (by decide)).1 (by decide)

/-- C03: a delta so large that the `i32` sum overflows panics. -/
theorem C03_shift_overflow {p : Pitch} (d : Int)
    (h : p.scoreOffset + d < I32_MIN ∨ I32_MAX < p.scoreOffset + d) :
    p.withScoreOffsetDelta d = .error .overflow := by
  simp only [Pitch.withScoreOffsetDelta, chkI32]
  rw [if_neg (by omega)]
  rfl

example : Pitch.withScoreOffsetDelta ⟨.C, .Oct3, .Sharp, 61, 35⟩ 2147483613 = .error .overflow :=
  C03_shift_overflow _ (by decide)

/-- C03: successive moves compose to their sum. -/
theorem C03_shift_add {p q : Pitch} (hp : ValidPitch p) (a b : Int)
    (ha : p.withScoreOffsetDelta a = .ok (.ok q)) :
    q.withScoreOffsetDelta b = p.withScoreOffsetDelta (a + b) := by
  by_cases hr : I32_MIN ≤ p.scoreOffset + a ∧ p.scoreOffset + a ≤ I32_MAX
  · obtain ⟨h1, h2⟩ := shift_core hp a hr.1 hr.2
    by_cases hs : 0 ≤ p.scoreOffset + a ∧ p.scoreOffset + a ≤ 74
    · obtain ⟨s, o, hso, hw⟩ := h2 hs.1 hs.2
      rw [hw] at ha
      obtain ⟨hv, e1, e2, e3⟩ := (valueOf_ok_iff ..).1 (Except.ok.inj ha)
      have e4 : q.scoreOffset + b = p.scoreOffset + (a + b) := by rw [hv.staff, e1, e2]; omega
      simp only [Pitch.withScoreOffsetDelta, e4, e3]
    · rw [h1 (by omega)] at ha
      cases ha
  · rw [C03_shift_overflow a (by omega)] at ha
    cases ha

example : Pitch.withScoreOffsetDelta ⟨.B, .Oct1, .Sharp, 48, 27⟩ 1000 = Pitch.withScoreOffsetDelta ⟨.C, .Oct3, .Sharp, 61, 35⟩ 992 :=
  C03_shift_add ⟨by decide, by decide, by decide, by decide⟩ (-8) 1000 (by decide +kernel)

/-- C03 (partial: the full claim "moving by 0 never changes a pitch" is false,
see `C03_zero_false`): it holds for every pitch on the 0..74 staff. -/
theorem C03_zero_partial {p : Pitch} (hp : ValidPitch p) (h : p.scoreOffset ≤ 74) :
    p.withScoreOffsetDelta 0 = .ok (.ok p) := by
  have h0 : 0 ≤ p.scoreOffset := by rw [hp.staff]; omega
  obtain ⟨-, h2⟩ := shift_core hp 0 (by simp only [I32_MIN]; omega) (by simp only [I32_MAX]; omega)
  obtain ⟨s, o, hso, hw⟩ := h2 (by omega) (by omega)
  have := hp.staff
  obtain ⟨rfl, rfl⟩ := staff_inj s o p.solfa p.octave (by omega)
  rw [hw, valid_valueOf hp]

example : Pitch.withScoreOffsetDelta ⟨.G, .Oct8, .Null, 127, 74⟩ 0 = .ok (.ok ⟨.G, .Oct8, .Null, 127, 74⟩) :=
  C03_zero_partial ⟨by decide, by decide, by decide, by decide⟩ (by decide)

/-- C03, negation: A double flat of octave 8 (MIDI 127) is a valid pitch, yet
moving it by 0 steps is refused. -/
theorem C03_zero_false : ∃ p : Pitch, PitchReachable p ∧ ValidPitch p ∧
    p.withScoreOffsetDelta 0 = .ok (.error (.invalidScoreOffset 75)) :=
  ⟨⟨.A, .Oct8, .DoubleFlat, 127, 75⟩,
    .new (s := .A) (o := .Oct8) (a := .DoubleFlat) (by decide +kernel),
    ⟨by decide, by decide, by decide, by decide⟩, by decide +kernel⟩

/-- C03: that pitch is the only one outside the staff. -/
theorem C03_zero_only {p : Pitch} (hp : ValidPitch p) (h : 74 < p.scoreOffset) :
    p.solfa = .A ∧ p.octave = .Oct8 ∧ p.sharpFlat = .DoubleFlat := by
  have hk : ∀ (s : Solfa) (o : Octave) (a : SharpFlat), 74 < staff s o → midi s o a ≤ 127 →
      s = .A ∧ o = .Oct8 ∧ a = .DoubleFlat := by decide +kernel
  exact hk _ _ _ (by have := hp.staff; omega) hp.high

example : ValidPitch ⟨.A, .Oct8, .DoubleFlat, 127, 75⟩ ∧ 74 < (⟨.A, .Oct8, .DoubleFlat, 127, 75⟩ : Pitch).scoreOffset :=
  ⟨⟨by decide, by decide, by decide, by decide⟩, by decide⟩

/-- C03: a natural pitch is created from every staff position, clamped to 0..74. -/
theorem C03_from_staff (n : Int) :
    ∃ p : Pitch, Pitch.fromScoreOffset n = .ok p ∧ ValidPitch p ∧ p.sharpFlat = .Null ∧
      p.scoreOffset = max 0 (min 74 n) := by
  have hk : ∀ m : Fin 75, okAnd (Pitch.fromScoreOffset (m.val : Int))
      (fun p => decide (Pitch.valueOf p.solfa p.octave p.sharpFlat = .ok p) && decide (p.sharpFlat = .Null)
        && decide (p.scoreOffset = m.val)) = true := by decide +kernel
  have hclamp : Pitch.fromScoreOffset n = Pitch.fromScoreOffset (max 0 (min 74 n)) := by
    simp only [Pitch.fromScoreOffset, Pitch.MIN_SCORE_OFFSET, Pitch.MAX_SCORE_OFFSET]
    congr 1
    congr 1
    repeat' split
    all_goals omega
  obtain ⟨p, h1, h2⟩ := okAnd_iff.1 (hk ⟨(max 0 (min 74 n)).toNat, by omega⟩)
  simp only [Bool.and_eq_true, decide_eq_true_eq] at h1 h2
  rw [Int.toNat_of_nonneg (by omega)] at h1 h2
  exact ⟨p, hclamp.trans h1, valid_of_valueOf h2.1.1, h2.1.2, h2.2⟩

example : Pitch.fromScoreOffset 36 = .ok ⟨.D, .Oct3, .Null, 62, 36⟩ ∧ Pitch.fromScoreOffset 80 = .ok ⟨.G, .Oct8, .Null, 127, 74⟩ := by
  decide +kernel

/-- C03: `from_score_offset` inverts `score_offset` on unaltered pitches. -/
theorem C03_from_staff_inverse {p : Pitch} (hp : ValidPitch p) (ha : p.sharpFlat = .Null) :
    Pitch.fromScoreOffset p.scoreOffset = .ok p := by
  obtain ⟨q, h1, h2, h3, h4⟩ := C03_from_staff p.scoreOffset
  have hle : p.scoreOffset ≤ 74 := by
    by_cases h : 74 < p.scoreOffset
    · have := (C03_zero_only hp h).2.2
      rw [ha] at this
      cases this
    · omega
  have e1 := hp.staff
  have e2 := h2.staff
  obtain ⟨e3, e4⟩ := staff_inj q.solfa q.octave p.solfa p.octave (by omega)
  rw [h1, valid_ext h2 hp e3 e4 (h3.trans ha.symm)]

example : Pitch.fromScoreOffset 36 = .ok ⟨.D, .Oct3, .Null, 62, 36⟩ :=
  C03_from_staff_inverse (p := ⟨.D, .Oct3, .Null, 62, 36⟩) ⟨by decide, by decide, by decide, by decide⟩ rfl

/-- C03: looking an octave up by number: exact result, for every `i32`. -/
theorem C03_octave_partial (v : Int) (hlo : I32_MIN ≤ v + 2) (hhi : v + 2 ≤ I32_MAX) (h9 : v ≠ 9) :
    (-2 ≤ v ∧ v ≤ 8 → ∃ o : Octave, Octave.valueOf v = .ok (.ok o) ∧ o.value = v) ∧
    (v < -2 ∨ 8 < v → Octave.valueOf v = .ok (.error (.invalidValue (v + 2)))) := by
  constructor
  · rintro ⟨h1, h2⟩
    have hk : ∀ m : Fin 11, okAnd (Octave.valueOf ((m.val : Int) - 2))
      (fun o => match o with | .ok o => decide (o.value = (m.val : Int) - 2) | .error _ => false) = true := by
      decide +kernel
    obtain ⟨r, hr, hr2⟩ := okAnd_iff.1 (hk ⟨(v + 2).toNat, by omega⟩)
    simp only at hr hr2
    have e : ((v + 2).toNat : Int) - 2 = v := by omega
    rw [e] at hr hr2
    cases r with
    | error e => cases hr2
    | ok o => exact ⟨o, hr, by simpa using hr2⟩
  · intro h
    simp only [Octave.valueOf, Octave.BIAS_VALUE, chkI32, if_pos (And.intro hlo hhi), bind,
      Except.bind, Octave.fromScoreOffset]
    have hl : Octave.ALL.length = 11 := rfl
    rw [if_pos (by rw [hl]; omega)]

example : Octave.valueOf (-3) = .ok (.error (.invalidValue (-1))) ∧ Octave.valueOf 4 = .ok (.ok .Oct4) := by decide +kernel

/-- C03, negation: octave number 9 is not reported as an error, it panics. -/
theorem C03_octave_nine_panics : Octave.valueOf 9 = .error .index := by decide +kernel

example : ValidPitch ⟨.C, .Oct3, .Sharp, 61, 35⟩ ∧
    Pitch.withScoreOffsetDelta ⟨.C, .Oct3, .Sharp, 61, 35⟩ (-8) = .ok (.ok ⟨.B, .Oct1, .Sharp, 48, 27⟩) :=
  ⟨⟨by decide, by decide, by decide, by decide⟩, by decide +kernel⟩

/-! ## C04 -/

/-- The pitch with the accidental replaced, if it is a MIDI note. -/
private theorem valueOf_iff_valid {s o a} :
    (∃ q, Pitch.valueOf s o a = .ok q) ↔ 0 ≤ midi s o a ∧ midi s o a ≤ 127 := by
  obtain ⟨h1, h2, h3⟩ := C01_construct s o a
  constructor
  · rintro ⟨q, hq⟩
    refine ⟨?_, ?_⟩
    · by_cases h : midi s o a < 0
      · rw [(h1 h).1] at hq; cases hq
      · omega
    · by_cases h : 127 < midi s o a
      · rw [(h2 h).1] at hq; cases hq
      · omega
  · rintro ⟨ha, hb⟩
    obtain ⟨q, hq, -⟩ := h3 ha hb
    exact ⟨q, hq⟩

/-- C04: the toggles only replace the accidental: sharp -> double sharp -> none,
flat -> double flat -> none, natural -> none, and anything else enters the cycle. -/
theorem C04_toggles (p q : Pitch) :
    (p.toggleSharp = .ok q ↔ ValidPitch q ∧ q.solfa = p.solfa ∧ q.octave = p.octave ∧
      ((p.sharpFlat = .Sharp ∧ q.sharpFlat = .DoubleSharp) ∨
       (p.sharpFlat = .DoubleSharp ∧ q.sharpFlat = .Null) ∨
       (p.sharpFlat ≠ .Sharp ∧ p.sharpFlat ≠ .DoubleSharp ∧ q.sharpFlat = .Sharp))) ∧
    (p.toggleFlat = .ok q ↔ ValidPitch q ∧ q.solfa = p.solfa ∧ q.octave = p.octave ∧
      ((p.sharpFlat = .Flat ∧ q.sharpFlat = .DoubleFlat) ∨
       (p.sharpFlat = .DoubleFlat ∧ q.sharpFlat = .Null) ∨
       (p.sharpFlat ≠ .Flat ∧ p.sharpFlat ≠ .DoubleFlat ∧ q.sharpFlat = .Flat))) ∧
    (p.toggleNatural = .ok q ↔ ValidPitch q ∧ q.solfa = p.solfa ∧ q.octave = p.octave ∧
      ((p.sharpFlat = .Natural ∧ q.sharpFlat = .Null) ∨
       (p.sharpFlat ≠ .Natural ∧ q.sharpFlat = .Natural))) := by
  refine ⟨?_, ?_, ?_⟩
  · simp only [Pitch.toggleSharp, valueOf_ok_iff]
    cases p.sharpFlat <;> simp
  · simp only [Pitch.toggleFlat, valueOf_ok_iff]
    cases p.sharpFlat <;> simp
  · simp only [Pitch.toggleNatural, valueOf_ok_iff]
    cases p.sharpFlat <;> simp

example : Pitch.toggleFlat ⟨.C, .Oct3, .Sharp, 61, 35⟩ = .ok ⟨.C, .Oct3, .Flat, 59, 35⟩ :=
  (C04_toggles _ _).2.1.2 ⟨⟨by decide, by decide, by decide, by decide⟩, rfl, rfl, .inr (.inr ⟨by decide, by decide, rfl⟩)⟩

/-- C04: three sharp toggles from a state of the sharp cycle give the pitch
back, whenever they all succeed; likewise flats; two natural toggles likewise. -/
theorem C04_cycles {p q r t : Pitch} (hp : ValidPitch p) :
    (p.sharpFlat ∈ [SharpFlat.Null, .Sharp, .DoubleSharp] →
      p.toggleSharp = .ok q → q.toggleSharp = .ok r → r.toggleSharp = .ok t → t = p) ∧
    (p.sharpFlat ∈ [SharpFlat.Null, .Flat, .DoubleFlat] →
      p.toggleFlat = .ok q → q.toggleFlat = .ok r → r.toggleFlat = .ok t → t = p) ∧
    (p.sharpFlat ∈ [SharpFlat.Null, .Natural] →
      p.toggleNatural = .ok q → q.toggleNatural = .ok r → r = p) := by
  refine ⟨fun hm h1 h2 h3 => ?_, fun hm h1 h2 h3 => ?_, fun hm h1 h2 => ?_⟩
  · obtain ⟨-, a1, a2, a3⟩ := (C04_toggles p q).1.1 h1
    obtain ⟨-, b1, b2, b3⟩ := (C04_toggles q r).1.1 h2
    obtain ⟨c0, c1, c2, c3⟩ := (C04_toggles r t).1.1 h3
    refine valid_ext c0 hp (by simp [a1, b1, c1]) (by simp [a2, b2, c2]) ?_
    revert hm a3 b3 c3
    cases p.sharpFlat <;> cases q.sharpFlat <;> cases r.sharpFlat <;> cases t.sharpFlat <;> decide
  · obtain ⟨-, a1, a2, a3⟩ := (C04_toggles p q).2.1.1 h1
    obtain ⟨-, b1, b2, b3⟩ := (C04_toggles q r).2.1.1 h2
    obtain ⟨c0, c1, c2, c3⟩ := (C04_toggles r t).2.1.1 h3
    refine valid_ext c0 hp (by simp [a1, b1, c1]) (by simp [a2, b2, c2]) ?_
    revert hm a3 b3 c3
    cases p.sharpFlat <;> cases q.sharpFlat <;> cases r.sharpFlat <;> cases t.sharpFlat <;> decide
  · obtain ⟨-, a1, a2, a3⟩ := (C04_toggles p q).2.2.1 h1
    obtain ⟨c0, c1, c2, c3⟩ := (C04_toggles q r).2.2.1 h2
    refine valid_ext c0 hp (by simp [a1, c1]) (by simp [a2, c2]) ?_
    revert hm a3 c3
    cases p.sharpFlat <;> cases q.sharpFlat <;> cases r.sharpFlat <;> decide

example : Pitch.toggleNatural ⟨.C, .Oct3, .Null, 60, 35⟩ = .ok ⟨.C, .Oct3, .Natural, 60, 35⟩ ∧
    Pitch.toggleNatural ⟨.C, .Oct3, .Natural, 60, 35⟩ = .ok ⟨.C, .Oct3, .Null, 60, 35⟩ := by decide +kernel

/-- C04: a toggle fails exactly when the new MIDI number leaves 0..127, e.g. the
sharp toggle. The accidental it aims at is `nextSharp`. -/
theorem C04_toggle_fails (p : Pitch) :
    ((∃ q, p.toggleSharp = .ok q) ↔
      0 ≤ midi p.solfa p.octave (if p.sharpFlat = .Sharp then .DoubleSharp
        else if p.sharpFlat = .DoubleSharp then .Null else .Sharp) ∧
      midi p.solfa p.octave (if p.sharpFlat = .Sharp then .DoubleSharp
        else if p.sharpFlat = .DoubleSharp then .Null else .Sharp) ≤ 127) ∧
    ((∃ q, p.toggleFlat = .ok q) ↔
      0 ≤ midi p.solfa p.octave (if p.sharpFlat = .Flat then .DoubleFlat
        else if p.sharpFlat = .DoubleFlat then .Null else .Flat) ∧
      midi p.solfa p.octave (if p.sharpFlat = .Flat then .DoubleFlat
        else if p.sharpFlat = .DoubleFlat then .Null else .Flat) ≤ 127) ∧
    ((∃ q, p.toggleNatural = .ok q) ↔
      0 ≤ midi p.solfa p.octave .Null ∧ midi p.solfa p.octave .Null ≤ 127) := by
  refine ⟨?_, ?_, ?_⟩
  · simp only [Pitch.toggleSharp, valueOf_iff_valid]
    cases p.sharpFlat <;> simp
  · simp only [Pitch.toggleFlat, valueOf_iff_valid]
    cases p.sharpFlat <;> simp
  · simp only [Pitch.toggleNatural, valueOf_iff_valid]
    cases p.sharpFlat <;> simp [midi, alter]

example : Pitch.toggleSharp ⟨.G, .Oct8, .Null, 127, 74⟩ =
    .error (.tooHigh .G .Oct8 .Sharp 128) := by decide +kernel
example : Pitch.toggleSharp ⟨.C, .Oct3, .Sharp, 61, 35⟩ =
    .ok ⟨.C, .Oct3, .DoubleSharp, 62, 35⟩ := by decide +kernel

/-! ## C05 -/

/-- C05: which pitches a key signature alters, and how. -/
theorem C05_apply_key {p : Pitch} (hp : ValidPitch p) (k : Key) :
    (p.sharpFlat ≠ .Null ∨ k.offset < -7 ∨ 7 < k.offset ∨ p.solfa ∉ keyLetters k.offset →
      p.applyKey k = .ok p) ∧
    (p.sharpFlat = .Null → -7 ≤ k.offset → k.offset ≤ 7 → p.solfa ∈ keyLetters k.offset →
      (0 < k.offset → (p.value < 127 → ∃ q, p.applyKey k = .ok q ∧ ValidPitch q ∧ q.value = p.value + 1 ∧
          q.solfa = p.solfa ∧ q.octave = p.octave ∧ q.sharpFlat = .Sharp) ∧
        (p.value = 127 → p.applyKey k = .error (.tooHigh p.solfa p.octave .Sharp 128))) ∧
      (k.offset < 0 → (0 < p.value → ∃ q, p.applyKey k = .ok q ∧ ValidPitch q ∧ q.value + 1 = p.value ∧
          q.solfa = p.solfa ∧ q.octave = p.octave ∧ q.sharpFlat = .Flat) ∧
        (p.value = 0 → p.applyKey k = .error (.tooLow p.solfa p.octave .Flat (-1))))) := by
  obtain ⟨k⟩ := k
  have hin : ∀ (n : Fin 15) (s : Solfa),
      (match (Key.mk ((n.val : Int) - 7)).solfas with
        | some l => decide (s ∈ l) | none => false)
        = decide (s ∈ keyLetters ((n.val : Int) - 7)) := by decide +kernel
  have hsome : ∀ n : Fin 15, (Key.mk ((n.val : Int) - 7)).solfas.isSome = true := by decide +kernel
  have hnone : k < -7 ∨ 7 < k → (Key.mk k).solfas = none := by
    intro h
    simp only [Key.solfas]
    repeat rw [if_neg (by omega)]
  have key : -7 ≤ k → k ≤ 7 → ∃ l, (Key.mk k).solfas = some l ∧ ∀ s, s ∈ l ↔ s ∈ keyLetters k := by
    intro h1 h2
    have e : (((⟨(k + 7).toNat, by omega⟩ : Fin 15).val : Int) - 7) = k := by simp only; omega
    have a := hin ⟨(k + 7).toNat, by omega⟩
    have b := hsome ⟨(k + 7).toNat, by omega⟩
    rw [e] at a b
    obtain ⟨l, hl⟩ := Option.isSome_iff_exists.1 b
    refine ⟨l, hl, fun s => ?_⟩
    have := a s
    rw [hl] at this
    simpa using this
  simp only
  constructor
  · intro h
    simp only [Pitch.applyKey]
    split
    · next hnull =>
      by_cases hr : -7 ≤ k ∧ k ≤ 7
      · obtain ⟨l, hl, hmem⟩ := key hr.1 hr.2
        rw [hl]
        simp only
        rw [if_neg]
        rw [hmem]
        rcases h with h | h | h | h
        · exact absurd hnull h
        · omega
        · omega
        · exact h
      · rw [hnone (by omega)]
    · rfl
  · intro hnull h1 h2 hmem
    obtain ⟨l, hl, hmem'⟩ := key h1 h2
    have hv := hp.value
    have hm0 : midi p.solfa p.octave p.sharpFlat = naturalMidi (staff p.solfa p.octave) := by
      rw [hnull]; simp [midi, alter]
    have hmS : midi p.solfa p.octave .Sharp = p.value + 1 := by
      rw [hv, hm0]; simp [midi, alter]
    have hmF : midi p.solfa p.octave .Flat = p.value - 1 := by
      rw [hv, hm0]; simp [midi, alter]; omega
    have hlow := hp.low
    have hhigh := hp.high
    have hap : p.applyKey ⟨k⟩ = Pitch.valueOf p.solfa p.octave
        (if decide (k < 0) then .Flat else .Sharp) := by
      simp only [Pitch.applyKey, hnull, if_true, hl, hmem', if_pos hmem, Key.isFlat]
      rfl
    constructor
    · intro hk
      rw [if_neg (by simp; omega)] at hap
      obtain ⟨-, c2, c3⟩ := C01_construct p.solfa p.octave .Sharp
      constructor
      · intro hlt
        obtain ⟨q, hq, -, e1, e2, e3, e4, e5⟩ := c3 (by omega) (by omega)
        exact ⟨q, by rw [hap, hq], valid_of_valueOf hq, by omega, e1, e2, e3⟩
      · intro heq
        rw [hap, (c2 (by omega)).1, hmS, heq]
        rfl
    · intro hk
      rw [if_pos (by simpa using hk)] at hap
      obtain ⟨c1, -, c3⟩ := C01_construct p.solfa p.octave .Flat
      constructor
      · intro hlt
        obtain ⟨q, hq, -, e1, e2, e3, e4, e5⟩ := c3 (by omega) (by omega)
        exact ⟨q, by rw [hap, hq], valid_of_valueOf hq, by omega, e1, e2, e3⟩
      · intro heq
        rw [hap, (c1 (by omega)).1, hmF, heq]
        rfl

example : Pitch.applyKey ⟨.C, .OctM2, .Null, 0, 0⟩ ⟨-6⟩ = .error (.tooLow .C .OctM2 .Flat (-1)) ∧ Solfa.C ∈ keyLetters (-6) ∧
    Pitch.applyKey ⟨.C, .Oct3, .Null, 60, 35⟩ ⟨-5⟩ = .ok ⟨.C, .Oct3, .Null, 60, 35⟩ := by decide +kernel

/-- C05: the number of altered letters is the size of the signature. -/
theorem C05_count (k : Int) (h1 : -7 ≤ k) (h2 : k ≤ 7) : (keyLetters k).length = k.natAbs := by
  simp only [keyLetters]
  split <;> simp <;> omega

example : keyLetters 3 = [.F, .C, .G] ∧ keyLetters (-2) = [.B, .E] := by decide

/-- C05: a key is called sharp or flat, and not both, exactly if it sharpens F or
flattens B, the first letters of the circle of fifths. -/
theorem C05_side (k : Key) (h1 : -7 ≤ k.offset) (h2 : k.offset ≤ 7) :
    (k.isSharp = true ↔ keyLetters k.offset ≠ [] ∧ (keyLetters k.offset).head? = some .F) ∧
    (k.isFlat = true ↔ keyLetters k.offset ≠ [] ∧ (keyLetters k.offset).head? = some .B) ∧
    (keyLetters k.offset = [] ↔ k = .NONE) ∧ ∀ l, k.solfas = some l → l.Perm (keyLetters k.offset) := by
  obtain ⟨k⟩ := k
  simp only at h1 h2
  have main : ∀ n : Fin 15, let k : Key := ⟨(n.val : Int) - 7⟩
    (k.isSharp = true ↔ keyLetters k.offset ≠ [] ∧ (keyLetters k.offset).head? = some .F) ∧
    (k.isFlat = true ↔ keyLetters k.offset ≠ [] ∧ (keyLetters k.offset).head? = some .B) ∧
    (keyLetters k.offset = [] ↔ k = .NONE) ∧ ∀ l ∈ k.solfas, l.Perm (keyLetters k.offset) := by decide +kernel
  have := main ⟨(k + 7).toNat, by omega⟩
  simp only at this
  rw [show (((k + 7).toNat : Nat) : Int) - 7 = k by omega] at this
  exact this

example : Pitch.applyKey ⟨.F, .Oct3, .Null, 65, 38⟩ ⟨1⟩ = .ok ⟨.F, .Oct3, .Sharp, 66, 38⟩ := by
  decide +kernel

end Klavier
