import Verif.Model.Parts
import Verif.Spec.Text
import Verif.Spec.Values
import Verif.Props.Pitch
import Verif.Props.Values
import Verif.Props.Text

/-! # C60 constructors and conversions, C61 texts, C62 equality, C63 editing one aspect of
a note, C64 builders -/
set_option autoImplicit false
namespace Klavier
open Spec

/-! ## C60 -/

/-- C60: note values are numbered 0 to 7 from the whole note to the 128th, each number
denotes one value, other numbers none. -/
theorem C60_note_value (n : Nat) (v : NoteValue) :
    NoteValue.fromOrd v.ord = some v ∧
    (NoteValue.fromOrd n = some v ↔
      ([.Whole, .Half, .Quarter, .N8th, .N16th, .N32nd, .N64th, .N128th] : List NoteValue)[n]? = some v) ∧
    (NoteValue.fromOrd n = none ↔ 7 < n) := by
  refine ⟨by cases v <;> rfl, ?_, ?_⟩
  all_goals
    rcases n with _ | _ | _ | _ | _ | _ | _ | _ | n <;> simp [NoteValue.fromOrd]

example : NoteValue.fromOrd 6 = some .N64th := (C60_note_value 6 .N64th).2.1.2 rfl

/-- C60: numbers of dots up to 7, denominators from 2 on, channels up to 15 and tempos up
to 999 are accepted as they are; everything else is refused (for channels and tempos by
a panic). -/
theorem C60_accepts (v : Nat) :
    (Dots.fromValue v = if v ≤ 7 then some v else none) ∧
    (Denominator.fromValue v = if 2 ≤ v then some v else none) ∧
    (Channel.new v = if v ≤ 15 then .ok v else .error .explicit) ∧
    (TempoValue.new v = if v ≤ 999 then .ok ⟨v⟩ else .error .explicit) ∧
    (∀ tick, Tempo.new tick v = if v ≤ 999 then .ok ⟨tick, ⟨v⟩⟩ else .error .explicit) ∧
    (TempoValue.safeNew v = .ok ⟨min v 999⟩) ∧
    (Velocity.new v).value = min v 127 := by
  have ht : TempoValue.new v = if v ≤ 999 then .ok ⟨v⟩ else .error .explicit := by
    unfold TempoValue.new; repeat' split
    all_goals first | rfl | omega
  refine ⟨?_, ?_, ?_, ht, ?_, ?_, ?_⟩
  · unfold Dots.fromValue; repeat' split
    all_goals first | rfl | omega
  · unfold Denominator.fromValue; repeat' split
    all_goals first | rfl | omega
  · unfold Channel.new; repeat' split
    all_goals first | rfl | omega
  · intro tick
    simp only [Tempo.new, ht]
    split <;> rfl
  · unfold TempoValue.safeNew TempoValue.new
    repeat' split
    · omega
    · congr 2; omega
    · congr 2; omega
  · unfold Velocity.new; split <;> simp only <;> omega

example : Channel.new 15 = .ok 15 ∧ Channel.new 16 = .error .explicit :=
  ⟨(C60_accepts 15).2.2.1, (C60_accepts 16).2.2.1⟩

/-- C60: a tempo mark goes up and down by one within 1 to 999, at its tick, and refuses
to leave that range. -/
theorem C60_tempo_steps (t : Tempo) (h1 : 1 ≤ t.value.value) (h2 : t.value.value ≤ 999) :
    (t.up = if t.value.value < 999 then .ok (.ok ⟨t.startTick, ⟨t.value.value + 1⟩⟩) else .ok (.error 1000)) ∧
    (t.down = if 1 < t.value.value then .ok (.ok ⟨t.startTick, ⟨t.value.value - 1⟩⟩) else .ok (.error 1)) := by
  obtain ⟨s, ⟨v⟩⟩ := t
  simp only at h1 h2 ⊢
  constructor
  · simp only [Tempo.up, TempoValue.up]
    by_cases h : 999 < v + 1
    · have : v = 999 := by omega
      subst this
      rfl
    · simp only [if_neg h, (C60_accepts (v + 1)).2.2.2.1, if_pos (show v + 1 ≤ 999 by omega),
        if_pos (show v < 999 by omega)]
      rfl
  · simp only [Tempo.down, TempoValue.down]
    by_cases h : v ≤ 1
    · simp only [if_pos h, if_neg (show ¬ 1 < v by omega)]
      rfl
    · simp only [if_neg h, (C60_accepts (v - 1)).2.2.2.1, if_pos (show v - 1 ≤ 999 by omega),
        if_pos (show 1 < v by omega)]
      rfl

example : Tempo.down ⟨480, ⟨120⟩⟩ = .ok (.ok ⟨480, ⟨119⟩⟩) :=
  (C60_tempo_steps ⟨480, ⟨120⟩⟩ (by decide) (by decide)).2

/-- C60: the numbers 1 to 4, and no others, are indices of endings; next and prev go one
further, refuse to leave the range, and undo each other. -/
theorem C60_endings (n : Nat) (v w : VarIndex) :
    (VarIndex.fromValue n = .ok v ↔ ([.VI1, .VI2, .VI3, .VI4] : List VarIndex)[n - 1]? = some v ∧ 1 ≤ n) ∧
    (¬ (1 ≤ n ∧ n ≤ 4) → VarIndex.fromValue n = .error n ∧ VarIndex.ofU8 n = .error .unwrap) ∧
    (VarIndex.ofU8 n = .ok v ↔ ([.VI1, .VI2, .VI3, .VI4] : List VarIndex)[n - 1]? = some v ∧ 1 ≤ n) ∧
    VarIndex.ofU8 v.value = .ok v ∧
    (v.next = .ok w ↔ w.value = v.value + 1) ∧ (v.next = .ok w ↔ w.prev = .ok v) ∧
    VarIndex.next .VI4 = .error 5 ∧ VarIndex.prev .VI1 = .error 0 := by
  refine ⟨?_, ?_, ?_, by cases v <;> rfl, by cases v <;> cases w <;> decide, by cases v <;> cases w <;> decide, rfl, rfl⟩
  · rcases n with _ | _ | _ | _ | _ | n <;> simp [VarIndex.fromValue]
  · intro h
    rcases n with _ | _ | _ | _ | _ | n <;> first | exact ⟨rfl, rfl⟩ | omega
  · rcases n with _ | _ | _ | _ | _ | n <;> simp [VarIndex.fromValue, VarIndex.ofU8, unwrapR]

example : VarIndex.next .VI2 = .ok .VI3 ∧ VarIndex.prev .VI3 = .ok .VI2 :=
  ⟨(C60_endings 3 .VI2 .VI3).2.2.2.2.1.2 rfl, (C60_endings 3 .VI2 .VI3).2.2.2.2.2.1.1 rfl⟩

private theorem octave_valueOf (v : Int) :
    (∀ c : Octave, Octave.valueOf v = .ok (.ok c) ↔ c.value = v) ∧
    (-2 ≤ v ∧ v ≤ 8 → ∃ c : Octave, c.value = v) := by
  by_cases hv : -3 ≤ v ∧ v ≤ 9
  · have hm : v = -3 ∨ v = -2 ∨ v = -1 ∨ v = 0 ∨ v = 1 ∨ v = 2 ∨ v = 3 ∨ v = 4 ∨ v = 5 ∨ v = 6 ∨ v = 7 ∨ v = 8 ∨ v = 9 := by
      omega
    refine ⟨fun c => ?_, fun h => ?_⟩
    · rcases hm with h | h | h | h | h | h | h | h | h | h | h | h | h <;> subst h <;> cases c <;> decide
    · rcases hm with h | h | h | h | h | h | h | h | h | h | h | h | h <;> subst h
      · omega
      · exact ⟨.OctM2, rfl⟩
      · exact ⟨.OctM1, rfl⟩
      · exact ⟨.Oct0, rfl⟩
      · exact ⟨.Oct1, rfl⟩
      · exact ⟨.Oct2, rfl⟩
      · exact ⟨.Oct3, rfl⟩
      · exact ⟨.Oct4, rfl⟩
      · exact ⟨.Oct5, rfl⟩
      · exact ⟨.Oct6, rfl⟩
      · exact ⟨.Oct7, rfl⟩
      · exact ⟨.Oct8, rfl⟩
      · omega
  · refine ⟨fun c => ?_, fun h => by omega⟩
    have hc : ¬ c.value = v := by
      cases c <;> simp only [Octave.value] <;> omega
    simp only [hc, iff_false]
    intro h
    simp only [Octave.valueOf, R_bind_eq_ok] at h
    obtain ⟨i, hi, h⟩ := h
    have hi' : i = v + 2 := by
      simp only [chkI32] at hi
      split at hi
      · cases hi; rfl
      · cases hi
    simp only [Octave.fromScoreOffset] at h
    rw [if_pos (by simp only [Octave.ALL, List.length]; omega)] at h
    cases h

/-- C60: octaves are numbered -2 to 8.  Adding two octaves adds their numbers, and panics
if there is no such octave. -/
theorem C60_octaves (a b c : Octave) (v : Int) :
    (Octave.valueOf v = .ok (.ok c) ↔ c.value = v) ∧
    (a.add b = .ok c ↔ c.value = a.value + b.value) ∧
    ((∃ p, a.add b = .error p) ↔ ¬ (-2 ≤ a.value + b.value ∧ a.value + b.value ≤ 8)) := by
  refine ⟨(octave_valueOf v).1 c, ?_, ?_⟩
  · cases a <;> cases b <;> cases c <;> decide
  · constructor
    · rintro ⟨p, hp⟩ h
      obtain ⟨c, hc⟩ := (octave_valueOf (a.value + b.value)).2 h
      have : a.add b = .ok c := by
        revert hc; clear hp h
        cases a <;> cases b <;> cases c <;> decide
      rw [this] at hp
      cases hp
    · intro h
      cases ha : a.add b with
      | error p => exact ⟨p, rfl⟩
      | ok c =>
        exfalso
        have hc : c.value = a.value + b.value := by
          revert ha; clear h
          cases a <;> cases b <;> cases c <;> decide
        have hr : -2 ≤ c.value ∧ c.value ≤ 8 := by cases c <;> decide
        omega

example : Octave.add .Oct3 .Oct4 = .ok .Oct7 ∧ ∃ p, Octave.add .Oct5 .Oct4 = .error p :=
  ⟨(C60_octaves .Oct3 .Oct4 .Oct7 0).2.1.2 rfl, (C60_octaves .Oct5 .Oct4 .Oct7 0).2.2.2 (by decide)⟩

/-- C60: a trimmer made of four 16-bit values holds them with their sum; a slot is read by
its index, any other index panics; making one of a vector looks at the first four
elements, and panics if there are fewer. -/
theorem C60_trimmer (a b c d : Int) (ha : I16_MIN ≤ a ∧ a ≤ I16_MAX) (hb : I16_MIN ≤ b ∧ b ≤ I16_MAX)
    (hc : I16_MIN ≤ c ∧ c ≤ I16_MAX) (hd : I16_MIN ≤ d ∧ d ≤ I16_MAX) :
    ValidTrimmer (.new a b c d) ∧ (Trimmer.new a b c d).toVec = [a, b, c, d] ∧
    (∀ i v, (Trimmer.new a b c d).value i = .ok v ↔ [a, b, c, d][i]? = some v) ∧
    (∀ i, 4 ≤ i → (Trimmer.new a b c d).value i = .error .index) ∧
    (∀ rest, Trimmer.fromVec (a :: b :: c :: d :: rest) = Trimmer.fromArray a b c d) ∧
    (∀ vs : List Int, vs.length < 4 → Trimmer.fromVec vs = .error .index) := by
  simp only [I16_MIN, I16_MAX] at ha hb hc hd
  refine ⟨⟨ha, hb, hc, hd, rfl⟩, rfl, ?_, ?_, fun rest => rfl, ?_⟩
  · intro i v
    simp only [Trimmer.value, Trimmer.toVec, Trimmer.new, Trimmer.at_]
    cases [a, b, c, d][i]? <;> simp
  · intro i hi
    simp only [Trimmer.value, Trimmer.toVec, Trimmer.new, Trimmer.at_]
    rw [List.getElem?_eq_none (by simpa using hi)]
  · intro vs hvs
    rcases vs with _ | ⟨x, _ | ⟨y, _ | ⟨z, _ | ⟨u, r⟩⟩⟩⟩
    all_goals first | rfl | (simp at hvs; omega)

example : (Trimmer.new 1 (-2) 3 (-4)).value 3 = .ok (-4) ∧ Trimmer.fromVec [1, 2, 3] = .error .index :=
  ⟨((C60_trimmer 1 (-2) 3 (-4) (by decide) (by decide) (by decide) (by decide)).2.2.1 3 (-4)).2 rfl,
    (C60_trimmer 1 (-2) 3 (-4) (by decide) (by decide) (by decide) (by decide)).2.2.2.2.2 [1, 2, 3] (by decide)⟩

/-- C60: replacing the values of a trimmer by others of 16 bits gives the trimmer
holding those if their running totals fit 16 bits, else it panics. -/
theorem C60_updated (t : Trimmer) (f : Int × Int × Int × Int → Int × Int × Int × Int) (a b c d : Int)
    (hf : f (t.v0, t.v1, t.v2, t.v3) = (a, b, c, d)) :
    ((-32768 ≤ a + b ∧ a + b ≤ 32767) ∧ (-32768 ≤ a + b + c ∧ a + b + c ≤ 32767) ∧
        (-32768 ≤ a + b + c + d ∧ a + b + c + d ≤ 32767) → t.updated f = .ok (.new a b c d)) ∧
    (¬ ((-32768 ≤ a + b ∧ a + b ≤ 32767) ∧ (-32768 ≤ a + b + c ∧ a + b + c ≤ 32767) ∧
        (-32768 ≤ a + b + c + d ∧ a + b + c + d ≤ 32767)) → t.updated f = .error .overflow) := by
  simp only [Trimmer.updated, hf, Trimmer.fromArray, chkI16, I16_MIN, I16_MAX, Trimmer.new]
  constructor
  · rintro ⟨h1, h2, h3⟩
    simp only [h1, h2, h3, and_self, if_true, R_bind_ok, R_pure]
  · intro h
    by_cases h1 : -32768 ≤ a + b ∧ a + b ≤ 32767
    · simp only [h1, and_self, if_true, R_bind_ok]
      by_cases h2 : -32768 ≤ a + b + c ∧ a + b + c ≤ 32767
      · simp only [h2, and_self, if_true, R_bind_ok]
        rw [if_neg (fun h3 => h ⟨h1, h2, h3⟩)]
        rfl
      · rw [if_neg h2]; rfl
    · rw [if_neg h1]; rfl

example : (Trimmer.new 1 2 3 4).updated (fun (a, b, c, d) => (d, c, b, a)) = .ok (.new 4 3 2 1) := by decide

/-- C60: the same for rate trimmers. -/
theorem C60_rate_trimmer (a b c d : Percent) (t : RateTrimmer) :
    (∀ rest, RateTrimmer.fromVec (a :: b :: c :: d :: rest) = .ok (RateTrimmer.fromArray a b c d)) ∧
    (RateTrimmer.fromArray a b c d).toVec = [a, b, c, d] ∧
    (∀ i v, t.value i = .ok v ↔ [t.v0, t.v1, t.v2, t.v3][i]? = some v) ∧
    (∀ i, 4 ≤ i → t.value i = .error .index) ∧
    (∀ vs : List Percent, vs.length < 4 → RateTrimmer.fromVec vs = .error .index) := by
  refine ⟨fun rest => rfl, rfl, ?_, ?_, ?_⟩
  · intro i v
    simp only [RateTrimmer.value, RateTrimmer.toVec, Trimmer.at_]
    cases [t.v0, t.v1, t.v2, t.v3][i]? <;> simp
  · intro i hi
    simp only [RateTrimmer.value, RateTrimmer.toVec, Trimmer.at_]
    rw [List.getElem?_eq_none (by simpa using hi)]
  · intro vs hvs
    rcases vs with _ | ⟨x, _ | ⟨y, _ | ⟨z, _ | ⟨u, r⟩⟩⟩⟩
    all_goals first | rfl | (simp at hvs; omega)

example : RateTrimmer.ONE.value 2 = .ok .HUNDRED :=
  ((C60_rate_trimmer .HUNDRED .HUNDRED .HUNDRED .HUNDRED .ONE).2.2.1 2 .HUNDRED).2 rfl

/-- C60: the number of the pass to play is kept within 1 to 5: a new one is brought into
the range, a later change outside the range is refused and leaves the number alone. -/
theorem C60_play_iter (cur n : Nat) :
    (PlayIter.new n = max 1 (min n 5)) ∧
    PlayIter.setIter cur n = (if 1 ≤ n ∧ n ≤ 5 then (n, true) else (cur, false)) := by
  constructor
  · unfold PlayIter.new; simp only; repeat' split
    all_goals omega
  · unfold PlayIter.setIter; repeat' split
    all_goals first | rfl | omega

example : PlayIter.setIter 3 5 = (5, true) ∧ PlayIter.setIter 3 0 = (3, false) :=
  ⟨(C60_play_iter 3 5).2, (C60_play_iter 3 0).2⟩

/-- C60: all defaults are legal: a note on A4 with a length of one quarter (240 ticks) at
tick 0, loudness 64 on channel 0, tempo 120, a grid of a 16th, first pass. -/
theorem C60_defaults :
    ∃ n, Note.default = .ok n ∧ ValidPitch n.pitch ∧ n.pitch.solfa = .A ∧ n.pitch.octave = .Oct4 ∧
      n.pitch.sharpFlat = .Null ∧ ValidLength n ∧ n.tickLen = .ok 240 ∧ n.startTick = 0 ∧ n.velocity = ⟨64⟩ ∧
      ValidTrimmer n.startTickTrimmer ∧ ValidTrimmer n.velocityTrimmer ∧ n.tie = false ∧ n.tied = false ∧
      Channel.new n.channel = .ok 0 ∧ TempoValue.new 120 = .ok .default ∧
      Tempo.new 0 120 = .ok .default ∧ Grid.default.value * 4 = 240 ∧ PlayIter.new 1 = PlayIter.default := by
  refine ⟨⟨0, ⟨.A, .Oct4, .Null, 81, 47⟩, .default, false, false, ⟨64⟩, .ZERO, .ONE, .ZERO, 0⟩, ?_, ?_⟩
  · decide +kernel
  · refine ⟨⟨by decide +kernel, by decide +kernel, by decide +kernel, by decide +kernel⟩, rfl, rfl, rfl,
      ⟨⟨by decide, by decide, by decide⟩, by decide⟩, by decide +kernel, by decide +kernel, by decide +kernel,
      ⟨by decide, by decide, by decide, by decide, by decide⟩, ⟨by decide, by decide, by decide, by decide, by decide⟩,
      rfl, rfl, rfl, rfl, rfl, rfl, rfl⟩

example : (Note.default.map fun n => (n.pitch, n.tickLen)) = .ok (⟨.A, .Oct4, .Null, 81, 47⟩, .ok 240) := by decide +kernel

/-! ## C61 -/

/-- C61: exactly the texts writing a number of 1 to 2^32 - 1 are grids. -/
theorem C61_grid_partial (s : List Char) (g : Grid) :
    Grid.valueOf s = .ok g ↔ WritesNat s g.value ∧ 1 ≤ g.value ∧ g.value ≤ 4294967295 := by
  have h := parseUnsigned_iff U32_MAX s
  simp only [U32_MAX] at h
  unfold Grid.valueOf
  constructor
  · intro hg
    split at hg
    · cases hg
    · next i hi =>
      obtain ⟨h1, h2⟩ := (h i).1 hi
      unfold Grid.fromU32Text at hg
      split at hg
      · cases hg
      · cases hg
        exact ⟨h1, by simp only; omega, h2⟩
  · rintro ⟨h1, h2, h3⟩
    have := (h g.value).2 ⟨h1, h3⟩
    simp only [U32_MAX, this, Grid.fromU32Text]
    rw [if_neg (by omega)]

example : Grid.valueOf "0480".toList = .ok ⟨480⟩ ∧ Grid.valueOf "4294967295".toList = .ok ⟨4294967295⟩ := by decide

/-- C61: a refused text is given back in the error, except that zero is given back as
"0" however it was written. -/
theorem C61_grid_refused (s : List Char) (e : GridError) (h : Grid.valueOf s = .error e) :
    (e.text = s ∧ ¬ ∃ v ≤ 4294967295, WritesNat s v) ∨ (e.text = ['0'] ∧ WritesNat s 0) := by
  have h' := parseUnsigned_iff U32_MAX s
  simp only [U32_MAX] at h'
  unfold Grid.valueOf at h
  split at h
  · next e' he =>
    cases h
    left
    refine ⟨rfl, ?_⟩
    rintro ⟨v, hv, hw⟩
    simp only [U32_MAX] at he
    rw [(h' v).2 ⟨hw, hv⟩] at he
    cases he
  · next i hi =>
    unfold Grid.fromU32Text at h
    split at h
    · next h0 =>
      cases h
      subst h0
      exact Or.inr ⟨rfl, ((h' 0).1 hi).1⟩
    · cases h

example : ∃ e, Grid.valueOf "4294967296".toList = .error e ∧ e.text = "4294967296".toList := ⟨_, rfl, by decide⟩

/-- C61, negation of "a refused text is given back": 00 is given back as 0. -/
theorem C61_grid_text_false : ∃ s e, Grid.valueOf s = .error e ∧ e.text ≠ s :=
  ⟨"00".toList, ⟨['0']⟩, by decide, by decide⟩

private theorem decimal_writes (n : Nat) : WritesNat (decimal n) n :=
  ⟨decimal n, Or.inl rfl, (decimal_spec n).1, (decimal_spec n).2.symm⟩

private theorem decimal_ne (n : Nat) : decimal n ≠ [] := (decimal_spec n).1.1

/-- C61: what is shown is read back: grids, numerators of a signature, denominators of a
length and loudness. -/
theorem C61_roundtrip (v : Nat) :
    (1 ≤ v → v ≤ 4294967295 → Grid.valueOf (Grid.toText ⟨v⟩) = .ok ⟨v⟩) ∧
    (1 ≤ v → v ≤ 99 → Numerator.fromStr (Numerator.toText v) = .ok v ∧
      fieldNumerator (Numerator.toText v) = .ok (.ok (some v))) ∧
    (2 ≤ v → v ≤ 255 → fieldDenominator (Denominator.toText v) = .ok (.ok (some v))) ∧
    (v ≤ 127 → fieldVelocity (Velocity.toText ⟨v⟩) = .ok (.ok (some ⟨v⟩))) := by
  have hp : ∀ max, v ≤ max → parseUnsigned max (decimal v) = .ok v :=
    fun max h => (parseUnsigned_iff max _ v).2 ⟨decimal_writes v, h⟩
  refine ⟨fun h1 h2 => (C61_grid_partial _ _).2 ⟨decimal_writes v, h1, h2⟩, fun h1 h2 => ?_, fun h1 h2 => ?_, fun h => ?_⟩
  · have : Numerator.fromStr (Numerator.toText v) = .ok v := by
      simp only [Numerator.fromStr, Numerator.toText, hp 255 (by omega), Numerator.fromValue]
      rw [if_neg (by omega)]
    refine ⟨this, ?_⟩
    simp only [fieldNumerator, this]
    rw [if_neg (show Numerator.toText v ≠ [] from decimal_ne v)]
    rfl
  · simp only [fieldDenominator, Denominator.toText, hp 255 h2, Denominator.fromValue]
    rw [if_neg (decimal_ne v), if_neg (by omega)]
  · simp only [fieldVelocity, Velocity.toText, hp 255 (by omega), Velocity.new, Except.map]
    rw [if_neg (decimal_ne v), if_neg (by omega)]

example : Grid.valueOf (Grid.toText ⟨480⟩) = .ok ⟨480⟩ := (C61_roundtrip 480).1 (by decide) (by decide)

/-- C61: different marks, letters and denominators of a signature are shown differently;
the denominator's text writes its value. -/
theorem C61_shown_apart (r s : Repeat) (a b : Solfa) (d e : BarUnit) :
    (r.toText = s.toText → r = s) ∧ (a.toText = b.toText → a = b) ∧ (d.toText = e.toText → d = e) ∧
    WritesNat d.toText d.value ∧ BarUnit.fromValue d.value = .ok d := by
  refine ⟨by cases r <;> cases s <;> decide, by cases a <;> cases b <;> decide, ?_, decimal_writes _, by cases d <;> rfl⟩
  intro h
  have h1 := writesNat_unique (decimal_writes d.value) (show WritesNat (decimal d.value) e.value by
    rw [show decimal d.value = decimal e.value from h]; exact decimal_writes _)
  revert h1
  cases d <;> cases e <;> decide

example : BarUnit.toText .D32 = "32".toList ∧ Solfa.toText .C ≠ Solfa.toText .D := by decide +kernel

/-! ## C62 -/

/-- C62: two trimmers are equal exactly if they are the same; equal ones have the same
hash, so a hash table finds them; for trimmers whose sum fits their slots equality is
decided by the slots. -/
theorem C62_trimmer (t u : Trimmer) :
    (t.eq u = true ↔ t = u) ∧ (t.eq u = true → t.hashed = u.hashed) ∧
    (ValidTrimmer t → ValidTrimmer u → (t.eq u = true ↔ t.v0 = u.v0 ∧ t.v1 = u.v1 ∧ t.v2 = u.v2 ∧ t.v3 = u.v3)) := by
  have key : t.eq u = true ↔ t = u := by
    obtain ⟨a, b, c, d, s⟩ := t
    obtain ⟨a', b', c', d', s'⟩ := u
    simp only [Trimmer.eq, Trimmer.toVec, Trimmer.mk.injEq]
    split
    · next h => simp [h]
    · next h => simp [h]
  refine ⟨key, fun h => by rw [key.1 h], fun ht hu => ?_⟩
  rw [key]
  constructor
  · rintro rfl; exact ⟨rfl, rfl, rfl, rfl⟩
  · rintro ⟨h0, h1, h2, h3⟩
    have hs : t.sum = u.sum := by rw [ht.sum, hu.sum, h0, h1, h2, h3]
    obtain ⟨a, b, c, d, s⟩ := t
    obtain ⟨a', b', c', d', s'⟩ := u
    simp only at h0 h1 h2 h3 hs
    subst h0 h1 h2 h3 hs
    rfl

example : (Trimmer.new 0 1 2 3).eq (Trimmer.new 1 0 2 3) = false := by
  cases h : (Trimmer.new 0 1 2 3).eq (Trimmer.new 1 0 2 3)
  · rfl
  · exact absurd ((C62_trimmer _ _).1.1 h) (by decide)

/-- C62: two rate trimmers are equal exactly if they are the same. -/
theorem C62_rate_partial (t u : RateTrimmer) :
    (t.eq u = true ↔ t = u) ∧
    (∀ a b c d a' b' c' d', t = .fromArray a b c d → u = .fromArray a' b' c' d' →
      (t.eq u = true ↔ a = a' ∧ b = b' ∧ c = c' ∧ d = d')) := by
  have key : t.eq u = true ↔ t = u := by
    obtain ⟨⟨a⟩, ⟨b⟩, ⟨c⟩, ⟨d⟩, ⟨s⟩⟩ := t
    obtain ⟨⟨a'⟩, ⟨b'⟩, ⟨c'⟩, ⟨d'⟩, ⟨s'⟩⟩ := u
    simp only [RateTrimmer.eq, RateTrimmer.toVec, RateTrimmer.mk.injEq, Percent.mk.injEq, List.map]
    split
    · next h => simp [h]
    · next h => simp [h]
  refine ⟨key, ?_⟩
  rintro a b c d a' b' c' d' rfl rfl
  rw [key]
  constructor
  · intro h
    simp only [RateTrimmer.fromArray, RateTrimmer.mk.injEq] at h
    exact ⟨h.1, h.2.1, h.2.2.1, h.2.2.2.1⟩
  · rintro ⟨rfl, rfl, rfl, rfl⟩; rfl

example : (RateTrimmer.fromArray ⟨500⟩ ⟨1000⟩ ⟨1000⟩ ⟨1000⟩).eq (.fromArray ⟨1000⟩ ⟨500⟩ ⟨1000⟩ ⟨1000⟩) = false := by
  cases h : (RateTrimmer.fromArray ⟨500⟩ ⟨1000⟩ ⟨1000⟩ ⟨1000⟩).eq (.fromArray ⟨1000⟩ ⟨500⟩ ⟨1000⟩ ⟨1000⟩)
  · rfl
  · exact absurd (((C62_rate_partial _ _).2 _ _ _ _ _ _ _ _ rfl rfl).1 h).1 (by decide)

/-- C62, negation of "rate trimmers with the same four rates are equal": the rates 0.25
and 3, and 0.25 and 2, are both stored as 25 % and 200 %. -/
theorem C62_rate_false : ∃ t u : RateTrimmer,
    (∃ a b c d, t = .new a b c d) ∧ (∃ a b c d, u = .new a b c d) ∧ t.toVec = u.toVec ∧ t.eq u = false :=
  ⟨.new (.fin false (2 ^ 147)) (.fin false (3 * 2 ^ 149)) (.fin false F32.ONE) (.fin false F32.ONE),
   .new (.fin false (2 ^ 147)) (.fin false (2 * 2 ^ 149)) (.fin false F32.ONE) (.fin false F32.ONE),
   ⟨_, _, _, _, rfl⟩, ⟨_, _, _, _, rfl⟩, by decide +kernel, by decide +kernel⟩

/-! ## C63 -/

/-- C63: moving a note by a staff step or changing its accidental does to its pitch what
C02 and C04 say and to the rest of the note nothing; it fails exactly when the pitch
does, with the same error. -/
theorem C63_pitch (n m : Note) :
    (n.upScoreOffset = .ok (.ok m) ↔ ∃ p, n.pitch.up = .ok (.ok p) ∧ m = { n with pitch := p }) ∧
    (n.downScoreOffset = .ok (.ok m) ↔ ∃ p, n.pitch.down = .ok (.ok p) ∧ m = { n with pitch := p }) ∧
    (n.toggleSharp = .ok m ↔ ∃ p, n.pitch.toggleSharp = .ok p ∧ m = { n with pitch := p }) ∧
    (n.toggleFlat = .ok m ↔ ∃ p, n.pitch.toggleFlat = .ok p ∧ m = { n with pitch := p }) ∧
    (n.toggleNatural = .ok m ↔ ∃ p, n.pitch.toggleNatural = .ok p ∧ m = { n with pitch := p }) ∧
    (∀ e, (n.upScoreOffset = .ok (.error e) ↔ n.pitch.up = .ok (.error e)) ∧
      (n.downScoreOffset = .ok (.error e) ↔ n.pitch.down = .ok (.error e)) ∧
      (n.toggleSharp = .error e ↔ n.pitch.toggleSharp = .error e) ∧
      (n.toggleFlat = .error e ↔ n.pitch.toggleFlat = .error e) ∧
      (n.toggleNatural = .error e ↔ n.pitch.toggleNatural = .error e)) := by
  have k1 : ∀ (x : Except PitchError Pitch), (x.map (fun p => { n with pitch := p }) = .ok m ↔
      ∃ p, x = .ok p ∧ m = { n with pitch := p }) := by
    intro x
    cases x with
    | error e => simp [Except.map]
    | ok p => simp only [Except.map, Except.ok.injEq, exists_eq_left']; exact eq_comm
  have k2 : ∀ (x : Except PitchError Pitch) (e : PitchError),
      (x.map (fun p => { n with pitch := p }) = Except.error e ↔ x = .error e) := by
    intro x e
    cases x <;> simp [Except.map]
  refine ⟨?_, ?_, k1 _, k1 _, k1 _, fun e => ⟨?_, ?_, k2 _ e, k2 _ e, k2 _ e⟩⟩
  · simp only [Note.upScoreOffset]
    cases n.pitch.up with
    | error p => simp
    | ok x => simp only [R_bind_ok, R_pure, Except.ok.injEq]; exact k1 x
  · simp only [Note.downScoreOffset]
    cases n.pitch.down with
    | error p => simp
    | ok x => simp only [R_bind_ok, R_pure, Except.ok.injEq]; exact k1 x
  · simp only [Note.upScoreOffset]
    cases n.pitch.up with
    | error p => simp
    | ok x => simp only [R_bind_ok, R_pure, Except.ok.injEq]; exact k2 x e
  · simp only [Note.downScoreOffset]
    cases n.pitch.down with
    | error p => simp
    | ok x => simp only [R_bind_ok, R_pure, Except.ok.injEq]; exact k2 x e

example : exampleNote.upScoreOffset = .ok (.ok { exampleNote with pitch := ⟨.D, .Oct3, .Null, 62, 36⟩ }) ∧
    exampleNote.toggleFlat = .ok { exampleNote with pitch := ⟨.C, .Oct3, .Flat, 59, 35⟩ } := by decide +kernel

/-- C63: so stepping a note down undoes stepping it up. -/
theorem C63_step_back (n m : Note) (hn : ValidPitch n.pitch) :
    (n.upScoreOffset = .ok (.ok m) → m.downScoreOffset = .ok (.ok n)) ∧
    (n.downScoreOffset = .ok (.ok m) → m.upScoreOffset = .ok (.ok n)) := by
  constructor
  · intro h
    obtain ⟨p, hp, rfl⟩ := (C63_pitch n m).1.1 h
    exact (C63_pitch _ n).2.1.2 ⟨n.pitch, C02_down_up hn hp, rfl⟩
  · intro h
    obtain ⟨p, hp, rfl⟩ := (C63_pitch n m).2.1.1 h
    exact (C63_pitch _ n).1.2 ⟨n.pitch, C02_up_down hn hp, rfl⟩

example : ({ exampleNote with pitch := ⟨.D, .Oct3, .Null, 62, 36⟩ } : Note).downScoreOffset = .ok (.ok exampleNote) :=
  (C63_step_back exampleNote _ ⟨by decide, by decide, by decide, by decide⟩).1 (by decide +kernel)

/-- C63: adding dots (a negative number takes some away) succeeds exactly if the new
number is 0 to 7, changes nothing else, and otherwise returns the number asked for. -/
theorem C63_dots (n : Note) (k : Int) (hd : n.duration.dots ≤ 255) (hk : I32_MIN ≤ k ∧ k ≤ I32_MAX - 255) :
    n.addDots k = if 0 ≤ n.duration.dots + k ∧ n.duration.dots + k ≤ 7
      then .ok (.ok { n with duration := { n.duration with dots := (n.duration.dots + k).toNat } })
      else .ok (.error (n.duration.dots + k)) := by
  simp only [I32_MIN, I32_MAX] at hk
  have hc : chkI32 (n.duration.dots + k) = .ok (n.duration.dots + k) := by
    simp only [chkI32, I32_MIN, I32_MAX]
    rw [if_pos (by omega)]
  simp only [Note.addDots, hc, R_bind_ok]
  by_cases h : 0 ≤ (n.duration.dots : Int) + k ∧ (n.duration.dots : Int) + k ≤ 7
  · rw [if_pos h, if_neg (by omega), (C60_accepts _).1, if_pos (by omega)]
    rfl
  · rw [if_neg h, if_pos (by omega)]
    rfl

example : ({ exampleNote with duration := ⟨.Quarter, 2, 3⟩ } : Note).addDots (-3) = .ok (.ok exampleNote) :=
  C63_dots { exampleNote with duration := ⟨.Quarter, 2, 3⟩ } (-3) (by decide) (by decide)

/-- C63: beyond 32 bits the sum overflows. -/
theorem C63_dots_overflow (n : Note) (k : Int) (h : I32_MAX < n.duration.dots + k) :
    n.addDots k = .error .overflow := by
  simp only [Note.addDots, chkI32]
  rw [if_neg (by omega)]
  rfl

example : ({ exampleNote with duration := ⟨.Quarter, 2, 3⟩ } : Note).addDots 2147483645 = .error .overflow :=
  C63_dots_overflow _ _ (by decide)

/-- C63: taking the added dots away again restores the note. -/
theorem C63_dots_back (n m : Note) (k : Int) (hd : n.duration.dots ≤ 7) (hk : I32_MIN ≤ k ∧ k ≤ I32_MAX - 255)
    (h : n.addDots k = .ok (.ok m)) : m.addDots (-k) = .ok (.ok n) := by
  rw [C63_dots n k (by omega) hk] at h
  split at h
  · next hr =>
    injection h with h; injection h with h
    subst h
    simp only [I32_MIN, I32_MAX] at hk
    rw [C63_dots _ (-k) (by simp only; omega) (by simp only [I32_MIN, I32_MAX]; omega)]
    simp only
    have h1 : ((n.duration.dots + k).toNat : Int) + -k = n.duration.dots := by omega
    rw [h1, if_pos (by omega)]
    simp
  · injection h with h; cases h

example : exampleNote.addDots 3 = .ok (.ok { exampleNote with duration := ⟨.Quarter, 2, 3⟩ }) ∧
    exampleNote.addDots 8 = .ok (.error 8) ∧ exampleNote.addDots (-1) = .ok (.error (-1)) :=
  ⟨C63_dots exampleNote 3 (by decide) (by decide), C63_dots exampleNote 8 (by decide) (by decide),
    C63_dots exampleNote (-1) (by decide) (by decide)⟩

/-- C63: changing the length, or only its note value, changes nothing else; the new
length is the one written. -/
theorem C63_length (n : Note) (d : Duration) (v : NoteValue) :
    n.withDuration d = ⟨n.baseStartTick, n.pitch, d, n.tie, n.tied, n.baseVelocity, n.startTickTrimmer,
      n.durationTrimmer, n.velocityTrimmer, n.channel⟩ ∧
    n.withDurationNumerator v = n.withDuration ⟨v, n.duration.denominator, n.duration.dots⟩ ∧
    (n.withDuration d).withDuration n.duration = n ∧ (n.withDurationNumerator n.duration.numerator) = n := by
  have h : n.withDurationNumerator v = n.withDuration ⟨v, n.duration.denominator, n.duration.dots⟩ := by
    simp only [Note.withDurationNumerator, Note.withDuration]
    split
    · rfl
    · next h =>
      have : n.duration.numerator = v := by simpa using h
      subst this; rfl
  refine ⟨rfl, h, rfl, ?_⟩
  simp [Note.withDurationNumerator]

example : exampleNote.withDurationNumerator .Half = { exampleNote with duration := ⟨.Half, 2, 0⟩ } := by decide

/-- C63: the tie button goes through the four states in the order none, tied to the next,
tied to the previous, both, and back to none; it changes nothing else, and four presses
restore the note. -/
theorem C63_tie (n : Note) :
    (n.toggleTie.tie, n.toggleTie.tied) =
      (if (n.tie, n.tied) = (false, false) then (true, false) else if (n.tie, n.tied) = (true, false) then (false, true)
        else if (n.tie, n.tied) = (false, true) then (true, true) else (false, false)) ∧
    n.toggleTie = { n with tie := n.toggleTie.tie, tied := n.toggleTie.tied } ∧
    n.toggleTie.toggleTie.toggleTie.toggleTie = n ∧
    (∀ a b, (a, b) ∈ [(n.tie, n.tied), (n.toggleTie.tie, n.toggleTie.tied),
      (n.toggleTie.toggleTie.tie, n.toggleTie.toggleTie.tied),
      (n.toggleTie.toggleTie.toggleTie.tie, n.toggleTie.toggleTie.toggleTie.tied)]) := by
  obtain ⟨s, p, d, t, td, v, st, dt, vt, c⟩ := n
  cases t <;> cases td <;> refine ⟨rfl, rfl, rfl, ?_⟩ <;> intro a b <;> cases a <;> cases b <;> simp [Note.toggleTie]

example : (exampleNote.toggleTie.toggleTie.tie, exampleNote.toggleTie.toggleTie.tied) = (false, true) := by
  rw [(C63_tie _).1]; rfl

/-- C63: a note with a legal length and pitch keeps both under all these edits. -/
theorem C63_valid (n m : Note) (hp : ValidPitch n.pitch) (hl : ValidLength n)
    (h : n.upScoreOffset = .ok (.ok m) ∨ n.downScoreOffset = .ok (.ok m) ∨ n.toggleSharp = .ok m ∨
      n.toggleFlat = .ok m ∨ n.toggleNatural = .ok m ∨ (∃ k, n.addDots k = .ok (.ok m)) ∨
      (∃ v, n.withDurationNumerator v = m) ∨ (∃ d, ValidDuration d ∧ n.withDuration d = m) ∨ n.toggleTie = m) :
    ValidPitch m.pitch ∧ ValidLength m := by
  have k := C63_pitch n m
  rcases h with h | h | h | h | h | ⟨k', h⟩ | ⟨v, h⟩ | ⟨d, hd, h⟩ | h
  · obtain ⟨p, hq, rfl⟩ := k.1.1 h
    obtain ⟨s, o, -, h1, h2⟩ := C02_up hp
    refine ⟨?_, ⟨hl.1, hl.2⟩⟩
    by_cases hm : midi s o n.pitch.sharpFlat ≤ 127
    · obtain ⟨q, hq', hv, -⟩ := h1 hm
      rw [hq] at hq'; injection hq' with hq'; injection hq' with hq'
      rw [hq']; exact hv
    · rw [h2 (by omega)] at hq; injection hq with hq; cases hq
  · obtain ⟨p, hq, rfl⟩ := k.2.1.1 h
    obtain ⟨h0, h1⟩ := C02_down hp
    refine ⟨?_, ⟨hl.1, hl.2⟩⟩
    by_cases hz : staff n.pitch.solfa n.pitch.octave = 0
    · rw [h0 hz] at hq; injection hq with hq; cases hq
    · obtain ⟨s, o, -, h2, h3⟩ := h1 (by omega)
      by_cases hm : 0 ≤ midi s o n.pitch.sharpFlat
      · obtain ⟨q, hq', hv, -⟩ := h2 hm
        rw [hq] at hq'; injection hq' with hq'; injection hq' with hq'
        rw [hq']; exact hv
      · rw [h3 (by omega)] at hq; injection hq with hq; cases hq
  · obtain ⟨p, hq, rfl⟩ := k.2.2.1.1 h
    exact ⟨((C04_toggles _ _).1.1 hq).1, ⟨hl.1, hl.2⟩⟩
  · obtain ⟨p, hq, rfl⟩ := k.2.2.2.1.1 h
    exact ⟨((C04_toggles _ _).2.1.1 hq).1, ⟨hl.1, hl.2⟩⟩
  · obtain ⟨p, hq, rfl⟩ := k.2.2.2.2.1.1 h
    exact ⟨((C04_toggles _ _).2.2.1 hq).1, ⟨hl.1, hl.2⟩⟩
  · simp only [Note.addDots, R_bind_eq_ok] at h
    obtain ⟨i, hi, h⟩ := h
    split at h
    · simp only [R_pure, Except.ok.injEq] at h; cases h
    · next hr =>
      rw [(C60_accepts _).1, if_pos (by omega)] at h
      simp only [unwrapO, R_bind_ok, R_pure, Except.ok.injEq] at h
      subst h
      exact ⟨hp, ⟨⟨hl.1.1, hl.1.2, by simp only [Duration.withDots]; omega⟩, hl.2⟩⟩
  · rw [(C63_length n n.duration v).2.1] at h
    subst h
    exact ⟨hp, ⟨⟨hl.1.1, hl.1.2, hl.1.3⟩, hl.2⟩⟩
  · subst h
    exact ⟨hp, ⟨hd, hl.2⟩⟩
  · subst h
    obtain ⟨s, p, d, t, td, v, st, dt, vt, c⟩ := n
    cases t <;> cases td <;> exact ⟨hp, ⟨hl.1, hl.2⟩⟩

example : ∃ m, exampleNote.addDots 2 = .ok (.ok m) ∧ ValidPitch m.pitch ∧ ValidLength m :=
  ⟨{ exampleNote with duration := ⟨.Quarter, 2, 2⟩ }, by decide, C63_valid exampleNote _ ⟨by decide, by decide, by decide, by decide⟩ ⟨⟨by decide, by decide, by decide⟩, by decide⟩
    (.inr (.inr (.inr (.inr (.inr (.inl ⟨2, by decide⟩))))))⟩

/-! ## C64 -/

/-- C64, negation of "the pitch a builder makes has the numbers of its name": the builder
asked for C4 makes a pitch named C4 which sounds as A4 (MIDI 81) and sits on the staff
where A4 does. -/
theorem C64_pitch_false : ∃ p, PitchBuilder.build { solfa := some .C } = .ok p ∧ p.solfa = .C ∧ p.octave = .Oct4 ∧
    p.value = 81 ∧ midi p.solfa p.octave p.sharpFlat = 72 ∧ ¬ ValidPitch p :=
  ⟨⟨.C, .Oct4, .Null, 81, 47⟩, by decide +kernel, rfl, rfl, rfl, by decide, fun h => absurd h.value (by decide)⟩

/-- C64: exactly which builders make a legal pitch: those whose five values agree. -/
theorem C64_pitch_partial (b : PitchBuilder) :
    ∃ p, b.build = .ok p ∧
      (ValidPitch p ↔
        (b.value.getD 81 : Int) = midi (b.solfa.getD .A) (b.octave.getD .Oct4) (b.sharpFlat.getD .Null) ∧
        b.scoreOffset.getD 47 = staff (b.solfa.getD .A) (b.octave.getD .Oct4) ∧
        b.value.getD 81 ≤ 127) := by
  have hd : Pitch.default = .ok ⟨.A, .Oct4, .Null, 81, 47⟩ := by decide +kernel
  refine ⟨⟨b.solfa.getD .A, b.octave.getD .Oct4, b.sharpFlat.getD .Null, b.value.getD 81, b.scoreOffset.getD 47⟩, ?_, ?_⟩
  · simp only [PitchBuilder.build, hd]
    rfl
  · constructor
    · intro h
      have h1 := h.value
      have h2 := h.staff
      have h3 := h.high
      simp only at h1 h2 h3
      exact ⟨h1, h2, by omega⟩
    · rintro ⟨h1, h2, h3⟩
      exact ⟨h1, h2, by simp only; omega, by simp only; omega⟩

example : ∃ p, PitchBuilder.build { octave := some .Oct4 } = .ok p ∧ ValidPitch p := by
  obtain ⟨p, h1, h2⟩ := C64_pitch_partial { octave := some .Oct4 }
  exact ⟨p, h1, h2.2 (by decide)⟩

/-- C64: a note builder makes a note with the values given and, elsewhere, the default
ones (A4, a quarter, no tie, loudness 64, nothing trimmed, channel 0); if what was given
is legal, so is the note. -/
theorem C64_note (b : NoteBuilder) :
    ∃ n, b.build = .ok n ∧
      n = ⟨b.baseStartTick.getD 0, b.pitch.getD ⟨.A, .Oct4, .Null, 81, 47⟩, b.duration.getD ⟨.Quarter, 2, 0⟩,
        b.tie.getD false, b.tied.getD false, b.baseVelocity.getD ⟨64⟩, b.startTickTrimmer.getD ⟨0, 0, 0, 0, 0⟩,
        b.durationTrimmer.getD ⟨⟨1000⟩, ⟨1000⟩, ⟨1000⟩, ⟨1000⟩, ⟨1000⟩⟩, b.velocityTrimmer.getD ⟨0, 0, 0, 0, 0⟩,
        b.channel.getD 0⟩ ∧
      ((∀ v, b.pitch = some v → ValidPitch v) → ValidPitch n.pitch) ∧
      ((∀ v, b.duration = some v → ValidDuration v) → (∀ v, b.durationTrimmer = some v → v.sum.value ≤ 2000) →
        ValidLength n) ∧
      ((∀ v, b.startTickTrimmer = some v → ValidTrimmer v) → ValidTrimmer n.startTickTrimmer) ∧
      ((∀ v, b.velocityTrimmer = some v → ValidTrimmer v) → ValidTrimmer n.velocityTrimmer) := by
  obtain ⟨d, hd, d1, -, -, -, d2, -, -, -, d3, d4, -⟩ := C60_defaults
  have hd0 : Note.default = .ok ⟨0, ⟨.A, .Oct4, .Null, 81, 47⟩, .default, false, false, ⟨64⟩, .ZERO, .ONE, .ZERO, 0⟩ := by
    decide +kernel
  rw [hd] at hd0
  injection hd0 with hd0
  have hz : ∀ {α : Type} (o : Option α) (x : α) (P : α → Prop), (∀ v, o = some v → P v) → P x → P (o.getD x) := by
    intro α o x P h1 h2
    cases o with
    | none => exact h2
    | some v => exact h1 v rfl
  refine ⟨_, by simp only [NoteBuilder.build, hd]; rfl, by rw [hd0]; rfl, ?_, ?_, ?_, ?_⟩
  · intro h; exact hz _ _ _ h d1
  · intro h h'; exact ⟨hz _ _ _ h d2.1, hz _ _ (fun v : RateTrimmer => v.sum.value ≤ 2000) h' d2.2⟩
  · intro h; exact hz _ _ _ h d3
  · intro h; exact hz _ _ _ h d4

example : ∃ n, NoteBuilder.build { baseStartTick := some 480, tie := some true } = .ok n ∧
    n.baseStartTick = 480 ∧ n.tie = true ∧ n.channel = 0 ∧ ValidPitch n.pitch := by
  obtain ⟨n, h, h1, h2, -⟩ := C64_note { baseStartTick := some 480, tie := some true }
  exact ⟨n, h, by rw [h1]; rfl, by rw [h1]; rfl, by rw [h1]; rfl, h2 (fun v hv => by cases hv)⟩

end Klavier
