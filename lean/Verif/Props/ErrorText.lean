import Verif.Lemmas.ErrorText
import Verif.Props.Pitch
import Verif.Props.RenderError

/-! # C72: error messages -/
set_option autoImplicit false
namespace Klavier
open Spec

/-! ## Octaves -/

/-- C72 for octaves is false: the refusal of octave -3 speaks of the octave -1, which it
says should be from -2 to 8, and it is. -/
theorem C72_octave_false :
    ¬ ∀ (v : Int) (e : OctaveError), Octave.valueOf v = .ok (.error e) →
      numbersIn e.text = [v, -2, v, 8] ∧ ¬ (-2 ≤ v ∧ v ≤ 8) := by
  intro h
  have h1 := (h (-3) (.invalidValue (-1)) (by decide)).1
  rw [OctaveError.numbers] at h1
  exact absurd h1 (by decide)

example : Octave.valueOf (-3) = .ok (.error (.invalidValue (-1))) ∧
    OctaveError.text (.invalidValue (-1)) = "Octave(-1) should -2 <= -1 <= 8".toList := by decide +kernel

/-- C72, for octaves: the message gives the bounds -2 and 8 and, instead of the octave
refused, the number two higher.  So what it calls an error is one unless the octave
refused is -3 or -4. -/
theorem C72_octave_partial (v : Int) (e : OctaveError) (h : Octave.valueOf v = .ok (.error e)) :
    numbersIn e.text = [v + 2, -2, v + 2, 8] ∧ (v < -2 ∨ 9 < v) ∧ ((-2 ≤ v + 2 ∧ v + 2 ≤ 8) ↔ (v = -3 ∨ v = -4)) := by
  simp only [Octave.valueOf, R_bind_eq_ok] at h
  obtain ⟨i, hi, h⟩ := h
  have hi' : i = v + 2 := by
    simp only [chkI32] at hi
    split at hi
    · exact (Except.ok.inj hi).symm
    · cases hi
  simp only [Octave.fromScoreOffset] at h
  split at h
  · next hc =>
    cases h
    rw [OctaveError.numbers, hi']
    simp only [Octave.ALL, List.length] at hc
    exact ⟨rfl, by omega, by omega⟩
  · split at h <;> cases h

example : Octave.valueOf 10 = .ok (.error (.invalidValue 12)) ∧
    OctaveError.text (.invalidValue 12) = "Octave(12) should -2 <= 12 <= 8".toList := by decide +kernel

/-! ## Pitches -/

/-- C72 for pitches is false: stepping down from the lowest C says that this C is too
low, with the number -1.  It is a pitch with the number 0. -/
theorem C72_pitch_false :
    ¬ ∀ (p : Pitch) (edit : PitchEdit) (e : PitchError), ValidPitch p → edit.run p = .ok (.error e) → TellsTruth e := by
  intro h
  have h1 := h ⟨.C, .OctM2, .Null, 0, 0⟩ .down (.tooLow .C .OctM2 .Null (-1)) ⟨by decide +kernel, by decide +kernel, by decide +kernel, by decide +kernel⟩
    (by rfl)
  exact absurd h1.1 (by decide +kernel)

example : PitchError.text (.tooLow .C .OctM2 .Null (-1)) = "Pitch(C, OctM2, Null) is too low -1".toList := by decide +kernel

/-- C72, for pitches: apart from stepping down from a C of the lowest octave, whatever
refuses a pitch names a pitch that is out of range and gives its number. -/
theorem C72_pitch_partial (p : Pitch) (edit : PitchEdit) (e : PitchError) (hp : ValidPitch p)
    (h : edit.run p = .ok (.error e)) :
    TellsTruth e ↔ ¬ (∃ a, e = .tooLow .C .OctM2 a (-1) ∧ p.solfa = .C ∧ p.octave = .OctM2 ∧ p.sharpFlat = a ∧
      a ≠ .Flat ∧ (match edit with | .down => True | _ => False)) := by
  have yes : ∀ {s o a}, Pitch.valueOf s o a = .error e → (TellsTruth e ↔ ¬ (∃ a, e = .tooLow .C .OctM2 a (-1) ∧ p.solfa = .C ∧
      p.octave = .OctM2 ∧ p.sharpFlat = a ∧ a ≠ .Flat ∧ (match edit with | .down => True | _ => False))) := by
    intro s o a hv
    refine ⟨fun ht => ?_, fun _ => tellsTruth_valueOf hv⟩
    rintro ⟨a', rfl, _, _, h3, h4, _⟩
    have k : ∀ a' : SharpFlat, a' ≠ .Flat → midi .C .OctM2 a' ≠ -1 := by intro a'; cases a' <;> decide +kernel
    exact k a' h4 ht.1
  cases edit with
  | up =>
    obtain ⟨s, o, _, hu⟩ := up_spec p (B8_not_valid hp)
    simp only [PitchEdit.run, hu] at h
    exact yes (Except.ok.inj h)
  | down =>
    by_cases hc : p.solfa = .C ∧ p.octave = .OctM2
    · have h : Except.ok (Except.error (PitchError.tooLow .C .OctM2 p.sharpFlat (-1))) = (.ok (.error e) : R (Except PitchError Pitch)) := by
        rw [← h]
        simp only [PitchEdit.run, Pitch.down, hc.1, hc.2, Octave.MIN]
        rfl
      have he : PitchError.tooLow .C .OctM2 p.sharpFlat (-1) = e := Except.error.inj (Except.ok.inj h)
      subst he
      have hl := hp.low
      rw [hc.1, hc.2] at hl
      have k : ∀ a' : SharpFlat, 0 ≤ midi .C .OctM2 a' → midi .C .OctM2 a' ≠ -1 ∧ a' ≠ .Flat := by
        intro a'; cases a' <;> decide +kernel
      exact ⟨fun ht => absurd ht.1 (k _ hl).1, fun hn => absurd ⟨_, rfl, hc.1, hc.2, rfl, (k _ hl).2, trivial⟩ hn⟩
    · obtain ⟨s, o, _, hu⟩ := down_spec p hc
      simp only [PitchEdit.run, hu] at h
      exact yes (Except.ok.inj h)
  | sharp => exact yes (Except.ok.inj h)
  | flat => exact yes (Except.ok.inj h)
  | natural => exact yes (Except.ok.inj h)
  | shift d =>
    simp only [PitchEdit.run, Pitch.withScoreOffsetDelta] at h
    cases hc : chkI32 (p.scoreOffset + d) with
    | error e => rw [hc] at h; cases h
    | ok n =>
      rw [hc] at h
      simp only [bind, Except.bind] at h
      split at h
      · next hr =>
        cases h
        refine ⟨fun _ => ?_, fun _ => hr⟩
        rintro ⟨_, h1, _⟩
        cases h1
      · cases hs : Pitch.scoreOffsetToSolfaOctave n with
        | error e => rw [hs] at h; cases h
        | ok so =>
          rw [hs] at h
          exact yes (Except.ok.inj h)
  | key k =>
    have h := Except.ok.inj h
    simp only [Pitch.applyKey] at h
    split at h
    · split at h
      · split at h
        · exact yes h
        · cases h
      · cases h
    · cases h

example : PitchEdit.run .flat ⟨.C, .OctM2, .Null, 0, 0⟩ = .ok (.error (.tooLow .C .OctM2 .Flat (-1))) ∧
    TellsTruth (.tooLow .C .OctM2 .Flat (-1)) := ⟨by rfl, by decide +kernel, by decide⟩

/-- C72, for pitches: the message contains the octave and the number, and different
errors have different messages. -/
theorem C72_pitch_text (e e' : PitchError) :
    (e.text = e'.text → e = e') ∧
    (∀ s o a v, e = .tooLow s o a v ∨ e = .tooHigh s o a v → numbersIn e.text = [(o.value.natAbs : Int), v]) ∧
    (∀ v, e = .invalidScoreOffset v → numbersIn e.text = [v]) := by
  refine ⟨PitchError.text_inj, ?_, ?_⟩
  · rintro s o a v (rfl | rfl) <;> exact PitchError.numbers _
  · rintro v rfl; exact PitchError.numbers _

example : PitchError.text (.tooHigh .G .Oct8 .Sharp 128) = "Pitch(G, Oct8, Sharp) is too high 128".toList ∧
    PitchError.text (.invalidScoreOffset 75) = "Score offset error(75)".toList ∧
    numbersIn "Pitch(G, Oct8, Sharp) is too high 128".toList = [8, 128] := by decide +kernel

/-! ## Rendering -/

/-- C72, for rendering: the numbers in the message are exactly the ticks and ending
numbers that the error is about, and different errors have different messages. -/
theorem C72_render_text (e e' : RenderRegionError) :
    numbersIn e.text = numbersOf e ∧ (e.text = e'.text → e = e') :=
  ⟨RenderRegionError.numbers e, RenderRegionError.text_inj⟩

example : RenderRegionError.text (.invalidRegionIndex 480 .VI3 .VI2) =
      "InvalidRegionIndex { tick: 480, actual: VI3, expected: VI2 }".toList ∧
    RenderRegionError.text (.codaAfterFine 1 2 30) = "CodaAfterFine { coda_from: 1, coda_to: 2, fine: 30 }".toList ∧
    RenderRegionError.text (.moreThanTwoCodas 1 2 30) = "MoreThanTwoCodas { tick: [1, 2, 30] }".toList ∧
    RenderRegionError.text (.noSegnoForDs 77) = "NoSegnoForDs { ds_tick: 77 }".toList ∧
    RenderRegionError.text (.fineNotAfterSegno 7 8) = "FineNotAfterSegno { segno_tick: 7, fine_tick: 8 }".toList ∧
    RenderRegionError.text (.duplicatedDsDc 7 8) = "DuplicatedDsDc { tick: [7, 8] }".toList := by decide +kernel

private theorem endings_mem {k : Nat} {l : List Bar} {ts : List Nat} (h : Endings k l ts) :
    ∀ t ∈ ts, ∃ b ∈ l, b.startTick = t := by
  induction h with
  | @last k x xs _ =>
    intro t ht
    exact ⟨x, List.mem_cons_self .., (List.mem_singleton.1 ht).symm⟩
  | @more k x y xs ys ts _ _ _ ih =>
    intro t ht
    rcases List.mem_cons.1 ht with rfl | ht
    · exact ⟨x, List.mem_cons_self .., rfl⟩
    · obtain ⟨b, hb, e⟩ := ih t ht
      exact ⟨b, List.mem_cons_of_mem _ (List.mem_append_right _ hb), e⟩

private theorem take_mem {l : List Nat} {n : Nat} {r : List Nat} (h : l.take n = r) : ∀ t ∈ r, t ∈ l := by
  intro t ht
  exact List.mem_of_mem_take (h ▸ ht)

private theorem marks_bar {bars : List Bar} {m : Repeat} {t : Nat} (h : t ∈ marks bars m) : ∃ b ∈ bars, b.startTick = t := by
  obtain ⟨b, hb, e⟩ := List.mem_map.1 h
  exact ⟨b, (List.mem_filter.1 hb).1, e⟩

private theorem jump_bar {bars : List Bar} {t : Nat} (h : t ∈ jumpTicks bars) : ∃ b ∈ bars, b.startTick = t := by
  obtain ⟨b, hb, e⟩ := List.mem_flatMap.1 h
  refine ⟨b, hb, ?_⟩
  rcases List.mem_append.1 e with e | e <;> split at e <;> simp_all

/-- C72, for rendering: every number in the message of a rendering that is refused is the
tick of a bar line of the score, or the number of an ending. -/
theorem C72_render_bars (ip : Bool) (tune : Rhythm) (bars : List Bar) (hb : BarsOk bars) (e : RenderRegionError)
    (h : renderRegion ip tune bars = .error (.err e)) :
    ∀ n ∈ numbersIn e.text, (∃ b ∈ bars, (b.startTick : Int) = n) ∨
      ((∃ t a b, e = .invalidRegionIndex t a b) ∧ 1 ≤ n ∧ n ≤ 4) := by
  have hd := C32_reported ip tune bars hb e h
  rw [RenderRegionError.numbers]
  have one : ∀ t : Nat, (∃ b ∈ bars, b.startTick = t) → ∃ b ∈ bars, (b.startTick : Int) = t :=
    fun t ⟨b, hb, e⟩ => ⟨b, hb, by rw [e]⟩
  have at1 : ∀ {pre rest : List Bar} {x : Bar} {t : Nat}, bars = pre ++ x :: rest → x.startTick = t →
      ∃ b ∈ bars, b.startTick = t := by
    rintro pre rest x t rfl e
    exact ⟨x, List.mem_append_right _ (List.mem_cons_self ..), e⟩
  cases e with
  | invalidRegionIndex t a b =>
    obtain ⟨pre, x, rest, h1, h2, _⟩ := hd
    intro n hn
    simp only [numbersOf, List.mem_cons, List.not_mem_nil, or_false] at hn
    rcases hn with rfl | rfl | rfl
    · exact .inl (one t (at1 h1 h2))
    · exact .inr ⟨⟨_, _, _, rfl⟩, by cases a <;> decide⟩
    · exact .inr ⟨⟨_, _, _, rfl⟩, by cases b <;> decide⟩
  | noRepeatEnd t =>
    obtain ⟨l, y, r, h1, h2, _⟩ := hd
    intro n hn
    cases List.mem_singleton.1 hn
    exact .inl (one t (at1 h1 h2))
  | variationNotClosed t =>
    obtain ⟨ts, ⟨l, v, r, h1, _, h2⟩, h3⟩ := hd
    intro n hn
    cases List.mem_singleton.1 hn
    obtain ⟨b, hb, e⟩ := endings_mem h2 t (List.mem_of_getLast? h3)
    exact .inl (one t ⟨b, h1 ▸ List.mem_append_right _ hb, e⟩)
  | duplicatedSegno a b | duplicatedFine a b =>
    intro n hn
    have := take_mem hd
    simp only [numbersOf, List.mem_cons, List.not_mem_nil, or_false] at hn
    rcases hn with rfl | rfl
    · exact .inl (one _ (marks_bar (this a (by simp))))
    · exact .inl (one _ (marks_bar (this b (by simp))))
  | duplicatedDsDc a b =>
    intro n hn
    have := take_mem hd
    simp only [numbersOf, List.mem_cons, List.not_mem_nil, or_false] at hn
    rcases hn with rfl | rfl
    · exact .inl (one _ (jump_bar (this a (by simp))))
    · exact .inl (one _ (jump_bar (this b (by simp))))
  | moreThanTwoCodas a b c =>
    intro n hn
    have := take_mem hd
    simp only [numbersOf, List.mem_cons, List.not_mem_nil, or_false] at hn
    rcases hn with rfl | rfl | rfl
    · exact .inl (one _ (marks_bar (this a (by simp))))
    · exact .inl (one _ (marks_bar (this b (by simp))))
    · exact .inl (one _ (marks_bar (this c (by simp))))
  | noSegnoForDs t | onlyOneCoda t =>
    intro n hn
    cases List.mem_singleton.1 hn
    exact .inl (one t (marks_bar (hd.1 ▸ List.mem_singleton.2 rfl)))
  | codaAfterFine a b c =>
    obtain ⟨h1, h2, _⟩ := hd
    intro n hn
    simp only [numbersOf, List.mem_cons, List.not_mem_nil, or_false] at hn
    rcases hn with rfl | rfl | rfl
    · exact .inl (one _ (marks_bar (m := .Coda) (by rw [h1]; simp)))
    · exact .inl (one _ (marks_bar (m := .Coda) (by rw [h1]; simp)))
    · exact .inl (one _ (marks_bar (m := .Fine) (by rw [h2]; simp)))
  | segnoWhileVariation t =>
    obtain ⟨pre, x, rest, _, _, _, _, h1, h2, _⟩ := hd
    intro n hn
    cases List.mem_singleton.1 hn
    exact .inl (one t (at1 h1 h2))
  | duplicatedRepeatStart t | orphanRepeatEnd t | repeatInVariation t | dcDsWhileRepeat t | dcDsWhileVariation t =>
    obtain ⟨pre, x, rest, _, h1, h2, _⟩ := hd
    intro n hn
    cases List.mem_singleton.1 hn
    exact .inl (one t (at1 h1 h2))
  | _ => exact absurd hd id

example : renderRegion true .default [⟨480, none, none, { var2 := true }⟩] = .error (.err (.invalidRegionIndex 480 .VI2 .VI1)) ∧
    BarsOk [⟨480, none, none, { var2 := true }⟩] ∧
    numbersIn (RenderRegionError.text (.invalidRegionIndex 480 .VI2 .VI1)) = [480, 2, 1] :=
  ⟨by decide, ⟨by simp, by decide⟩, by decide +kernel⟩

end Klavier
