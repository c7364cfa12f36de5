import Verif.Lemmas.FieldError
import Verif.Lemmas.Text

/-! # C78 what a refused text field says -/
set_option autoImplicit false
namespace Klavier
open Spec

/-- A numeral begins above every number below its value. -/
private theorem above_of_numeral {max : Nat} {ds : List Char} (h : IsNumeral ds) (hv : max < numeralValue ds) :
    BeginsAbove max ds := ⟨ds, [], by simp, h.2, hv⟩

private theorem unsigned_above {max v : Nat} {s : List Char} (h : WritesNat s v) (hv : max < v) :
    ∃ b, (s = b ∨ s = '+' :: b) ∧ BeginsAbove max b := by
  obtain ⟨ds, hs, hd, rfl⟩ := h
  exact ⟨ds, hs, above_of_numeral hd hv⟩

private theorem unsigned_refused (max : Nat) (s : List Char) (hs : s ≠ []) (e : ParseIntError) :
    parseUnsigned max s = .error e ↔
      (e = .posOverflow ∧ ∃ b, (s = b ∨ s = '+' :: b) ∧ BeginsAbove max b) ∨
      (e = .invalidDigit ∧ (∀ v, ¬ WritesNat s v) ∧ ¬ ∃ b, (s = b ∨ s = '+' :: b) ∧ BeginsAbove max b) := by
  constructor
  · intro h
    rcases parseUnsigned_error h with ⟨_, h'⟩ | rfl | rfl
    · exact absurd h' hs
    · refine .inr ⟨rfl, ?_, ?_⟩
      · intro v hv
        by_cases hm : v ≤ max
        · rw [(parseUnsigned_iff max s v).2 ⟨hv, hm⟩] at h
          cases h
        · rw [(parseUnsigned_over max s).2 (unsigned_above hv (by omega))] at h
          cases h
      · intro hb
        rw [(parseUnsigned_over max s).2 hb] at h
        cases h
    · exact .inl ⟨rfl, (parseUnsigned_over max s).1 h⟩
  · rintro (⟨rfl, h⟩ | ⟨rfl, h1, h2⟩)
    · exact (parseUnsigned_over max s).2 h
    · cases hp : parseUnsigned max s with
      | ok v => exact absurd ((parseUnsigned_iff max s v).1 hp).1 (h1 v)
      | error e =>
        rcases parseUnsigned_error hp with ⟨_, h'⟩ | rfl | rfl
        · exact absurd h' hs
        · rfl
        · exact absurd ((parseUnsigned_over max s).1 hp) h2

/-- C78, the trimmer field: it reports a number too large exactly if the text begins (after
a plus sign) with digits above 32767, a number too small exactly if it begins with a minus
sign and digits above 32768, and an invalid digit for every other text that is no number. -/
theorem C78_i16 (s : List Char) (e : ParseIntError) :
    fieldI16 s = .ok (.error e) ↔
      (e = .posOverflow ∧ ∃ b, (s = b ∨ s = '+' :: b) ∧ BeginsAbove 32767 b) ∨
      (e = .negOverflow ∧ ∃ b, s = '-' :: b ∧ BeginsAbove 32768 b) ∨
      (e = .invalidDigit ∧ s ≠ [] ∧ (∀ v, ¬ WritesInt s v) ∧ (¬ ∃ b, (s = b ∨ s = '+' :: b) ∧ BeginsAbove 32767 b) ∧
        ¬ ∃ b, s = '-' :: b ∧ BeginsAbove 32768 b) := by
  cases s with
  | nil =>
    refine ⟨fun h => (by cases h), ?_⟩
    rintro (⟨_, b, h | h, hb⟩ | ⟨_, b, h, _⟩ | ⟨_, h, _⟩)
    · rw [← h] at hb; exact absurd hb not_above_nil
    · cases h
    · cases h
    · exact absurd rfl h
  | cons c cs =>
    have hf : fieldI16 (c :: cs) = .ok ((parseI16 (c :: cs)).map some) := rfl
    rw [hf]
    have inj : (Except.ok ((parseI16 (c :: cs)).map some) : R (Except ParseIntError (Option Int))) = .ok (.error e) ↔
        parseI16 (c :: cs) = .error e :=
      ⟨fun h => map_error.1 (Except.ok.inj h), fun h => congrArg Except.ok (map_error.2 h)⟩
    rw [inj]
    by_cases hm : c = '-'
    · subst hm
      have no : ¬ ∃ b, ('-' :: cs = b ∨ '-' :: cs = '+' :: b) ∧ BeginsAbove 32767 b := by
        rintro ⟨b, h | h, hb⟩
        · rw [← h] at hb; exact absurd hb.digit not_digit_minus
        · cases h
      have wr : ∀ v, WritesInt ('-' :: cs) v ↔ IsNumeral cs ∧ v = -(numeralValue cs : Int) := by
        intro v
        constructor
        · rintro (⟨n, ⟨ds, h | h, ⟨h1, h2⟩, _⟩, _⟩ | ⟨ds, h, h1, h2⟩)
          · rw [← h] at h2; exact absurd (h2 '-' (by simp)) not_digit_minus
          · cases h
          · cases h; exact ⟨h1, h2⟩
        · rintro ⟨h1, h2⟩
          exact .inr ⟨cs, rfl, h1, h2⟩
      have cl : (∃ b, '-' :: cs = '-' :: b ∧ BeginsAbove 32768 b) ↔ BeginsAbove 32768 cs :=
        ⟨fun ⟨b, h, hb⟩ => by cases h; exact hb, fun h => ⟨cs, rfl, h⟩⟩
      rw [cl]
      constructor
      · intro h
        rcases parseI16_error h with ⟨_, h'⟩ | rfl | rfl | ⟨rfl, _⟩
        · cases h'
        · refine .inr (.inr ⟨rfl, by simp, ?_, no, ?_⟩)
          · intro v hv
            obtain ⟨h1, rfl⟩ := (wr v).1 hv
            by_cases hle : numeralValue cs ≤ 32768
            · rw [(parseI16_iff _ _).2 ⟨hv, by omega, by omega⟩] at h
              cases h
            · rw [(parseI16_neg cs).2 (above_of_numeral h1 (by omega))] at h
              cases h
          · intro hb
            rw [(parseI16_neg cs).2 hb] at h
            cases h
        · exfalso
          cases cs with
          | nil => cases h
          | cons x xs =>
            have h' : (parseDigits 32768 .negOverflow (x :: xs) 0).map (fun n : Nat => -(n : Int)) = .error .posOverflow := h
            rw [map_error] at h'
            rcases parseDigits_error _ _ h' with k | k <;> cases k
        · exact .inr (.inl ⟨rfl, (parseI16_neg cs).1 h⟩)
      · rintro (⟨_, h⟩ | ⟨rfl, h⟩ | ⟨rfl, _, h1, _, h2⟩)
        · exact absurd h no
        · exact (parseI16_neg cs).2 h
        · cases hp : parseI16 ('-' :: cs) with
          | ok v => exact absurd ((parseI16_iff _ v).1 hp).1 (h1 v)
          | error e =>
            rcases parseI16_error hp with ⟨_, h'⟩ | rfl | rfl | ⟨rfl, _⟩
            · cases h'
            · rfl
            · exfalso
              cases cs with
              | nil => cases hp
              | cons x xs =>
                have h' : (parseDigits 32768 .negOverflow (x :: xs) 0).map (fun n : Nat => -(n : Int)) = .error .posOverflow := hp
                rw [map_error] at h'
                rcases parseDigits_error _ _ h' with k | k <;> cases k
            · exact absurd ((parseI16_neg cs).1 hp) h2
    · rw [parseI16_plain hm, unsigned_refused 32767 _ (by simp)]
      have nm : ¬ ∃ b, c :: cs = '-' :: b ∧ BeginsAbove 32768 b := by
        rintro ⟨b, h, _⟩
        exact hm (List.cons.inj h).1
      have wr : (∀ v, ¬ WritesInt (c :: cs) v) ↔ ∀ v, ¬ WritesNat (c :: cs) v := by
        constructor
        · intro h v hv
          exact h v (.inl ⟨v, hv, rfl⟩)
        · rintro h v (⟨n, hn, _⟩ | ⟨ds, hd, _⟩)
          · exact h n hn
          · exact hm (List.cons.inj hd).1
      rw [wr]
      constructor
      · rintro (h | ⟨h1, h2, h3⟩)
        · exact .inl h
        · exact .inr (.inr ⟨h1, by simp, h2, h3, nm⟩)
      · rintro (h | ⟨_, h⟩ | ⟨h1, _, h2, h3, _⟩)
        · exact .inl h
        · exact absurd h nm
        · exact .inr ⟨h1, h2, h3⟩

example : fieldI16 "+32768".toList = .ok (.error .posOverflow) ∧ fieldI16 "-32769".toList = .ok (.error .negOverflow) :=
  ⟨(C78_i16 _ _).2 (.inl ⟨rfl, "32768".toList, .inr rfl, "32768".toList, [], by decide, by unfold IsDigit; decide, by decide⟩),
    (C78_i16 _ _).2 (.inr (.inl ⟨rfl, "32769".toList, rfl, "32769".toList, [], by decide, by unfold IsDigit; decide, by decide⟩))⟩

/-- C78, the loudness and the tempo field: the same with 255 and 65535. -/
theorem C78_unsigned (s : List Char) (e : ParseIntError) :
    (fieldVelocity s = .ok (.error e) ↔
      (e = .posOverflow ∧ ∃ b, (s = b ∨ s = '+' :: b) ∧ BeginsAbove 255 b) ∨
      (e = .invalidDigit ∧ s ≠ [] ∧ (∀ v, ¬ WritesNat s v) ∧ ¬ ∃ b, (s = b ∨ s = '+' :: b) ∧ BeginsAbove 255 b)) ∧
    (fieldTempo s = .ok (.error e) ↔
      (e = .posOverflow ∧ ∃ b, (s = b ∨ s = '+' :: b) ∧ BeginsAbove 65535 b) ∨
      (e = .invalidDigit ∧ s ≠ [] ∧ (∀ v, ¬ WritesNat s v) ∧ ¬ ∃ b, (s = b ∨ s = '+' :: b) ∧ BeginsAbove 65535 b)) := by
  have none_ : ∀ max, s = [] → ¬ ∃ b, (s = b ∨ s = '+' :: b) ∧ BeginsAbove max b := by
    rintro max rfl ⟨b, h | h, hb⟩
    · rw [← h] at hb; exact absurd hb not_above_nil
    · cases h
  by_cases hs : s = []
  · have n1 := none_ 255 hs
    have n2 := none_ 65535 hs
    subst hs
    constructor
    · refine ⟨fun h => (by cases h), ?_⟩
      rintro (⟨_, h⟩ | ⟨_, h, _⟩)
      · exact absurd h n1
      · exact absurd rfl h
    · refine ⟨fun h => (by cases h), ?_⟩
      rintro (⟨_, h⟩ | ⟨_, h, _⟩)
      · exact absurd h n2
      · exact absurd rfl h
  · constructor
    · have hv : fieldVelocity s = .ok (.error e) ↔ parseUnsigned 255 s = .error e := by
        unfold fieldVelocity
        rw [if_neg hs]
        exact ⟨fun h => map_error.1 (Except.ok.inj h), fun h => congrArg Except.ok (map_error.2 h)⟩
      rw [hv, unsigned_refused 255 s hs]
      simp only [ne_eq, hs, not_false_eq_true, true_and]
    · have hv : fieldTempo s = .ok (.error e) ↔ parseUnsigned 65535 s = .error e := by
        unfold fieldTempo
        rw [if_neg hs]
        cases parseUnsigned 65535 s with
        | error e' =>
          show (Except.ok (Except.error e') : R (Except ParseIntError (Option TempoValue))) = _ ↔ _
          simp
        | ok u =>
          refine ⟨fun h => ?_, fun h => (by cases h)⟩
          obtain ⟨t, _, ht⟩ := R_bind_eq_ok.1 h
          cases ht
      rw [hv, unsigned_refused 65535 s hs]
      simp only [ne_eq, hs, not_false_eq_true, true_and]

example : fieldTempo "65536".toList = .ok (.error .posOverflow) :=
  (C78_unsigned _ _).2.2 (.inl ⟨rfl, "65536".toList, .inl rfl, "65536".toList, [], by decide, by unfold IsDigit; decide, by decide⟩)

/-- C78 is false for the numerator of a signature and the denominator of a length: 256 is
a number out of range, but is reported as no number. -/
theorem C78_beyond_false :
    WritesNat "256".toList 256 ∧ fieldNumerator "256".toList = .ok (.error (.cannotParse "256".toList)) ∧
    fieldDenominator "256".toList = .ok (.error .parseIntError) ∧
    fieldNumerator "100".toList = .ok (.error (.invalidValue 100)) ∧ fieldDenominator "1".toList = .ok (.error .invalidValue) :=
  ⟨⟨"256".toList, .inl rfl, ⟨by decide, by unfold IsDigit; decide⟩, by decide⟩, by decide, by decide, by decide, by decide⟩

/-- C78 is false the other way round as well: this is no number, but is reported as a
number too large. -/
theorem C78_junk_false :
    (∀ v, ¬ WritesInt "40000x".toList v) ∧ fieldI16 "40000x".toList = .ok (.error .posOverflow) := by
  refine ⟨?_, by decide⟩
  rintro v (⟨n, ⟨ds, h | h, ⟨_, h2⟩, _⟩, _⟩ | ⟨ds, h, _⟩)
  · rw [← h] at h2
    exact absurd (h2 'x' (by decide)) (by unfold IsDigit; decide)
  · exact absurd (List.cons.inj h).1 (by decide)
  · exact absurd (List.cons.inj h).1 (by decide)

/-- C78 for the numerator of a signature and the denominator of a length, exactly: a number
up to 255 out of range is reported as such (with the number, for a numerator), everything
else that is not empty as no number (with the text, for a numerator). -/
theorem C78_beyond_partial (s t : List Char) (v : Nat) :
    (fieldNumerator s = .ok (.error (.invalidValue v)) ↔ WritesNat s v ∧ v ≤ 255 ∧ ¬ (1 ≤ v ∧ v ≤ 99)) ∧
    (fieldNumerator s = .ok (.error (.cannotParse t)) ↔ t = s ∧ s ≠ [] ∧ ¬ ∃ u ≤ 255, WritesNat s u) ∧
    (fieldDenominator s = .ok (.error .invalidValue) ↔ ∃ u ≤ 1, WritesNat s u) ∧
    (fieldDenominator s = .ok (.error .parseIntError) ↔ s ≠ [] ∧ ¬ ∃ u ≤ 255, WritesNat s u) := by
  have nonempty : ∀ u, WritesNat s u → s ≠ [] := by
    rintro u ⟨ds, h | h, ⟨h1, _⟩, _⟩
    · rw [h]; exact h1
    · rw [h]; simp
  by_cases hs : s = []
  · subst hs
    refine ⟨⟨fun h => (by cases h), fun h => absurd rfl (nonempty _ h.1)⟩, ⟨fun h => (by cases h), fun h => absurd rfl h.2.1⟩,
      ⟨fun h => (by cases h), fun ⟨u, _, h⟩ => absurd rfl (nonempty _ h)⟩, ⟨fun h => (by cases h), fun h => absurd rfl h.1⟩⟩
  · have unique : ∀ u w, WritesNat s u → WritesNat s w → u ≤ 255 → u = w := by
      intro u w hu hw hle
      have h1 := (parseUnsigned_iff (max 255 w) s u).2 ⟨hu, by omega⟩
      have h2 := (parseUnsigned_iff (max 255 w) s w).2 ⟨hw, by omega⟩
      rw [h1] at h2
      exact Except.ok.inj h2
    cases hp : parseUnsigned 255 s with
    | ok u =>
      obtain ⟨hu, hle⟩ := (parseUnsigned_iff 255 s u).1 hp
      have hn : fieldNumerator s = .ok ((Numerator.fromValue u).map some) := by
        simp only [fieldNumerator, if_neg hs, Numerator.fromStr, hp]
      have hd : fieldDenominator s = match Denominator.fromValue u with
          | some d => .ok (.ok (some d))
          | none => .ok (.error .invalidValue) := by
        simp only [fieldDenominator, if_neg hs, hp]
        cases Denominator.fromValue u <;> rfl
      rw [hn, hd]
      have ex : ∃ u ≤ 255, WritesNat s u := ⟨u, hle, hu⟩
      refine ⟨?_, ?_, ?_, ?_⟩
      · unfold Numerator.fromValue
        by_cases hr : u < 1 ∨ 99 < u
        · rw [if_pos hr]
          constructor
          · intro h
            cases h
            exact ⟨hu, hle, by omega⟩
          · rintro ⟨h1, h2, _⟩
            rw [unique u v hu h1 hle]
            rfl
        · rw [if_neg hr]
          refine ⟨fun h => (by cases h), ?_⟩
          rintro ⟨h1, h2, h3⟩
          have := unique u v hu h1 hle
          omega
      · refine ⟨fun h => ?_, fun h => absurd ex h.2.2⟩
        unfold Numerator.fromValue at h
        split at h <;> cases h
      · unfold Denominator.fromValue
        by_cases hr : u < 2
        · rw [if_pos hr]
          exact ⟨fun _ => ⟨u, by omega, hu⟩, fun _ => rfl⟩
        · rw [if_neg hr]
          refine ⟨fun h => (by cases h), ?_⟩
          rintro ⟨w, hw, h⟩
          have := unique u w hu h hle
          omega
      · refine ⟨fun h => ?_, fun h => absurd ex h.2⟩
        split at h <;> cases h
    | error e =>
      have nex : ¬ ∃ u ≤ 255, WritesNat s u := by
        rintro ⟨u, h1, h2⟩
        rw [(parseUnsigned_iff 255 s u).2 ⟨h2, h1⟩] at hp
        cases hp
      have hn : fieldNumerator s = .ok (.error (.cannotParse s)) := by
        simp only [fieldNumerator, if_neg hs, Numerator.fromStr, hp]
        rfl
      have hd : fieldDenominator s = .ok (.error .parseIntError) := by
        simp only [fieldDenominator, if_neg hs, hp]
      rw [hn, hd]
      refine ⟨⟨fun h => (by cases h), fun h => absurd ⟨v, h.2.1, h.1⟩ nex⟩, ⟨fun h => ?_, fun h => by rw [h.1]⟩,
        ⟨fun h => (by cases h), fun ⟨u, h1, h2⟩ => absurd ⟨u, by omega, h2⟩ nex⟩, ⟨fun _ => ⟨hs, nex⟩, fun _ => rfl⟩⟩
      cases h
      exact ⟨rfl, hs, nex⟩

example : fieldNumerator "0".toList = .ok (.error (.invalidValue 0)) :=
  (C78_beyond_partial "0".toList [] 0).1.2 ⟨⟨"0".toList, .inl rfl, ⟨by decide, by unfold IsDigit; decide⟩, by decide⟩, by decide, by decide⟩

end Klavier
