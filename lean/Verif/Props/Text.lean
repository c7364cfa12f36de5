import Verif.Lemmas.Text
import Verif.Lemmas.Values

/-! # C41-C44: text input, location text, interning -/
set_option autoImplicit false
namespace Klavier
open Spec

/-! ## C41 -/

/-- A session on a text input: the initial text, then edits of the buffer, each of
which may depend on the buffer. -/
def textSession {V : Type} (validate : List Char → R V) (init : List Char) :
    List (List Char → List Char) → R (TextInput V)
  | fs => fs.foldlM (fun t f => t.mutate validate f) =<< TextInput.fromString validate init

/-- Whatever the edits, the buffer is what the edits produced and the validated
value is the result of validating exactly that buffer.  `validate` is arbitrary,
so this covers every field type. -/
theorem C41_sync {V : Type} (validate : List Char → R V) (init : List Char)
    (fs : List (List Char → List Char)) (t : TextInput V) (h : textSession validate init fs = .ok t) :
    t.input = fs.foldl (fun b f => f b) init ∧ validate t.input = .ok t.validate := by
  simp only [textSession, Bind.bindLeft, TextInput.fromString, bind_assoc, R_bind_eq_ok, R_pure] at h
  obtain ⟨v, hv, h⟩ := h
  obtain ⟨t0, ht0, h⟩ := h
  cases ht0
  have gen : ∀ (fs : List (List Char → List Char)) (t0 t : TextInput V),
      validate t0.buffer = .ok t0.validated →
      fs.foldlM (fun t f => t.mutate validate f) t0 = .ok t →
      t.buffer = fs.foldl (fun b f => f b) t0.buffer ∧ validate t.buffer = .ok t.validated := by
    intro fs
    induction fs with
    | nil =>
      intro t0 t h0 h
      simp only [List.foldlM_nil, R_pure, Except.ok.injEq] at h
      subst h
      exact ⟨rfl, h0⟩
    | cons f fs ih =>
      intro t0 t h0 h
      simp only [List.foldlM_cons, R_bind_eq_ok, TextInput.mutate, R_pure, Except.ok.injEq] at h
      obtain ⟨t1, ⟨v1, hv1, rfl⟩, h⟩ := h
      exact ih ⟨v1, f t0.buffer⟩ t hv1 h
  exact gen fs ⟨v, init⟩ t hv h

example : textSession (fun s => .ok s.length) "ab".toList [fun b => b ++ ['c'], List.drop 2] = .ok ⟨1, ['c']⟩ := rfl

/-- The session panics exactly when validating one of the successive buffers
panics; in particular never with a validator that does not panic. -/
theorem C41_panic {V : Type} (validate : List Char → R V) (init : List Char)
    (fs : List (List Char → List Char)) :
    (∃ e, textSession validate init fs = .error e) ↔
      ∃ k ≤ fs.length, ∃ e, validate ((fs.take k).foldl (fun b f => f b) init) = .error e := by
  have gen : ∀ (fs : List (List Char → List Char)) (t0 : TextInput V),
      (∃ e, fs.foldlM (fun t f => t.mutate validate f) t0 = .error e) ↔
      ∃ k, k < fs.length ∧ ∃ e, validate ((fs.take (k + 1)).foldl (fun b f => f b) t0.buffer) = .error e := by
    intro fs
    induction fs with
    | nil =>
      intro t0
      simp only [List.foldlM_nil, R_pure, reduceCtorEq, exists_false, List.length_nil, Nat.not_lt_zero, false_and]
    | cons f fs ih =>
      intro t0
      rw [List.foldlM_cons]
      conv => lhs; arg 1; ext e; lhs; arg 1; rw [TextInput.mutate]
      cases hv : validate (f t0.buffer) with
      | error e =>
        simp only [R_bind_error, Except.error.injEq, exists_eq', true_iff]
        exact ⟨0, by simp, e, by simpa using hv⟩
      | ok v =>
        simp only [R_bind_ok, R_pure]
        rw [ih]
        constructor
        · rintro ⟨k, hk, e, he⟩
          exact ⟨k + 1, by simpa using hk, e, by simpa [List.take_succ_cons] using he⟩
        · rintro ⟨k, hk, e, he⟩
          cases k with
          | zero =>
            rw [List.take_succ_cons] at he
            simp [hv] at he
          | succ k => exact ⟨k, by simpa using hk, e, by simpa [List.take_succ_cons] using he⟩
  simp only [textSession, Bind.bindLeft, TextInput.fromString, bind_assoc]
  cases hv : validate init with
  | error e =>
    simp only [R_bind_error, Except.error.injEq, exists_eq', true_iff]
    exact ⟨0, by simp, e, by simpa using hv⟩
  | ok v =>
    simp only [R_bind_ok, R_pure]
    rw [gen]
    constructor
    · rintro ⟨k, hk, e, he⟩
      exact ⟨k + 1, by omega, e, he⟩
    · rintro ⟨k, hk, e, he⟩
      cases k with
      | zero => simp [hv] at he
      | succ k => exact ⟨k, by omega, e, he⟩

example : (textSession fieldI16 "12".toList [(· ++ ['x']), List.dropLast, (· ++ ['3'])]).map
    (fun t => (t.input, t.validate)) = .ok ("123".toList, .ok (some 123)) := by decide

/-! ## C42 -/

/-- Reading an unsigned number accepts exactly an optional plus sign and digits
whose value fits. -/
theorem C42_unsigned (max : Nat) (s : List Char) (v : Nat) :
    parseUnsigned max s = .ok v ↔ WritesNat s v ∧ v ≤ max := parseUnsigned_iff max s v

example : parseUnsigned 255 "+255".toList = .ok 255 ∧ parseUnsigned 255 "256".toList ≠ .ok 256 ∧ ∀ v, parseUnsigned 255 "2 5".toList ≠ .ok v := by
  refine ⟨by decide, by decide, fun v h => ?_⟩
  rw [show parseUnsigned 255 "2 5".toList = .error .invalidDigit by decide] at h
  cases h

/-- The trimmer field (16-bit number): never panics; empty gives no value; a
value exactly when the text writes a number in range. -/
theorem C42_i16 (s : List Char) :
    ∃ r, fieldI16 s = .ok r ∧
      (r = .ok none ↔ s = []) ∧
      ∀ v, r = .ok (some v) ↔ WritesInt s v ∧ -32768 ≤ v ∧ v ≤ 32767 := by
  by_cases hs : s = []
  · subst hs
    refine ⟨.ok none, rfl, by simp, ?_⟩
    intro v
    constructor
    · intro h; cases h
    · intro h
      have := (parseI16_iff [] v).2 h
      cases this
  · refine ⟨(parseI16 s).map some, by simp [fieldI16, hs], ?_, ?_⟩
    · simp only [hs, iff_false]
      cases parseI16 s <;> simp [Except.map]
    · intro v
      rw [← parseI16_iff]
      cases parseI16 s <;> simp [Except.map]

example : fieldI16 [] = .ok (.ok none) ∧ fieldI16 "-0".toList = .ok (.ok (some 0)) ∧ fieldI16 "-".toList = .ok (.error .invalidDigit) ∧
    fieldI16 "-32769".toList = .ok (.error .negOverflow) := by decide

private theorem writesNat_ne {s : List Char} {v : Nat} (h : WritesNat s v) : s ≠ [] := by
  obtain ⟨ds, h1 | h1, ⟨h2, _⟩, _⟩ := h
  · rw [h1]; exact h2
  · rw [h1]; simp

/-- The velocity field: never panics; a written number up to 255 gives that number
limited to 127; everything else is an error. -/
theorem C42_velocity (s : List Char) :
    ∃ r, fieldVelocity s = .ok r ∧
      (r = .ok none ↔ s = []) ∧
      ∀ v, r = .ok (some ⟨v⟩) ↔ ∃ u, WritesNat s u ∧ u ≤ 255 ∧ v = min u 127 := by
  by_cases hs : s = []
  · subst hs
    refine ⟨.ok none, rfl, by simp, ?_⟩
    intro v
    constructor
    · intro h; cases h
    · rintro ⟨u, h, _⟩
      exact absurd rfl (writesNat_ne h)
  · refine ⟨(parseUnsigned 255 s).map (fun u => some (Velocity.new u)), by simp [fieldVelocity, hs], ?_, ?_⟩
    · simp only [hs, iff_false]
      cases parseUnsigned 255 s <;> simp [Except.map]
    · intro v
      constructor
      · intro h
        cases hp : parseUnsigned 255 s with
        | error e => rw [hp] at h; cases h
        | ok u =>
          rw [hp] at h
          obtain ⟨h1, h2⟩ := (parseUnsigned_iff _ _ _).1 hp
          refine ⟨u, h1, h2, ?_⟩
          simp only [Except.map, Velocity.new, Except.ok.injEq, Option.some.injEq] at h
          have := congrArg Velocity.value h
          simp only at this
          split at this <;> simp only at this <;> omega
      · rintro ⟨u, h1, h2, rfl⟩
        rw [(parseUnsigned_iff _ _ _).2 ⟨h1, h2⟩]
        simp only [Except.map, Velocity.new]
        by_cases hu : 127 < u
        · have : min u 127 = 127 := by omega
          simp [hu, this]
        · have : min u 127 = u := by omega
          simp [hu, this]

example : fieldVelocity "+64".toList = .ok (.ok (some ⟨64⟩)) ∧ fieldVelocity "128".toList = .ok (.ok (some ⟨127⟩)) := by decide

/-- The numerator field: never panics; a value exactly when the text writes a
number in 1..99. -/
theorem C42_numerator (s : List Char) :
    ∃ r, fieldNumerator s = .ok r ∧
      (r = .ok none ↔ s = []) ∧
      ∀ v, r = .ok (some v) ↔ WritesNat s v ∧ 1 ≤ v ∧ v ≤ 99 := by
  by_cases hs : s = []
  · subst hs
    refine ⟨.ok none, rfl, by simp, ?_⟩
    intro v
    constructor
    · intro h; cases h
    · rintro ⟨h, _⟩
      exact absurd rfl (writesNat_ne h)
  · refine ⟨(Numerator.fromStr s).map some, by simp [fieldNumerator, hs], ?_, ?_⟩
    · simp only [hs, iff_false]
      cases Numerator.fromStr s <;> simp [Except.map]
    · intro v
      simp only [Numerator.fromStr]
      constructor
      · intro h
        cases hp : parseUnsigned 255 s with
        | error e => rw [hp] at h; cases h
        | ok u =>
          rw [hp] at h
          obtain ⟨h1, h2⟩ := (parseUnsigned_iff _ _ _).1 hp
          simp only [Numerator.fromValue] at h
          split at h
          · cases h
          · simp only [Except.map, Except.ok.injEq, Option.some.injEq] at h
            subst h
            exact ⟨h1, by omega, by omega⟩
      · rintro ⟨h1, h2, h3⟩
        rw [(parseUnsigned_iff 255 s v).2 ⟨h1, by omega⟩]
        simp only [Numerator.fromValue]
        rw [if_neg (by omega)]
        rfl

example : fieldNumerator "099".toList = .ok (.ok (some 99)) ∧ fieldNumerator "0".toList = .ok (.error (.invalidValue 0)) := by decide

/-- The tuplet denominator field: never panics; a value exactly when the text
writes a number in 2..255. -/
theorem C42_denominator (s : List Char) :
    ∃ r, fieldDenominator s = .ok r ∧
      (r = .ok none ↔ s = []) ∧
      ∀ v, r = .ok (some v) ↔ WritesNat s v ∧ 2 ≤ v ∧ v ≤ 255 := by
  by_cases hs : s = []
  · subst hs
    refine ⟨.ok none, rfl, by simp, ?_⟩
    intro v
    constructor
    · intro h; cases h
    · rintro ⟨h, _⟩
      exact absurd rfl (writesNat_ne h)
  · simp only [fieldDenominator, if_neg hs]
    cases hp : parseUnsigned 255 s with
    | error e =>
      refine ⟨_, rfl, by simp [hs], ?_⟩
      intro v
      constructor
      · intro h; cases h
      · rintro ⟨h1, h2, h3⟩
        rw [(parseUnsigned_iff 255 s v).2 ⟨h1, by omega⟩] at hp
        cases hp
    | ok u =>
      obtain ⟨h1, h2⟩ := (parseUnsigned_iff _ _ _).1 hp
      simp only [Denominator.fromValue]
      by_cases hu : u < 2
      · simp only [hu, if_true]
        refine ⟨_, rfl, by simp [hs], ?_⟩
        intro v
        constructor
        · intro h; cases h
        · rintro ⟨h3, h4, _⟩
          have := writesNat_unique h1 h3
          omega
      · simp only [hu, if_false]
        refine ⟨_, rfl, by simp [hs], ?_⟩
        intro v
        constructor
        · intro h
          cases h
          exact ⟨h1, by omega, h2⟩
        · rintro ⟨h3, _⟩
          rw [writesNat_unique h1 h3]

example : fieldDenominator "2".toList = .ok (.ok (some 2)) ∧ fieldDenominator [] = .ok (.ok none) := by decide

/-- The percent field: whatever number the library reads, including infinities and
NaN, the field never panics and holds 0..2000 thousandths. -/
theorem C42_percent {ε : Type} (parse : List Char → Except ε F32) (s : List Char) :
    ∃ r, fieldPercent parse s = .ok r ∧
      (r = .ok none ↔ s = []) ∧
      (∀ e, r = .error e ↔ s ≠ [] ∧ parse s = .error e) ∧
      ∀ p, r = .ok (some p) → p.value ≤ 2000 := by
  by_cases hs : s = []
  · subst hs
    exact ⟨.ok none, rfl, by simp, by simp, by simp⟩
  · simp only [fieldPercent, if_neg hs]
    cases parse s with
    | error e => exact ⟨_, rfl, by simp [hs], by simp [hs], by simp⟩
    | ok x =>
      refine ⟨_, rfl, by simp [hs], by simp, ?_⟩
      intro p h
      cases h
      exact ofF32_le x

example : fieldPercent (fun s => if s = ['x'] then .ok (.inf false) else .error ()) ['x'] = .ok (.ok (some ⟨2000⟩)) ∧
    fieldPercent (fun s => if s = ['x'] then .ok (.inf false) else .error ()) ['y'] = .ok (.error ()) := by decide

/-- False as stated: typing 1000 in the tempo field panics, and 0 is accepted
although the smallest tempo is 1. -/
theorem C42_tempo_false :
    fieldTempo "1000".toList = .error .explicit ∧ fieldTempo "0".toList = .ok (.ok (some ⟨0⟩)) := by decide

/-- The tempo field: panics exactly when the text writes a number in 1000..65535;
otherwise a value exactly when it writes a number in 0..999. -/
theorem C42_tempo_partial (s : List Char) :
    ((∃ e, fieldTempo s = .error e) ↔ ∃ u, WritesNat s u ∧ 1000 ≤ u ∧ u ≤ 65535) ∧
    (fieldTempo s = .ok (.ok none) ↔ s = []) ∧
    ∀ v, fieldTempo s = .ok (.ok (some ⟨v⟩)) ↔ WritesNat s v ∧ v ≤ 999 := by
  by_cases hs : s = []
  · subst hs
    refine ⟨?_, by simp [fieldTempo], ?_⟩
    · constructor
      · rintro ⟨e, h⟩; cases h
      · rintro ⟨u, h, _⟩; exact absurd rfl (writesNat_ne h)
    · intro v
      constructor
      · intro h; cases h
      · rintro ⟨h, _⟩; exact absurd rfl (writesNat_ne h)
  · simp only [fieldTempo, if_neg hs]
    cases hp : parseUnsigned 65535 s with
    | error e =>
      refine ⟨?_, by simp [hs], ?_⟩
      · constructor
        · rintro ⟨e, h⟩; cases h
        · rintro ⟨u, h1, _, h2⟩
          rw [(parseUnsigned_iff 65535 s u).2 ⟨h1, h2⟩] at hp
          cases hp
      · intro v
        constructor
        · intro h; cases h
        · rintro ⟨h1, h2⟩
          rw [(parseUnsigned_iff 65535 s v).2 ⟨h1, by omega⟩] at hp
          cases hp
    | ok u =>
      obtain ⟨h1, h2⟩ := (parseUnsigned_iff _ _ _).1 hp
      by_cases hu : 999 < u
      · simp only [TempoValue.new, if_pos hu, R_bind_error]
        refine ⟨?_, by simp [hs], ?_⟩
        · exact ⟨fun _ => ⟨u, h1, by omega, h2⟩, fun _ => ⟨_, rfl⟩⟩
        · intro v
          constructor
          · intro h; cases h
          · rintro ⟨h3, h4⟩
            have := writesNat_unique h1 h3
            omega
      · simp only [TempoValue.new, if_neg hu, R_bind_ok, R_pure]
        refine ⟨?_, by simp [hs], ?_⟩
        · constructor
          · rintro ⟨e, h⟩; cases h
          · rintro ⟨w, h3, h4, _⟩
            have := writesNat_unique h1 h3
            omega
        · intro v
          constructor
          · intro h
            cases h
            exact ⟨h1, by omega⟩
          · rintro ⟨h3, _⟩
            rw [writesNat_unique h1 h3]

example : fieldTempo "999".toList = .ok (.ok (some ⟨999⟩)) ∧ (∃ e, fieldTempo "65535".toList = .error e) ∧
    ∃ e, fieldTempo "65536".toList = .ok (.error e) := ⟨by decide, ⟨_, rfl⟩, ⟨_, rfl⟩⟩

/-- The location field panics on a bar number of twenty digits. -/
theorem C42_location_false :
    fieldLocation (fun c => (toDigit c).isSome) "18446744073709551616:0".toList = .error .unwrap := by decide

example : WritesNat "+007".toList 7 :=
  ⟨"007".toList, .inr (by decide), ⟨by decide, by unfold IsDigit; decide⟩, by decide⟩
example : fieldI16 "-32768".toList = .ok (.ok (some (-32768))) ∧
    fieldI16 "32768".toList = .ok (.error .posOverflow) ∧
    fieldNumerator "100".toList = .ok (.error (.invalidValue 100)) ∧
    fieldDenominator "1".toList = .ok (.error .invalidValue) ∧
    fieldVelocity "200".toList = .ok (.ok (some ⟨127⟩)) ∧
    fieldVelocity "256".toList = .ok (.error .posOverflow) := by decide

/-! ## C43 -/

private theorem writesNat_of_numeral {a : List Char} (h : IsNumeral a) : WritesNat a (numeralValue a) :=
  ⟨a, .inl rfl, h, rfl⟩

/-- The displayed form of every location is read back as that location, for every
digit class. -/
theorem C43_roundtrip (nd : Char → Bool) (hn : DigitClass nd) (l : Location)
    (h1 : l.barNo ≤ USIZE_MAX) (h2 : l.offset ≤ USIZE_MAX) :
    parseLocation nd l.toText = .ok (some l) ∧ fieldLocation nd l.toText = .ok (.ok (some l)) := by
  obtain ⟨a1, a2⟩ := decimal_spec l.barNo
  obtain ⟨b1, b2⟩ := decimal_spec l.offset
  have hsh : LocationShape nd l.toText (decimal l.barNo) (decimal l.offset) :=
    ⟨rfl, a1.1, b1.1, fun c hc => hn.ascii c (a1.2 c hc), fun c hc => hn.ascii c (b1.2 c hc)⟩
  have e1 : parseUnsigned USIZE_MAX (decimal l.barNo) = .ok l.barNo :=
    (parseUnsigned_iff _ _ _).2 ⟨by have := writesNat_of_numeral a1; rwa [a2] at this, h1⟩
  have e2 : parseUnsigned USIZE_MAX (decimal l.offset) = .ok l.offset :=
    (parseUnsigned_iff _ _ _).2 ⟨by have := writesNat_of_numeral b1; rwa [b2] at this, h2⟩
  have e3 : parseLocation nd l.toText = .ok (some l) := by
    rw [parseLocation_shape hn hsh, e1, e2]
    rfl
  refine ⟨e3, ?_⟩
  have hne : l.toText ≠ [] := by simp [Location.toText]
  rw [fieldLocation, if_neg hne, e3]
  rfl

example : (Location.mk 12 240).toText = "12:240".toList := by decide +kernel

/-- The exact reading of every text: `a:b` of two numerals that fit is that
location; `a:b` of characters of the digit class that is not (a number too large,
or a digit of another script) panics; every other text is refused. -/
theorem C43_parse (nd : Char → Bool) (hn : DigitClass nd) (s : List Char) :
    (∀ a b, LocationShape nd s a b →
      (IsNumeral a ∧ IsNumeral b ∧ numeralValue a ≤ USIZE_MAX ∧ numeralValue b ≤ USIZE_MAX →
        parseLocation nd s = .ok (some ⟨numeralValue a, numeralValue b⟩)) ∧
      (¬ (IsNumeral a ∧ IsNumeral b ∧ numeralValue a ≤ USIZE_MAX ∧ numeralValue b ≤ USIZE_MAX) →
        parseLocation nd s = .error .unwrap)) ∧
    ((∀ a b, ¬ LocationShape nd s a b) → parseLocation nd s = .ok none) := by
  refine ⟨?_, parseLocation_other⟩
  intro a b hsh
  rw [parseLocation_shape hn hsh]
  constructor
  · rintro ⟨h1, h2, h3, h4⟩
    rw [(parseUnsigned_iff _ _ _).2 ⟨writesNat_of_numeral h1, h3⟩,
      (parseUnsigned_iff _ _ _).2 ⟨writesNat_of_numeral h2, h4⟩]
    rfl
  · intro hnot
    have bad : ∀ x : List Char, (∀ c ∈ x, nd c = true) →
        (∃ v, parseUnsigned USIZE_MAX x = .ok v) → IsNumeral x ∧ numeralValue x ≤ USIZE_MAX := by
      rintro x hx ⟨v, hp⟩
      obtain ⟨⟨ds, h1 | h1, h2, rfl⟩, h3⟩ := (parseUnsigned_iff _ _ _).1 hp
      · exact ⟨h1 ▸ h2, h1 ▸ h3⟩
      · have := hx '+' (by rw [h1]; simp)
        rw [hn.plus] at this
        cases this
    obtain ⟨_, _, _, h3, h4⟩ := hsh
    cases ha : parseUnsigned USIZE_MAX a with
    | error e => rfl
    | ok v =>
      cases hb : parseUnsigned USIZE_MAX b with
      | error e => rfl
      | ok w =>
        obtain ⟨a1, a2⟩ := bad a h3 ⟨v, ha⟩
        obtain ⟨b1, b2⟩ := bad b h4 ⟨w, hb⟩
        exact absurd ⟨a1, b1, a2, b2⟩ hnot

example : parseLocation (fun c => (toDigit c).isSome) "3:18446744073709551616".toList = .error .unwrap ∧
    parseLocation (fun c => (toDigit c).isSome) "3:18446744073709551615".toList = .ok (some ⟨3, 18446744073709551615⟩) := by decide +kernel

/-- The field refuses, without panic, exactly the non-empty texts that are not
`a:b` in digits; so what the tests use (ASCII digits, small numbers) is accepted
with the value written and anything without a colon is refused. -/
theorem C43_refused (nd : Char → Bool) (hn : DigitClass nd) (s : List Char) :
    fieldLocation nd s = .ok (.error ()) ↔ s ≠ [] ∧ ∀ a b, ¬ LocationShape nd s a b := by
  by_cases hs : s = []
  · subst hs
    simp [fieldLocation]
  · simp only [fieldLocation, if_neg hs]
    constructor
    · intro h
      refine ⟨hs, ?_⟩
      intro a b hsh
      obtain ⟨h1, h2⟩ := (C43_parse nd hn s).1 a b hsh
      by_cases hq : IsNumeral a ∧ IsNumeral b ∧ numeralValue a ≤ USIZE_MAX ∧ numeralValue b ≤ USIZE_MAX
      · rw [h1 hq] at h; cases h
      · rw [h2 hq] at h; cases h
    · rintro ⟨_, h⟩
      rw [(C43_parse nd hn s).2 h]
      rfl

/-- C42: the location field panics exactly on `a:b` in characters of the digit class of which one
is not a numeral of 64 bits; every other text yields a location, the empty value, or an error. -/
theorem C42_location_partial (nd : Char → Bool) (hn : DigitClass nd) (s : List Char) :
    ((∃ e, fieldLocation nd s = .error e) ↔ ∃ a b, LocationShape nd s a b ∧
      ¬ (IsNumeral a ∧ IsNumeral b ∧ numeralValue a ≤ USIZE_MAX ∧ numeralValue b ≤ USIZE_MAX)) ∧
    (fieldLocation nd s = .ok (.ok none) ↔ s = []) ∧
    ∀ l, fieldLocation nd s = .ok (.ok (some l)) ↔ ∃ a b, LocationShape nd s a b ∧
      IsNumeral a ∧ IsNumeral b ∧ numeralValue a ≤ USIZE_MAX ∧ numeralValue b ≤ USIZE_MAX ∧
      l = ⟨numeralValue a, numeralValue b⟩ := by
  have parsed := C43_parse nd hn s
  by_cases hs : s = []
  · subst hs
    have no : ∀ a b, ¬ LocationShape nd [] a b := fun a b h => by simp [LocationShape] at h
    refine ⟨⟨fun ⟨e, h⟩ => (by cases h), fun ⟨a, b, h, _⟩ => absurd h (no a b)⟩, by simp [fieldLocation], fun l =>
      ⟨fun h => (by cases h), fun ⟨a, b, h, _⟩ => absurd h (no a b)⟩⟩
  · have field : fieldLocation nd s = (parseLocation nd s >>= fun o => match o with
        | some l => pure (.ok (some l))
        | none => pure (.error ())) := by
      rw [fieldLocation, if_neg hs]
      rfl
    rw [field]
    refine ⟨⟨fun ⟨e, h⟩ => ?_, fun ⟨a, b, h1, h2⟩ => ?_⟩, ⟨fun h => ?_, fun h => absurd h hs⟩, fun l => ⟨fun h => ?_, fun ⟨a, b, h1, h2⟩ => ?_⟩⟩
    · refine Classical.byContradiction fun k => ?_
      by_cases hsh : ∃ a b, LocationShape nd s a b
      · obtain ⟨a, b, hsh⟩ := hsh
        have := (parsed.1 a b hsh).1 (Classical.byContradiction fun hq => k ⟨a, b, hsh, hq⟩)
        rw [this] at h
        cases h
      · rw [parsed.2 fun a b hh => hsh ⟨a, b, hh⟩] at h
        cases h
    · exact ⟨_, by rw [(parsed.1 a b h1).2 h2]; rfl⟩
    · cases hp : parseLocation nd s with
      | error e => rw [hp] at h; cases h
      | ok o => cases o <;> rw [hp] at h <;> cases h
    · by_cases hsh : ∃ a b, LocationShape nd s a b
      · obtain ⟨a, b, hsh⟩ := hsh
        by_cases hq : IsNumeral a ∧ IsNumeral b ∧ numeralValue a ≤ USIZE_MAX ∧ numeralValue b ≤ USIZE_MAX
        · rw [(parsed.1 a b hsh).1 hq] at h
          cases h
          exact ⟨a, b, hsh, hq.1, hq.2.1, hq.2.2.1, hq.2.2.2, rfl⟩
        · rw [(parsed.1 a b hsh).2 hq] at h
          cases h
      · rw [parsed.2 fun a b hh => hsh ⟨a, b, hh⟩] at h
        cases h
    · obtain ⟨q1, q2, q3, q4, rfl⟩ := h2
      rw [(parsed.1 a b h1).1 ⟨q1, q2, q3, q4⟩]
      rfl

private theorem asciiClass : DigitClass (fun c => (toDigit c).isSome) :=
  ⟨fun c h => by simp [toDigit_digit h], by decide, by decide⟩

/-- Among ASCII digits the location 12:240. -/
example : fieldLocation (fun c => (toDigit c).isSome) "12:240".toList = .ok (.ok (some ⟨12, 240⟩)) ∧
    fieldLocation (fun c => (toDigit c).isSome) ":5".toList = .ok (.error ()) ∧
    ∃ a b, LocationShape (fun c => (toDigit c).isSome) "12:240".toList a b ∧ IsNumeral a ∧ IsNumeral b ∧
      numeralValue a ≤ USIZE_MAX ∧ numeralValue b ≤ USIZE_MAX ∧ Location.mk 12 240 = ⟨numeralValue a, numeralValue b⟩ := by
  refine ⟨by decide +kernel, by decide +kernel, ((C42_location_partial _ asciiClass _).2.2 _).1 (by decide +kernel)⟩

example : parseLocation (fun c => (toDigit c).isSome) (Location.mk 12 240).toText = .ok (some ⟨12, 240⟩) :=
  (C43_roundtrip _ asciiClass ⟨12, 240⟩ (by decide) (by decide)).1
example : LocationShape (fun c => (toDigit c).isSome) "3:040".toList "3".toList "040".toList := by
  refine ⟨by decide, by decide, by decide, by decide, by decide⟩
example : parseLocation (fun c => (toDigit c).isSome) "3:4:5".toList = .ok none ∧
    parseLocation (fun c => (toDigit c).isSome) "-3:4".toList = .ok none := by decide

/-! ## C44 -/

namespace FlyWeight
variable {T : Type} [DecidableEq T]

/-- The first instance with a given value in a sequence of arguments. -/
def firstOf (xs : List (Ref T)) (v : T) : Option (Ref T) := xs.find? (fun r => decide (r.val = v))

/-- The pool knows exactly the first instance of every value interned so far. -/
private def Knows (f : FlyWeight T) (seen : List (Ref T)) : Prop :=
  ∀ k : Ref T, FlyWeight.lookup f.pool k = firstOf seen k.val

private theorem knows_intern {f : FlyWeight T} {seen : List (Ref T)} (h : Knows f seen) (x : Ref T) :
    Knows (f.intern x).1 (seen ++ [x]) ∧ firstOf (seen ++ [x]) x.val = some (f.intern x).2 := by
  have hx := h x
  simp only [intern]
  simp only [Knows, firstOf, List.find?_append] at h hx ⊢
  cases hl : lookup f.pool x with
  | some v =>
    rw [hl] at hx
    simp only [← hx, Option.some_or, and_true]
    intro k
    rw [h k]
    by_cases hk : x.val = k.val
    · rw [← hk, ← hx]; rfl
    · have : List.find? (fun r : Ref T => decide (r.val = k.val)) [x] = none := by simp [hk]
      rw [this, Option.or_none]
  | none =>
    rw [hl] at hx
    simp only [← hx, Option.none_or]
    refine ⟨?_, by simp⟩
    intro k
    simp only [lookup]
    by_cases hk : x.val = k.val
    · rw [if_pos hk, ← hk, ← hx]; simp
    · rw [if_neg hk, h k]
      have : List.find? (fun r : Ref T => decide (r.val = k.val)) [x] = none := by simp [hk]
      rw [this, Option.or_none]

end FlyWeight
open FlyWeight

/-- Any sequence of calls: every call returns the first argument of the sequence
(up to and including its own) that has the same value. -/
theorem C44_first {T : Type} [DecidableEq T] (xs : List (Ref T)) :
    ((FlyWeight.new : FlyWeight T).internAll xs).2.length = xs.length ∧
    ∀ (i : Nat) (x : Ref T), xs[i]? = some x →
      ∃ r : Ref T, ((FlyWeight.new : FlyWeight T).internAll xs).2[i]? = some r ∧
        (xs.find? (fun y => decide (y.val = x.val))) = some r := by
  have gen : ∀ (xs seen : List (Ref T)) (f : FlyWeight T), Knows f seen →
      (f.internAll xs).2.length = xs.length ∧
      ∀ (i : Nat) (x : Ref T), xs[i]? = some x → ∃ r : Ref T, (f.internAll xs).2[i]? = some r ∧
        firstOf (seen ++ xs) x.val = some r := by
    intro xs
    induction xs with
    | nil => intro seen f _; exact ⟨rfl, by simp⟩
    | cons y ys ih =>
      intro seen f hf
      obtain ⟨h1, h2⟩ := knows_intern hf y
      obtain ⟨i1, i2⟩ := ih (seen ++ [y]) (f.intern y).1 h1
      refine ⟨by simp [internAll, i1], ?_⟩
      intro i x hx
      cases i with
      | zero =>
        simp only [List.getElem?_cons_zero, Option.some.injEq] at hx
        subst hx
        refine ⟨(f.intern y).2, by simp [internAll], ?_⟩
        have : seen ++ y :: ys = (seen ++ [y]) ++ ys := by simp
        simp only [firstOf] at h2 ⊢
        rw [this, List.find?_append, h2]
        rfl
      | succ i =>
        simp only [List.getElem?_cons_succ] at hx
        obtain ⟨r, r1, r2⟩ := i2 i x hx
        refine ⟨r, by simpa [internAll] using r1, ?_⟩
        rw [← r2]
        simp
  obtain ⟨g1, g2⟩ := gen xs [] FlyWeight.new (by intro k; rfl)
  exact ⟨g1, by simpa [firstOf] using g2⟩

example : ((FlyWeight.new : FlyWeight Nat).internAll [⟨100, 7⟩, ⟨101, 8⟩, ⟨102, 7⟩]).2[2]? = some ⟨100, 7⟩ ∧
    [(⟨100, 7⟩ : Ref Nat), ⟨101, 8⟩, ⟨102, 7⟩].find? (fun y => decide (y.val = 7)) = some ⟨100, 7⟩ := by decide

/-- Equal values get one shared instance, different values different ones, and the
instance has the value of the argument. -/
theorem C44_shared {T : Type} [DecidableEq T] (xs : List (Ref T)) (i j : Nat) (x y r s : Ref T)
    (hi : xs[i]? = some x) (hj : xs[j]? = some y)
    (hr : ((FlyWeight.new : FlyWeight T).internAll xs).2[i]? = some r)
    (hs : ((FlyWeight.new : FlyWeight T).internAll xs).2[j]? = some s) :
    r.val = x.val ∧ (x.val = y.val ↔ r = s) ∧ r ∈ xs := by
  obtain ⟨_, h⟩ := C44_first xs
  obtain ⟨r', a1, a2⟩ := h i x hi
  obtain ⟨s', b1, b2⟩ := h j y hj
  rw [hr] at a1
  rw [hs] at b1
  cases a1
  cases b1
  have vr : r.val = x.val := by simpa using List.find?_some a2
  have vs : s.val = y.val := by simpa using List.find?_some b2
  refine ⟨vr, ?_, List.mem_of_find?_eq_some a2⟩
  constructor
  · intro e
    rw [e, b2] at a2
    exact (Option.some.inj a2).symm
  · intro e
    rw [← vr, ← vs, e]

example : let xs : List (Ref Nat) := [⟨100, 7⟩, ⟨101, 8⟩, ⟨102, 7⟩]
    xs[0]? = some ⟨100, 7⟩ ∧ xs[2]? = some ⟨102, 7⟩ ∧ (FlyWeight.new.internAll xs).2[0]? = some ⟨100, 7⟩ ∧
      (FlyWeight.new.internAll xs).2[2]? = some ⟨100, 7⟩ := by decide

/-- Later calls never change what an earlier value is mapped to: the results of a
prefix of the calls are a prefix of the results. -/
theorem C44_stable {T : Type} [DecidableEq T] (f : FlyWeight T) (xs ys : List (Ref T)) :
    (f.internAll (xs ++ ys)).2 = (f.internAll xs).2 ++ ((f.internAll xs).1.internAll ys).2 := by
  induction xs generalizing f with
  | nil => rfl
  | cons x xs ih => simp [internAll, ih]

example : ((FlyWeight.new : FlyWeight Nat).internAll [⟨100, 7⟩, ⟨101, 8⟩, ⟨102, 7⟩]).2 =
    [⟨100, 7⟩, ⟨101, 8⟩, ⟨100, 7⟩] := by decide

end Klavier
