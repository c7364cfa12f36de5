import Verif.Lemmas.Text

/-! # Helper lemmas about refused numbers -/
set_option autoImplicit false
namespace Klavier
open Spec

theorem parseDigits_over {max : Nat} {over : ParseIntError} (ho : over ≠ .invalidDigit) (s : List Char) (acc : Nat)
    (h : acc ≤ max) :
    parseDigits max over s acc = .error over ↔
      ∃ a r, s = a ++ r ∧ (∀ c ∈ a, IsDigit c) ∧ max < acc * 10 ^ a.length + numeralValue a := by
  induction s generalizing acc with
  | nil =>
    constructor
    · intro e; cases e
    · rintro ⟨a, r, hs, _, hv⟩
      have ha : a = [] := (List.append_eq_nil_iff.1 hs.symm).1
      subst ha
      simp only [List.length_nil, Nat.pow_zero, Nat.mul_one, numeralValue] at hv
      omega
  | cons c cs ih =>
    have hval : ∀ a : List Char, acc * 10 ^ (a.length + 1) + numeralValue (c :: a) =
        (acc * 10 + (c.toNat - '0'.toNat)) * 10 ^ a.length + numeralValue a := by
      intro a
      rw [numeralValue, Nat.pow_succ, Nat.add_mul, Nat.mul_assoc, Nat.mul_comm 10]
      omega
    by_cases hc : IsDigit c
    · simp only [parseDigits, toDigit_digit hc]
      by_cases h1 : acc * 10 + (c.toNat - '0'.toNat) ≤ max
      · rw [if_pos h1, ih _ h1]
        constructor
        · rintro ⟨a, r, rfl, hd, hv⟩
          refine ⟨c :: a, r, rfl, ?_, ?_⟩
          · intro x hx
            rcases List.mem_cons.1 hx with rfl | hx
            · exact hc
            · exact hd x hx
          · rw [List.length_cons, hval]
            exact hv
        · rintro ⟨a, r, hs, hd, hv⟩
          cases a with
          | nil =>
            simp only [List.length_nil, Nat.pow_zero, Nat.mul_one, numeralValue] at hv
            omega
          | cons x a =>
            obtain ⟨rfl, hs'⟩ := List.cons.inj hs
            refine ⟨a, r, hs', fun y hy => hd y (List.mem_cons_of_mem _ hy), ?_⟩
            rw [List.length_cons, hval] at hv
            exact hv
      · rw [if_neg h1]
        refine ⟨fun _ => ⟨[c], cs, rfl, ?_, ?_⟩, fun _ => rfl⟩
        · intro x hx
          rw [List.mem_singleton.1 hx]
          exact hc
        · have := hval []
          simp only [List.length_nil, Nat.pow_zero, Nat.mul_one, numeralValue] at this
          show max < acc * 10 ^ (0 + 1) + numeralValue [c]
          simp only [numeralValue, List.length_nil, Nat.pow_zero]
          omega
    · rw [parseDigits_sign _ _ _ _ _ hc]
      constructor
      · intro e
        cases e
        exact absurd rfl ho
      · rintro ⟨a, r, hs, hd, hv⟩
        cases a with
        | nil =>
          simp only [List.length_nil, Nat.pow_zero, Nat.mul_one, numeralValue] at hv
          omega
        | cons x a =>
          obtain ⟨rfl, _⟩ := List.cons.inj hs
          exact absurd (hd c (by simp)) hc

theorem parseDigits_error {max : Nat} {over e : ParseIntError} (s : List Char) (acc : Nat)
    (h : parseDigits max over s acc = .error e) : e = over ∨ e = .invalidDigit := by
  induction s generalizing acc with
  | nil => cases h
  | cons c cs ih =>
    simp only [parseDigits] at h
    split at h
    · cases h; exact .inr rfl
    · split at h
      · exact ih _ h
      · cases h; exact .inl rfl

theorem parseDigits_above {max : Nat} {over : ParseIntError} (ho : over ≠ .invalidDigit) (s : List Char) :
    parseDigits max over s 0 = .error over ↔ BeginsAbove max s := by
  rw [parseDigits_over ho s 0 (Nat.zero_le _)]
  simp only [Nat.zero_mul, Nat.zero_add, BeginsAbove]

theorem Spec.BeginsAbove.digit {max : Nat} {c : Char} {s : List Char} (h : BeginsAbove max (c :: s)) : IsDigit c := by
  obtain ⟨a, r, hs, hd, hv⟩ := h
  cases a with
  | nil => simp [numeralValue] at hv
  | cons x a =>
    obtain ⟨rfl, _⟩ := List.cons.inj hs
    exact hd _ (by simp)

theorem not_above_nil {max : Nat} : ¬ BeginsAbove max [] := by
  rintro ⟨a, r, hs, _, hv⟩
  rw [(List.append_eq_nil_iff.1 hs.symm).1] at hv
  simp [numeralValue] at hv

theorem map_error {α β ε : Type} {f : α → β} {x : Except ε α} {e : ε} : x.map f = .error e ↔ x = .error e := by
  cases x <;> simp [Except.map]

theorem parseUnsigned_plain {max : Nat} {c : Char} {cs : List Char} (h : c ≠ '+') :
    parseUnsigned max (c :: cs) = parseDigits max .posOverflow (c :: cs) 0 := by
  unfold parseUnsigned
  split
  · next e => cases e
  · next e => cases e; exact absurd rfl h
  · next e => cases e; exact (parseDigits_sign _ _ _ _ _ not_digit_minus).symm
  · next e => cases e; exact absurd rfl h
  · rfl

theorem parseI16_plain {c : Char} {cs : List Char} (h : c ≠ '-') (e : ParseIntError) :
    parseI16 (c :: cs) = .error e ↔ parseUnsigned 32767 (c :: cs) = .error e := by
  by_cases hp : c = '+'
  · subst hp
    cases cs with
    | nil =>
      show (Except.error ParseIntError.invalidDigit : Except _ Int) = _ ↔ (Except.error ParseIntError.invalidDigit : Except _ Nat) = _
      simp
    | cons x xs =>
      show ((parseDigits 32767 .posOverflow (x :: xs) 0).map _) = _ ↔ parseDigits 32767 .posOverflow (x :: xs) 0 = _
      rw [map_error]
  · rw [parseUnsigned_plain hp]
    unfold parseI16
    split
    · next k => cases k
    · next k => cases k; exact absurd rfl hp
    · next k => cases k; exact absurd rfl h
    · next k => cases k; exact absurd rfl hp
    · next k => cases k; exact absurd rfl h
    · rw [map_error]

theorem parseUnsigned_over (max : Nat) (s : List Char) :
    parseUnsigned max s = .error .posOverflow ↔ ∃ b, (s = b ∨ s = '+' :: b) ∧ BeginsAbove max b := by
  have ho : ParseIntError.posOverflow ≠ .invalidDigit := by decide
  cases s with
  | nil =>
    refine ⟨fun h => (by cases h), ?_⟩
    rintro ⟨b, rfl | h, hb⟩
    · exact absurd hb not_above_nil
    · cases h
  | cons c cs =>
    by_cases hp : c = '+'
    · subst hp
      cases cs with
      | nil =>
        refine ⟨fun h => (by cases h), ?_⟩
        rintro ⟨b, h | h, hb⟩
        · rw [← h] at hb
          exact absurd hb.digit not_digit_plus
        · cases h; exact absurd hb not_above_nil
      | cons x xs =>
        show parseDigits max .posOverflow (x :: xs) 0 = _ ↔ _
        rw [parseDigits_above ho]
        constructor
        · intro h; exact ⟨_, .inr rfl, h⟩
        · rintro ⟨b, h | h, hb⟩
          · rw [← h] at hb
            exact absurd hb.digit not_digit_plus
          · cases h; exact hb
    · rw [parseUnsigned_plain hp, parseDigits_above ho]
      constructor
      · intro h; exact ⟨_, .inl rfl, h⟩
      · rintro ⟨b, h | h, hb⟩
        · rw [h]; exact hb
        · cases h; exact absurd rfl hp

theorem parseUnsigned_error {max : Nat} {s : List Char} {e : ParseIntError} (h : parseUnsigned max s = .error e) :
    (e = .empty ∧ s = []) ∨ e = .invalidDigit ∨ e = .posOverflow := by
  unfold parseUnsigned at h
  split at h
  · cases h; exact .inl ⟨rfl, rfl⟩
  · cases h; exact .inr (.inl rfl)
  · cases h; exact .inr (.inl rfl)
  · exact .inr (parseDigits_error _ _ h).symm
  · exact .inr (parseDigits_error _ _ h).symm

theorem parseI16_neg (b : List Char) : parseI16 ('-' :: b) = .error .negOverflow ↔ BeginsAbove 32768 b := by
  cases b with
  | nil => exact ⟨fun h => (by cases h), fun h => absurd h not_above_nil⟩
  | cons c cs =>
    show ((parseDigits 32768 .negOverflow (c :: cs) 0).map _) = _ ↔ _
    rw [map_error, parseDigits_above (by decide)]

theorem parseI16_error {s : List Char} {e : ParseIntError} (h : parseI16 s = .error e) :
    (e = .empty ∧ s = []) ∨ e = .invalidDigit ∨ e = .posOverflow ∨ (e = .negOverflow ∧ ∃ b, s = '-' :: b) := by
  unfold parseI16 at h
  split at h
  · cases h; exact .inl ⟨rfl, rfl⟩
  · cases h; exact .inr (.inl rfl)
  · cases h; exact .inr (.inl rfl)
  · rw [map_error] at h
    rcases parseDigits_error _ _ h with rfl | rfl
    · exact .inr (.inr (.inl rfl))
    · exact .inr (.inl rfl)
  · rw [map_error] at h
    rcases parseDigits_error _ _ h with rfl | rfl
    · exact .inr (.inr (.inr ⟨rfl, _, rfl⟩))
    · exact .inr (.inl rfl)
  · rw [map_error] at h
    rcases parseDigits_error _ _ h with rfl | rfl
    · exact .inr (.inr (.inl rfl))
    · exact .inr (.inl rfl)

end Klavier
