import Verif.Spec.Text
import Verif.Lemmas.Basic

/-! # Helper lemmas about written numbers -/
set_option autoImplicit false
namespace Klavier
open Spec

theorem toDigit_some {c : Char} {d : Nat} (h : toDigit c = some d) : IsDigit c ∧ d = c.toNat - '0'.toNat ∧ d ≤ 9 := by
  simp only [toDigit] at h
  split at h
  · next hc =>
    cases h
    refine ⟨hc, rfl, ?_⟩
    omega
  · cases h

theorem toDigit_digit {c : Char} (h : IsDigit c) : toDigit c = some (c.toNat - '0'.toNat) := by
  have h' : 48 ≤ c.toNat ∧ c.toNat ≤ 57 := h
  simp only [toDigit, if_pos h']
  rfl

theorem toDigit_none {c : Char} (h : ¬ IsDigit c) : toDigit c = none := by
  have h' : ¬ (48 ≤ c.toNat ∧ c.toNat ≤ 57) := h
  simp only [toDigit, if_neg h']

theorem parseDigits_ok {max : Nat} {over : ParseIntError} {s : List Char} {acc v : Nat}
    (h : parseDigits max over s acc = .ok v) (hacc : acc ≤ max) :
    (∀ c ∈ s, IsDigit c) ∧ v = acc * 10 ^ s.length + numeralValue s ∧ v ≤ max := by
  induction s generalizing acc with
  | nil =>
    simp only [parseDigits, Except.ok.injEq] at h
    simp [numeralValue, h] at *
    omega
  | cons c cs ih =>
    simp only [parseDigits] at h
    split at h
    · cases h
    · next d hd =>
      obtain ⟨h1, h2, h3⟩ := toDigit_some hd
      split at h
      · next hle =>
        obtain ⟨e1, e2, e3⟩ := ih h hle
        refine ⟨?_, ?_, e3⟩
        · intro x hx
          rcases List.mem_cons.1 hx with rfl | hx
          · exact h1
          · exact e1 x hx
        · rw [e2, numeralValue, ← h2, List.length_cons, Nat.pow_succ, Nat.add_mul, Nat.mul_assoc, Nat.mul_comm 10]
          omega
      · cases h

theorem parseDigits_numeral (max : Nat) (over : ParseIntError) (s : List Char) (acc : Nat)
    (hs : ∀ c ∈ s, IsDigit c) :
    parseDigits max over s acc =
      if s = [] then .ok acc
      else if acc * 10 ^ s.length + numeralValue s ≤ max then .ok (acc * 10 ^ s.length + numeralValue s)
      else .error over := by
  induction s generalizing acc with
  | nil => rfl
  | cons c cs ih =>
    have hc := hs c (by simp)
    simp only [parseDigits, toDigit_digit hc, reduceCtorEq, if_false, List.length_cons]
    rw [ih _ (fun x hx => hs x (by simp [hx]))]
    have hval : acc * 10 ^ (cs.length + 1) + numeralValue (c :: cs) =
        (acc * 10 + (c.toNat - '0'.toNat)) * 10 ^ cs.length + numeralValue cs := by
      rw [numeralValue, Nat.pow_succ, Nat.add_mul, Nat.mul_assoc, Nat.mul_comm 10]
      omega
    rw [hval]
    generalize acc * 10 + (c.toNat - '0'.toNat) = a
    have hge : a ≤ a * 10 ^ cs.length + numeralValue cs :=
      Nat.le_trans (Nat.le_mul_of_pos_right _ (Nat.pow_pos (by omega))) (Nat.le_add_right _ _)
    by_cases h1 : a ≤ max
    · rw [if_pos h1]
      cases cs with
      | nil => simp [numeralValue, h1]
      | cons x xs => simp
    · rw [if_neg h1, if_neg (by omega)]

theorem not_digit_plus : ¬ IsDigit '+' := by unfold IsDigit; decide
theorem not_digit_minus : ¬ IsDigit '-' := by unfold IsDigit; decide

theorem parseDigits_sign (max : Nat) (over : ParseIntError) (c : Char) (s : List Char) (acc : Nat) (h : ¬ IsDigit c) :
    parseDigits max over (c :: s) acc = .error .invalidDigit := by
  simp only [parseDigits, toDigit_none h]

theorem parseUnsigned_iff (max : Nat) (s : List Char) (v : Nat) :
    parseUnsigned max s = .ok v ↔ WritesNat s v ∧ v ≤ max := by
  constructor
  · intro h
    simp only [parseUnsigned] at h
    split at h
    · cases h
    · cases h
    · cases h
    · next cs hne =>
      obtain ⟨h1, h2, h3⟩ := parseDigits_ok h (Nat.zero_le _)
      exact ⟨⟨_, .inr rfl, ⟨fun h => hne (by rw [h]), h1⟩, by rw [h2]; omega⟩, h3⟩
    · next hnil _ _ _ =>
      obtain ⟨h1, h2, h3⟩ := parseDigits_ok h (Nat.zero_le _)
      exact ⟨⟨_, .inl rfl, ⟨fun h => hnil h, h1⟩, by rw [h2]; omega⟩, h3⟩
  · rintro ⟨⟨ds, hs, ⟨hne, hd⟩, rfl⟩, hle⟩
    have key : parseDigits max .posOverflow ds 0 = .ok (numeralValue ds) := by
      rw [parseDigits_numeral _ _ _ _ hd, if_neg hne, if_pos (by omega)]
      simp
    rcases hs with rfl | rfl
    · cases s with
      | nil => exact absurd rfl hne
      | cons c cs =>
        have hc := hd c (by simp)
        simp only [parseUnsigned]
        split
        · next h => cases h
        · next h => cases h; exact absurd hc not_digit_plus
        · next h => cases h; exact absurd hc not_digit_minus
        · next h => cases h; exact absurd hc not_digit_plus
        · exact key
    · cases ds with
      | nil => exact absurd rfl hne
      | cons c cs => exact key

theorem parseI16_iff (s : List Char) (v : Int) :
    parseI16 s = .ok v ↔ WritesInt s v ∧ -32768 ≤ v ∧ v ≤ 32767 := by
  constructor
  · intro h
    simp only [parseI16] at h
    split at h
    · cases h
    · cases h
    · cases h
    · next cs hne =>
      cases hp : parseDigits 32767 .posOverflow cs 0 with
      | error e => rw [hp] at h; cases h
      | ok n =>
        rw [hp] at h
        cases h
        obtain ⟨h1, h2, h3⟩ := parseDigits_ok hp (Nat.zero_le _)
        refine ⟨.inl ⟨n, ⟨_, .inr rfl, ⟨fun h => hne (by rw [h]), h1⟩, by rw [h2]; omega⟩, rfl⟩, by dsimp only; omega, by dsimp only; omega⟩
    · next cs hne =>
      cases hp : parseDigits 32768 .negOverflow cs 0 with
      | error e => rw [hp] at h; cases h
      | ok n =>
        rw [hp] at h
        cases h
        obtain ⟨h1, h2, h3⟩ := parseDigits_ok hp (Nat.zero_le _)
        refine ⟨.inr ⟨_, rfl, ⟨fun h => hne (by rw [h]), h1⟩, by rw [h2]; simp⟩, by dsimp only; omega, by dsimp only; omega⟩
    · next hnil _ _ _ _ =>
      cases hp : parseDigits 32767 .posOverflow s 0 with
      | error e => rw [hp] at h; cases h
      | ok n =>
        rw [hp] at h
        cases h
        obtain ⟨h1, h2, h3⟩ := parseDigits_ok hp (Nat.zero_le _)
        refine ⟨.inl ⟨n, ⟨_, .inl rfl, ⟨fun h => hnil h, h1⟩, by rw [h2]; omega⟩, rfl⟩, by dsimp only; omega, by dsimp only; omega⟩
  · rintro ⟨⟨n, ⟨ds, hs, ⟨hne, hd⟩, rfl⟩, rfl⟩ | ⟨ds, rfl, ⟨hne, hd⟩, rfl⟩, h1, h2⟩
    · have key : parseDigits 32767 .posOverflow ds 0 = .ok (numeralValue ds) := by
        rw [parseDigits_numeral _ _ _ _ hd, if_neg hne, if_pos (by omega)]
        simp
      rcases hs with rfl | rfl
      · cases s with
        | nil => exact absurd rfl hne
        | cons c cs =>
          have hc := hd c (by simp)
          simp only [parseI16]
          split
          · next h => cases h
          · next h => cases h; exact absurd hc not_digit_plus
          · next h => cases h; exact absurd hc not_digit_minus
          · next h => cases h; exact absurd hc not_digit_plus
          · next h => cases h; exact absurd hc not_digit_minus
          · rw [key]; rfl
      · cases ds with
        | nil => exact absurd rfl hne
        | cons c cs => simp only [parseI16, key]; rfl
    · have key : parseDigits 32768 .negOverflow ds 0 = .ok (numeralValue ds) := by
        rw [parseDigits_numeral _ _ _ _ hd, if_neg hne, if_pos (by omega)]
        simp
      cases ds with
      | nil => exact absurd rfl hne
      | cons c cs => simp only [parseI16, key]; rfl

theorem writesNat_unique {s : List Char} {v w : Nat} (h1 : WritesNat s v) (h2 : WritesNat s w) : v = w := by
  have a := (parseUnsigned_iff (max v w) s v).2 ⟨h1, by omega⟩
  have b := (parseUnsigned_iff (max v w) s w).2 ⟨h2, by omega⟩
  rw [a] at b
  cases b
  rfl

/-! ## Decimal output -/

theorem digit_ofNat (d : Nat) (h : d < 10) : (Char.ofNat (48 + d)).toNat = 48 + d := by
  have : ∀ d : Fin 10, (Char.ofNat (48 + d)).toNat = 48 + d := by decide
  exact this ⟨d, h⟩

theorem numeralValue_append (a : List Char) (c : Char) :
    numeralValue (a ++ [c]) = numeralValue a * 10 + (c.toNat - '0'.toNat) := by
  induction a with
  | nil => simp [numeralValue]
  | cons x a ih =>
    simp only [List.cons_append, numeralValue, ih, List.length_append, List.length_singleton, Nat.pow_succ,
      Nat.add_mul, Nat.mul_assoc]
    omega

theorem decimal_spec (n : Nat) : IsNumeral (decimal n) ∧ numeralValue (decimal n) = n := by
  induction n using Nat.strongRecOn with
  | _ n ih =>
    rw [decimal]
    split
    · next h =>
      have hd := digit_ofNat n h
      refine ⟨⟨by simp, ?_⟩, ?_⟩
      · intro c hc
        rw [List.mem_singleton.1 hc]
        change 48 ≤ _ ∧ _ ≤ 57
        omega
      · simp only [numeralValue, List.length_nil, Nat.pow_zero, Nat.mul_one, Nat.add_zero, hd]
        change 48 + n - 48 = n
        omega
    · next h =>
      obtain ⟨⟨h1, h2⟩, h3⟩ := ih (n / 10) (by omega)
      have hd := digit_ofNat (n % 10) (by omega)
      refine ⟨⟨by simp, ?_⟩, ?_⟩
      · intro c hc
        rcases List.mem_append.1 hc with hc | hc
        · exact h2 c hc
        · rw [List.mem_singleton.1 hc]
          change 48 ≤ _ ∧ _ ≤ 57
          omega
      · rw [numeralValue_append, h3, hd]
        change n / 10 * 10 + (48 + n % 10 - 48) = n
        omega

/-! ## Locations -/

theorem takeWhile_append_stop {nd : Char → Bool} {a b : List Char} {c : Char} (ha : ∀ x ∈ a, nd x = true) (hc : nd c = false) :
    (a ++ c :: b).takeWhile nd = a ∧ (a ++ c :: b).dropWhile nd = c :: b := by
  induction a with
  | nil => simp [hc]
  | cons x a ih =>
    obtain ⟨h1, h2⟩ := ih (fun y hy => ha y (by simp [hy]))
    simp only [List.cons_append, List.takeWhile_cons, List.dropWhile_cons, ha x (by simp), if_true, h1, h2, and_self]

theorem takeWhile_mem {nd : Char → Bool} {s : List Char} {c : Char} (h : c ∈ s.takeWhile nd) : nd c = true := by
  induction s with
  | nil => simp at h
  | cons x s ih =>
    rw [List.takeWhile_cons] at h
    split at h
    · next hx =>
      rcases List.mem_cons.1 h with rfl | h
      · exact hx
      · exact ih h
    · simp at h

theorem parseLocation_shape {nd : Char → Bool} (hn : DigitClass nd) {s a b : List Char} (h : LocationShape nd s a b) :
    parseLocation nd s = (do
      let barNo ← unwrapR (parseUnsigned USIZE_MAX a)
      let offset ← unwrapR (parseUnsigned USIZE_MAX b)
      pure (some ⟨barNo, offset⟩)) := by
  obtain ⟨rfl, h1, h2, h3, h4⟩ := h
  obtain ⟨e1, e2⟩ := takeWhile_append_stop (b := b) h3 hn.colon
  have hall : b.all nd = true := List.all_eq_true.2 h4
  simp only [parseLocation, e1, e2]
  rw [if_pos ⟨h1, h2, hall⟩]

theorem parseLocation_other {nd : Char → Bool} {s : List Char} (h : ∀ a b, ¬ LocationShape nd s a b) :
    parseLocation nd s = .ok none := by
  simp only [parseLocation]
  split
  · next b hb =>
    rw [if_neg]
    rintro ⟨h1, h2, h3⟩
    refine h (s.takeWhile nd) b ⟨?_, h1, h2, ?_, List.all_eq_true.1 h3⟩
    · rw [← hb, List.takeWhile_append_dropWhile]
    · intro c hc
      exact takeWhile_mem hc
  · rfl

end Klavier
