import Verif.Spec.Json
import Verif.Lemmas.Text

/-! # Lemmas about JSON texts -/
set_option autoImplicit false
namespace Klavier
open Spec
namespace Json

/-! ## White space -/

theorem isWs_iff (c : Char) : isWs c = true ↔ IsBlank c := by
  simp [isWs, IsBlank, or_assoc]

theorem skipWs_blank {ws s : List Char} (h : ∀ c ∈ ws, IsBlank c) : skipWs (ws ++ s) = skipWs s := by
  induction ws with
  | nil => rfl
  | cons c ws ih =>
    have hc := (isWs_iff c).2 (h c (by simp))
    simp only [skipWs, List.cons_append, List.dropWhile_cons, hc, if_true]
    exact ih (fun x hx => h x (by simp [hx]))

theorem skipWs_stop {c : Char} {s : List Char} (h : ¬ IsBlank c) : skipWs (c :: s) = c :: s := by
  have : isWs c = false := by
    cases e : isWs c
    · rfl
    · exact absurd ((isWs_iff c).1 e) h
  simp [skipWs, this]

theorem skipWs_split (s : List Char) : ∃ ws, s = ws ++ skipWs s ∧ ∀ c ∈ ws, IsBlank c := by
  refine ⟨s.takeWhile isWs, (List.takeWhile_append_dropWhile).symm, fun c hc => ?_⟩
  exact (isWs_iff c).1 (takeWhile_mem hc)

theorem skipWs_head {s : List Char} {c : Char} {r : List Char} (h : skipWs s = c :: r) : ¬ IsBlank c := by
  intro hb
  have e := (isWs_iff c).2 hb
  unfold skipWs at h
  induction s with
  | nil => simp at h
  | cons x s ih =>
    rw [List.dropWhile_cons] at h
    split at h
    · exact ih h
    · next hx => cases h; exact hx e

theorem skipWs_nil {s : List Char} : skipWs s = [] ↔ ∀ c ∈ s, IsBlank c := by
  constructor
  · intro h
    obtain ⟨ws, e, hw⟩ := skipWs_split s
    rw [h, List.append_nil] at e
    exact e ▸ hw
  · intro h
    have := skipWs_blank (s := []) h
    simpa [skipWs] using this

theorem skipWs_skipWs (s : List Char) : skipWs (skipWs s) = skipWs s := by
  match h : skipWs s with
  | [] => rfl
  | c :: r => exact skipWs_stop (skipWs_head h)

theorem skipWs_length (s : List Char) : (skipWs s).length ≤ s.length := by
  obtain ⟨ws, e, _⟩ := skipWs_split s
  have := congrArg List.length e
  simp at this
  omega

/-! ## Numbers -/

theorem isDigit_iff (c : Char) : isDigit c = true ↔ IsDigit c := by
  unfold isDigit
  constructor
  · intro h
    match e : toDigit c with
    | none => rw [e] at h; cases h
    | some d => exact (toDigit_some e).1
  · intro h
    rw [toDigit_digit h]; rfl

theorem digitsValue_aux (s : List Char) (h : ∀ c ∈ s, IsDigit c) (a : Nat) :
    s.foldl (fun a c => a * 10 + (toDigit c).getD 0) a = a * 10 ^ s.length + numeralValue s := by
  induction s generalizing a with
  | nil => simp [numeralValue]
  | cons c s ih =>
    rw [List.foldl_cons, ih (fun x hx => h x (by simp [hx])), toDigit_digit (h c (by simp))]
    simp only [Option.getD_some, numeralValue, List.length_cons, Nat.pow_succ, Nat.add_mul]
    rw [Nat.mul_assoc a 10, Nat.mul_comm 10]
    omega

theorem digitsValue_numeral {s : List Char} (h : ∀ c ∈ s, IsDigit c) : digitsValue s = numeralValue s := by
  unfold digitsValue
  rw [digitsValue_aux s h]
  simp

theorem takeWhile_digits {ds r : List Char} (h : ∀ c ∈ ds, IsDigit c) (hr : ∀ c, r.head? = some c → ¬ IsDigit c) :
    (ds ++ r).takeWhile isDigit = ds ∧ (ds ++ r).dropWhile isDigit = r := by
  induction ds with
  | nil =>
    match r with
    | [] => simp
    | c :: r =>
      have : isDigit c = false := by
        cases e : isDigit c
        · rfl
        · exact absurd ((isDigit_iff c).1 e) (hr c rfl)
      simp [this]
  | cons c ds ih =>
    have hc := (isDigit_iff c).2 (h c (by simp))
    have := ih (fun x hx => h x (by simp [hx]))
    simp [hc, this]

/-- Text that does not continue a number. -/
def Stops (r : List Char) : Prop := ∀ c, r.head? = some c → ¬ IsDigit c ∧ c ≠ '.' ∧ c ≠ 'e' ∧ c ≠ 'E'

theorem fraction_stops {r : List Char} (h : Stops r) : fraction r = some ([], r) := by
  match r with
  | [] => rfl
  | c :: r =>
    obtain ⟨_, h1, h2, h3⟩ := h c rfl
    unfold fraction
    split
    · next e => cases e; exact absurd rfl h1
    · next e => cases e; exact absurd rfl h2
    · next e => cases e; exact absurd rfl h3
    · rfl

theorem leading_ok {ds : List Char} (h : ds.head? = some '0' → ds.length = 1) : leadingZero ds = false := by
  unfold leadingZero
  split
  · simp at h
  · rfl

theorem parseNumber_minus (over : List Char → Bool) (s : List Char) :
    parseNumber over ('-' :: s) = parseDigitsOf over true s := rfl

theorem parseNumber_plain (over : List Char → Bool) (s : List Char) (h : s.head? ≠ some '-') :
    parseNumber over s = parseDigitsOf over false s := by
  unfold parseNumber
  split
  · simp at h
  · rfl

/-- After a minus sign no `u64` is read. -/
theorem parseDigitsOf_minus {over : List Char → Bool} {s r : List Char} {n : Nat}
    (h : parseDigitsOf over true s = some (.nat n, r)) : False := by
  unfold parseDigitsOf at h
  simp only at h
  split at h
  · cases h
  · split at h
    · cases h
    · simp only [Bool.not_true, Bool.false_eq_true, if_false] at h
      split at h
      · split at h <;> cases h
      · generalize over _ = b at h
        cases b <;> simp at h

theorem parseDigitsOf_numeral (over : List Char → Bool) (neg : Bool) {ds r : List Char} {n : Nat}
    (h : WritesJsonNat ds n) (hn : n ≤ U64_MAX) (hr : Stops r) :
    parseDigitsOf over neg (ds ++ r) =
      if neg = false then some (.nat n, r)
      else if 1 ≤ n ∧ n ≤ 9223372036854775808 then some (.neg n, r) else some (.float, r) := by
  obtain ⟨⟨h1, h2⟩, h3, h4⟩ := h
  obtain ⟨e1, e2⟩ := takeWhile_digits (r := r) h2 (fun c hc => (hr c hc).1)
  unfold parseDigitsOf
  simp only [e1, e2, leading_ok h4, fraction_stops hr, digitsValue_numeral h2, h3, hn]
  have : ds.isEmpty = false := by cases ds <;> simp_all
  cases neg <;> simp [this]

theorem digit_not_minus {c : Char} (h : IsDigit c) : c ≠ '-' := fun e => not_digit_minus (e ▸ h)

theorem parseNumber_nat (over : List Char → Bool) {ds r : List Char} {n : Nat}
    (h : WritesJsonNat ds n) (hn : n ≤ U64_MAX) (hr : Stops r) :
    parseNumber over (ds ++ r) = some (.nat n, r) := by
  rw [parseNumber_plain, parseDigitsOf_numeral over false h hn hr]
  · rfl
  · match ds, h with
    | [], h => exact absurd rfl h.1.1
    | c :: ds, h =>
      have := digit_not_minus (h.1.2 c (by simp))
      simpa using this

theorem parseNumber_neg (over : List Char → Bool) {ds r : List Char} {n : Nat}
    (h : WritesJsonNat ds n) (h1 : 1 ≤ n) (hn : n ≤ 9223372036854775808) (hr : Stops r) :
    parseNumber over ('-' :: (ds ++ r)) = some (.neg n, r) := by
  rw [parseNumber_minus, parseDigitsOf_numeral over true h (by simp only [U64_MAX]; omega) hr]
  simp [h1, hn]

/-- A number read as a `u64` is written in full at the front of the text. -/
theorem parseNumber_nat_inv {over : List Char → Bool} {s r : List Char} {n : Nat}
    (h : parseNumber over s = some (.nat n, r)) :
    ∃ ds, s = ds ++ r ∧ WritesJsonNat ds n ∧ n ≤ U64_MAX := by
  match s with
  | [] => simp [parseNumber, parseDigitsOf] at h
  | c :: s =>
    by_cases hm : c = '-'
    · subst hm
      rw [parseNumber_minus] at h
      exact (parseDigitsOf_minus h).elim
    rw [parseNumber_plain over _ (by simpa using hm)] at h
    generalize c :: s = t at h ⊢
    unfold parseDigitsOf at h
    simp only at h
    split at h
    · cases h
    next hd =>
    split at h
    · cases h
    next frac rest hf =>
    simp only [Bool.not_false, if_true] at h
    split at h
    · next hc =>
      cases h
      simp only [Bool.and_eq_true, decide_eq_true_eq, List.isEmpty_iff] at hc
      obtain ⟨rfl, hn⟩ := hc
      have hdig : ∀ x ∈ t.takeWhile isDigit, IsDigit x := fun x hx => (isDigit_iff x).1 (takeWhile_mem hx)
      have hrest : r = t.dropWhile isDigit := by
        generalize t.dropWhile isDigit = u at hf
        unfold fraction at hf
        split at hf
        · simp only at hf
          split at hf
          · cases hf
          · split at hf
            · simp at hf
            · simp at hf
            · simp at hf
        · simp at hf
        · simp at hf
        · cases hf; rfl
      refine ⟨t.takeWhile isDigit, ?_, ⟨⟨?_, hdig⟩, ?_, ?_⟩, hn⟩
      · rw [hrest, List.takeWhile_append_dropWhile]
      · intro e; rw [e] at hd; simp at hd
      · exact (digitsValue_numeral hdig).symm
      · intro h0
        match e : t.takeWhile isDigit with
        | [] => rw [e] at h0; cases h0
        | [x] => rfl
        | x :: y :: l =>
          rw [e] at h0 hd
          cases h0
          simp [leadingZero] at hd
    · generalize over _ = b at h
      cases b <;> simp at h

theorem decimal_writes (n : Nat) : WritesJsonNat (decimal n) n := by
  refine ⟨(decimal_spec n).1, (decimal_spec n).2, ?_⟩
  induction n using Nat.strongRecOn with
  | _ n ih =>
    rw [decimal]
    split
    · simp
    · next h =>
      intro e
      exfalso
      have hne := (decimal_spec (n / 10)).1.1
      have e' : (decimal (n / 10)).head? = some '0' := by
        match h' : decimal (n / 10) with
        | [] => exact absurd h' hne
        | c :: l => rw [h'] at e; simpa using e
      have hl := ih (n / 10) (by omega) e'
      have hv := (decimal_spec (n / 10)).2
      match h' : decimal (n / 10) with
      | [] => exact absurd h' hne
      | c :: l =>
        rw [h'] at e' hl hv
        cases l with
        | nil =>
          simp only [List.head?_cons, Option.some.injEq] at e'
          subst e'
          simp [numeralValue] at hv
          omega
        | cons => simp at hl

end Json
end Klavier
