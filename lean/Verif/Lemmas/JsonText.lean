import Verif.Lemmas.Json

/-! # What is written is read back; the fuel of the reader suffices -/
set_option autoImplicit false
namespace Klavier
open Spec
namespace Json

theorem parseStr_plain {s r : List Char} (h : ∀ c ∈ s, PlainChar c) : parseStr (s ++ '"' :: r) = some (s, r) := by
  induction s with
  | nil => rw [List.nil_append, parseStr]
  | cons c s ih =>
    obtain ⟨h1, h2, h3⟩ := h c (by simp)
    rw [List.cons_append, parseStr]
    · rw [if_neg (by rintro (e | e); exact h2 e; omega), ih (fun x hx => h x (by simp [hx]))]
      rfl
    · exact h1
    · intros; exact h2 ‹_›
    · intros; exact h2 ‹_›
    · intros; exact h2 ‹_›

theorem readStr_read {m : JsonMode} (h : m ≠ .skip) (s : List Char) : readStr m s = parseStr s := by
  cases m <;> first | rfl | exact absurd rfl h

theorem tooDeep_read {m : JsonMode} (h : m ≠ .skip) (d : Nat) : tooDeep m d = decide (d ≤ 1) := by
  cases m <;> first | rfl | exact absurd rfl h

theorem orSkip_some (m : JsonMode) (v : Json) (r : List Char) (q : Option (List Char)) :
    orSkip m (v, some r) q = (v, some r) := by
  cases m <;> rfl

/-- A character that begins a value. -/
def Begins (c : Char) : Prop := ¬ IsBlank c ∧ c ≠ ']' ∧ c ≠ ',' ∧ c ≠ '}'

theorem digit_begins {c : Char} (h : IsDigit c) :
    Begins c ∧ c ≠ 'n' ∧ c ≠ 't' ∧ c ≠ 'f' ∧ c ≠ '"' ∧ c ≠ '[' ∧ c ≠ '{' := by
  unfold IsDigit at h
  refine ⟨⟨?_, ?_, ?_, ?_⟩, ?_, ?_, ?_, ?_, ?_, ?_⟩
  · rintro (rfl | rfl | rfl | rfl) <;> revert h <;> decide
  all_goals (rintro rfl; revert h; decide)

theorem text_begins {d : Nat} {j : Json} (h : Writable d j) : ∃ c t, text j = c :: t ∧ Begins c := by
  match j with
  | null => exact ⟨'n', _, rfl, by unfold Begins IsBlank; decide⟩
  | bool true => exact ⟨'t', _, rfl, by unfold Begins IsBlank; decide⟩
  | bool false => exact ⟨'f', _, rfl, by unfold Begins IsBlank; decide⟩
  | num (.nat n) =>
    have := decimal_spec n
    match e : decimal n with
    | [] => exact absurd e this.1.1
    | c :: t => exact ⟨c, t, by rw [text, numText, e], (digit_begins (this.1.2 c (by simp [e]))).1⟩
  | num (.neg n) => exact ⟨'-', _, rfl, by unfold Begins IsBlank; decide⟩
  | num .float => simp [Writable] at h
  | str s => exact ⟨'"', _, rfl, by unfold Begins IsBlank; decide⟩
  | arr [] => exact ⟨'[', _, rfl, by unfold Begins IsBlank; decide⟩
  | arr (x :: xs) => exact ⟨'[', _, by rw [text], by unfold Begins IsBlank; decide⟩
  | obj [] => exact ⟨'{', _, rfl, by unfold Begins IsBlank; decide⟩
  | obj ((k, v) :: ms) => exact ⟨'{', _, by rw [text], by unfold Begins IsBlank; decide⟩
  | bad => simp [Writable] at h
  | skip _ => simp [Writable] at h

theorem parseIdent_self (v : Json) (s r : List Char) : parseIdent v s (s ++ r) = (v, some r) := by
  induction s with
  | nil => rfl
  | cons c s ih => simp [parseIdent, ih]

theorem stops_elems (xs : List Json) (r : List Char) : Stops (textElems xs ++ r) := by
  cases xs <;> (rw [textElems]; intro c hc; cases hc; unfold IsDigit; decide)

theorem stops_members (ms : List (List Char × Json)) (r : List Char) : Stops (textMembers ms ++ r) := by
  match ms with
  | [] => rw [textMembers]; intro c hc; cases hc; unfold IsDigit; decide
  | (k, v) :: ms => rw [textMembers]; intro c hc; cases hc; unfold IsDigit; decide

mutual
theorem parseValue_text (over : List Char → Bool) {m : JsonMode} (hm : m ≠ .skip) : (j : Json) → ∀ (d fuel : Nat) (r : List Char), Writable d j →
    2 * (text j).length + 1 ≤ fuel → Stops r → parseValue over m fuel d (text j ++ r) = (j, some r)
  | null, d, fuel, r, hw, hf, hr => by
    match fuel with
    | 0 => omega
    | fuel + 1 => 
      have e : text null ++ r = 'n' :: ("ull".toList ++ r) := rfl
      rw [e, parseValue, skipWs_stop (by unfold IsBlank; decide)]
      exact parseIdent_self _ _ _
  | bool true, d, fuel, r, hw, hf, hr => by
    match fuel with
    | 0 => omega
    | fuel + 1 => 
      have e : text (bool true) ++ r = 't' :: ("rue".toList ++ r) := rfl
      rw [e, parseValue, skipWs_stop (by unfold IsBlank; decide)]
      exact parseIdent_self _ _ _
  | bool false, d, fuel, r, hw, hf, hr => by
    match fuel with
    | 0 => omega
    | fuel + 1 => 
      have e : text (bool false) ++ r = 'f' :: ("alse".toList ++ r) := rfl
      rw [e, parseValue, skipWs_stop (by unfold IsBlank; decide)]
      exact parseIdent_self _ _ _
  | num (.nat n), d, fuel, r, hw, hf, hr => by
    match fuel with
    | 0 => omega
    | fuel + 1 =>
      have hs := decimal_writes n
      have hp := parseNumber_nat (tooLarge over m) hs (by simpa [Writable] using hw) hr
      rw [text, numText]
      match e : decimal n with
      | [] => exact absurd e hs.1.1
      | c :: t =>
        obtain ⟨h1, h2, h3, h4, h5, h6, h7⟩ := digit_begins (hs.1.2 c (by simp [e]))
        rw [e] at hp
        rw [List.cons_append] at hp ⊢
        rw [parseValue, skipWs_stop h1.1]
        simp only [if_neg h2, if_neg h3, if_neg h4, if_neg h5, if_neg h6, if_neg h7, hp]
  | num (.neg n), d, fuel, r, hw, hf, hr => by
    match fuel with
    | 0 => omega
    | fuel + 1 =>
      simp only [Writable] at hw
      have hp := parseNumber_neg (tooLarge over m) (decimal_writes n) hw.1 hw.2 hr
      rw [text, numText, List.cons_append, parseValue, skipWs_stop (by unfold IsBlank; decide)]
      simp [hp]
  | num .float, d, fuel, r, hw, hf, hr => by simp [Writable] at hw
  | str s, d, fuel, r, hw, hf, hr => by
    match fuel with
    | 0 => omega
    | fuel + 1 =>
      simp only [Writable] at hw
      have hp := parseStr_plain (r := r) hw
      rw [text, strText, List.cons_append, parseValue, skipWs_stop (by unfold IsBlank; decide)]
      simp [hp, readStr_read hm]
  | arr [], d, fuel, r, hw, hf, hr => by
    match fuel with
    | 0 => omega
    | 1 => simp [text] at hf
    | fuel + 2 =>
      simp only [Writable] at hw
      have e : text (arr []) ++ r = '[' :: ']' :: r := rfl
      rw [e, parseValue, skipWs_stop (by unfold IsBlank; decide)]
      simp [tooDeep_read hm, show ¬ d ≤ 1 by omega, parseElems, skipWs_stop (show ¬ IsBlank ']' by unfold IsBlank; decide)]
  | arr (x :: xs), d, fuel, r, hw, hf, hr => by
    simp only [Writable, WritableElems] at hw
    simp only [text, List.length_cons, List.length_append] at hf
    match fuel with
    | 0 => omega
    | 1 => omega
    | fuel + 2 =>
      obtain ⟨c, t, ht, hb⟩ := text_begins hw.2.1
      have h1 := parseValue_text over hm x (d - 1) fuel (textElems xs ++ r) hw.2.1 (by omega) (stops_elems xs r)
      have h2 := parseElems_text over hm xs (d - 1) fuel r hw.2.2 (by omega)
      rw [text, List.cons_append, List.append_assoc, parseValue, skipWs_stop (by unfold IsBlank; decide)]
      rw [ht, List.cons_append] at h1 ⊢
      simp [tooDeep_read hm, show ¬ d ≤ 1 by omega, parseElems, skipWs_stop hb.1, hb.2.1, h1, h2]
  | obj [], d, fuel, r, hw, hf, hr => by
    match fuel with
    | 0 => omega
    | 1 => simp [text] at hf
    | fuel + 2 =>
      simp only [Writable] at hw
      have e : text (obj []) ++ r = '{' :: '}' :: r := rfl
      rw [e, parseValue, skipWs_stop (by unfold IsBlank; decide)]
      simp [tooDeep_read hm, show ¬ d ≤ 1 by omega, parseMembers, skipWs_stop (show ¬ IsBlank '}' by unfold IsBlank; decide)]
  | obj ((k, v) :: ms), d, fuel, r, hw, hf, hr => by
    simp only [Writable, WritableMembers] at hw
    simp only [text, List.length_cons, List.length_append, strText, List.length_nil] at hf
    match fuel with
    | 0 => omega
    | 1 => omega
    | fuel + 2 =>
      have hk := parseStr_plain (r := ':' :: (text v ++ (textMembers ms ++ r))) hw.2.1
      have h1 := parseValue_text over hm v (d - 1) fuel (textMembers ms ++ r) hw.2.2.1 (by omega) (stops_members ms r)
      have h2 := parseMembers_text over hm ms (d - 1) fuel r hw.2.2.2 (by omega)
      rw [text, List.cons_append, parseValue, skipWs_stop (by unfold IsBlank; decide)]
      simp only [strText, List.cons_append, List.append_assoc, List.nil_append, parseMembers]
      rw [skipWs_stop (show ¬ IsBlank '"' by unfold IsBlank; decide)]
      simp [tooDeep_read hm, orSkip_some, readStr_read hm, show ¬ d ≤ 1 by omega, hk, skipWs_stop (show ¬ IsBlank ':' by unfold IsBlank; decide), h1, h2]
  | bad, d, fuel, r, hw, hf, hr => by simp [Writable] at hw
  | skip _, d, fuel, r, hw, hf, hr => by simp [Writable] at hw
theorem parseElems_text (over : List Char → Bool) {m : JsonMode} (hm : m ≠ .skip) : (xs : List Json) → ∀ (d fuel : Nat) (r : List Char),
    WritableElems d xs → 2 * (textElems xs).length ≤ fuel →
    parseElems over m fuel d false (textElems xs ++ r) = (xs, some r)
  | [], d, fuel, r, hw, hf => by
    match fuel with
    | 0 => simp [textElems] at hf
    | fuel + 1 => simp [textElems, parseElems, skipWs_stop (show ¬ IsBlank ']' by unfold IsBlank; decide)]
  | x :: xs, d, fuel, r, hw, hf => by
    simp only [WritableElems] at hw
    simp only [textElems, List.length_cons, List.length_append] at hf
    match fuel with
    | 0 => omega
    | fuel + 1 =>
      obtain ⟨c, t, ht, hb⟩ := text_begins hw.1
      have h1 := parseValue_text over hm x d fuel (textElems xs ++ r) hw.1 (by omega) (stops_elems xs r)
      have h2 := parseElems_text over hm xs d fuel r hw.2 (by omega)
      rw [textElems, List.cons_append, List.append_assoc, parseElems, skipWs_stop (by unfold IsBlank; decide)]
      rw [ht, List.cons_append] at h1 ⊢
      simp [skipWs_stop hb.1]
      split
      · next e => cases e; exact absurd rfl hb.2.1
      · rw [h1]; simp [h2]
theorem parseMembers_text (over : List Char → Bool) {m : JsonMode} (hm : m ≠ .skip) : (ms : List (List Char × Json)) → ∀ (d fuel : Nat) (r : List Char),
    WritableMembers d ms → 2 * (textMembers ms).length ≤ fuel →
    parseMembers over m fuel d false (textMembers ms ++ r) = (ms, some r)
  | [], d, fuel, r, hw, hf => by
    match fuel with
    | 0 => simp [textMembers] at hf
    | fuel + 1 => simp [textMembers, parseMembers, skipWs_stop (show ¬ IsBlank '}' by unfold IsBlank; decide)]
  | (k, v) :: ms, d, fuel, r, hw, hf => by
    simp only [WritableMembers] at hw
    simp only [textMembers, List.length_cons, List.length_append, strText, List.length_nil] at hf
    match fuel with
    | 0 => omega
    | fuel + 1 =>
      have hk := parseStr_plain (r := ':' :: (text v ++ (textMembers ms ++ r))) hw.1
      have h1 := parseValue_text over hm v d fuel (textMembers ms ++ r) hw.2.1 (by omega) (stops_members ms r)
      have h2 := parseMembers_text over hm ms d fuel r hw.2.2 (by omega)
      rw [textMembers, List.cons_append, parseMembers, skipWs_stop (by unfold IsBlank; decide)]
      simp only [strText, List.cons_append, List.append_assoc, List.nil_append]
      simp [readStr_read hm, orSkip_some, hk, skipWs_stop (show ¬ IsBlank ':' by unfold IsBlank; decide),
        skipWs_stop (show ¬ IsBlank '"' by unfold IsBlank; decide), h1, h2]
end

end Json
end Klavier
