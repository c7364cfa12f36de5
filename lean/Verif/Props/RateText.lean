import Verif.Lemmas.RateText
import Verif.Props.Rates

/-! # C68: percentages as text -/
set_option autoImplicit false
namespace Klavier
open Spec F32

/-! ## Shown -/

private theorem decimal_string (n : Nat) : decimal n = (toString n).toList := by
  have hd : ∀ d, d < 10 → Char.ofNat (48 + d) = d.digitChar := by decide
  rw [show toString n = n.repr from rfl, Nat.toList_repr]
  induction n using Nat.strongRecOn with
  | _ n ih =>
    rw [decimal, Nat.toDigits_eq_if (by decide)]
    split
    · next h => rw [hd n h]
    · next h => rw [ih (n / 10) (by omega), hd _ (Nat.mod_lt _ (by decide))]

private theorem digit_string (d : Nat) (h : d < 10) : (toString d).toList = [Char.ofNat (48 + d)] := by
  rw [← decimal_string, decimal, if_pos h]

private theorem positional_text {v : Nat} {j : Nat} (h0 : v % 10 ^ j = 0) (h1 : ∀ i, j < i → i ≤ 41 → v % 10 ^ i ≠ 0) :
    positional (v / 10 ^ j) ((j : Int) - 3) = (fractionText v).toList := by
  have d1 := digit_string (v % 10) (Nat.mod_lt _ (by decide))
  have d2 := digit_string (v / 10 % 10) (Nat.mod_lt _ (by decide))
  have d3 := digit_string (v / 100 % 10) (Nat.mod_lt _ (by decide))
  have dw := decimal_string (v / 1000)
  have n1 := fun h => h1 1 h (by decide)
  have n2 := fun h => h1 2 h (by decide)
  have n3 := fun h => h1 3 h (by decide)
  unfold positional fractionText
  match j, h0 with
  | 0, h0 =>
    have n1 := n1 (by decide)
    have n2 := n2 (by decide)
    have n3 := n3 (by decide)
    simp only [Nat.pow_one, show (10:Nat) ^ 2 = 100 from rfl, show (10:Nat) ^ 3 = 1000 from rfl] at n1 n2 n3
    rw [if_neg n3, if_neg n2, if_neg n1]
    simp only [String.toList_append, d1, d2, d3, ← dw]
    simp [lastDigits, Nat.div_div_eq_div_mul]
  | 1, h0 =>
    have n2 := n2 (by decide)
    have n3 := n3 (by decide)
    simp only [Nat.pow_one, show (10:Nat) ^ 2 = 100 from rfl, show (10:Nat) ^ 3 = 1000 from rfl] at h0 n2 n3
    rw [if_neg n3, if_neg n2, if_pos h0]
    simp only [String.toList_append, d2, d3, ← dw]
    simp [lastDigits, Nat.div_div_eq_div_mul]
  | 2, h0 =>
    have n3 := n3 (by decide)
    simp only [show (10:Nat) ^ 2 = 100 from rfl, show (10:Nat) ^ 3 = 1000 from rfl] at h0 n3
    rw [if_neg n3, if_pos h0]
    simp only [String.toList_append, d3, ← dw]
    simp [lastDigits, Nat.div_div_eq_div_mul]
  | j + 3, h0 =>
    have e : v / 10 ^ (j + 3) * 10 ^ j = v / 1000 := by
      have hd := Nat.div_add_mod v (10 ^ (j + 3))
      rw [h0, Nat.pow_add, show (10:Nat) ^ 3 = 1000 from rfl, Nat.add_zero] at hd
      have : v = v / 10 ^ (j + 3) * 10 ^ j * 1000 := by
        rw [Nat.pow_add, show (10:Nat) ^ 3 = 1000 from rfl]
        conv => lhs; rw [← hd]
        ac_rfl
      omega
    have h3 : v % 1000 = 0 := by
      have : 1000 ∣ v := Nat.dvd_trans ⟨10 ^ j, by rw [Nat.pow_add]; rw [Nat.mul_comm]⟩ (Nat.dvd_of_mod_eq_zero h0)
      exact Nat.mod_eq_zero_of_dvd this
    rw [if_pos (by omega), show ((j + 3 : Nat) - 3 : Int).toNat = j by omega, e, if_pos h3]
    simp [dw]

/-- C68: a rate is shown as the decimal fraction it is, without needless zeros: 1.004, 0.5,
2. (Stored values up to 65535, which deserialisation lets through, are covered.) -/
theorem C68_shown (v : Nat) (hv : v ≤ 65535) : Percent.toText ⟨v⟩ = (fractionText v).toList := by
  rcases Nat.eq_zero_or_pos v with rfl | h0
  · decide +kernel
  · have hf : Percent.toF32 ⟨v⟩ = .fin false (roundUnits (v * ONE) 1000) := by
      simp only [Percent.toF32, ofU16, divConst, ofUnits]
      rw [if_pos (thousandths_fin hv)]
    have hn : roundUnits (v * ONE) 1000 ≠ 0 := by
      intro e
      have := (roundUnits_thousandths h0).1
      rw [e] at this
      have : 0 < (2 ^ 24 - 1) * (v * ONE) := Nat.mul_pos (by decide) (Nat.mul_pos h0 (Nat.two_pow_pos _))
      omega
    obtain ⟨j, j1, j2, j3⟩ := shortest_eq h0 hv
    rw [Percent.toText, hf]
    simp only [F32.toText, if_neg hn, j3, Bool.false_eq_true, if_false, List.nil_append]
    exact positional_text j1 j2

example : Percent.toText ⟨1004⟩ = "1.004".toList ∧ Percent.toText ⟨250⟩ = "0.25".toList := by
  refine ⟨(C68_shown _ (by decide)).trans ?_, (C68_shown _ (by decide)).trans ?_⟩ <;> decide +kernel

/-! ## Read -/

private theorem isDigit_iff (c : Char) : F32.isDigit c = true ↔ IsDigit c := by
  simp only [F32.isDigit, toDigit, IsDigit]
  split
  · next h => exact ⟨fun _ => h, fun _ => rfl⟩
  · next h => exact ⟨fun h' => by simp at h', fun h' => absurd h' h⟩

private theorem digits_value (ds : List Char) : F32.digits ds = numeralValue ds := by
  have : ∀ (ds : List Char) (a : Nat), ds.foldl (fun a c => a * 10 + (c.toNat - 48)) a = a * 10 ^ ds.length + numeralValue ds := by
    intro ds
    induction ds with
    | nil => intro a; simp [numeralValue]
    | cons c cs ih =>
      intro a
      rw [List.foldl_cons, ih, numeralValue, List.length_cons, Nat.add_mul, Nat.pow_succ, show '0'.toNat = 48 from rfl]
      rw [Nat.mul_assoc, Nat.mul_comm 10, Nat.add_assoc]
  rw [F32.digits, this]
  simp

private theorem allDigits_iff (s : List Char) (n : Nat) : allDigits s = some n ↔ IsNumeral s ∧ n = numeralValue s := by
  have e : (s ≠ [] ∧ s.all F32.isDigit = true) ↔ IsNumeral s := by simp only [List.all_eq_true, isDigit_iff, IsNumeral]
  simp only [allDigits, digits_value]
  split
  · next h => simp only [Option.some.injEq]; exact ⟨fun e' => ⟨e.1 h, e'.symm⟩, fun e => e.2.symm⟩
  · next h => simp only [reduceCtorEq, false_iff]; exact fun e' => h (e.2 e'.1)

private theorem head_numeral {ds : List Char} (h : IsNumeral ds) : (∀ t, ds ≠ '-' :: t) ∧ (∀ t, ds ≠ '+' :: t) := by
  refine ⟨?_, ?_⟩ <;>
  · rintro t rfl
    have := h.2 _ (List.mem_cons_self ..)
    revert this
    unfold IsDigit
    decide

private theorem parseExp_iff (s : List Char) (e : Int) :
    parseExp s = some e ↔ ∃ sg ds neg, Sign sg neg ∧ IsNumeral ds ∧ s = sg ++ ds ∧ e = if neg then -(numeralValue ds : Int) else numeralValue ds := by
  constructor
  · intro h
    unfold parseExp at h
    split at h
    · next s =>
      obtain ⟨n, h1, rfl⟩ := Option.map_eq_some_iff.1 h
      obtain ⟨h2, rfl⟩ := (allDigits_iff _ _).1 h1
      exact ⟨_, _, _, .minus, h2, rfl, rfl⟩
    · next s =>
      obtain ⟨n, h1, rfl⟩ := Option.map_eq_some_iff.1 h
      obtain ⟨h2, rfl⟩ := (allDigits_iff _ _).1 h1
      exact ⟨_, _, _, .plus, h2, rfl, rfl⟩
    · next s _ _ =>
      obtain ⟨n, h1, rfl⟩ := Option.map_eq_some_iff.1 h
      obtain ⟨h2, rfl⟩ := (allDigits_iff _ _).1 h1
      exact ⟨_, _, _, .none, h2, rfl, rfl⟩
  · rintro ⟨sg, ds, neg, hs, hd, rfl, rfl⟩
    have ha := (allDigits_iff ds _).2 ⟨hd, rfl⟩
    obtain ⟨g1, g2⟩ := head_numeral hd
    cases hs with
    | none =>
      rw [List.nil_append]
      unfold parseExp
      split
      · exact absurd rfl (g1 _)
      · exact absurd rfl (g2 _)
      · rw [ha]; rfl
    | plus => simp [parseExp, ha]
    | minus => simp [parseExp, ha]

private theorem takeWhile_stop {p : Char → Bool} {a b : List Char} (ha : ∀ x ∈ a, p x = true) (hb : ∀ c r, b = c :: r → p c = false) :
    (a ++ b).takeWhile p = a ∧ (a ++ b).dropWhile p = b := by
  induction a with
  | nil =>
    cases b with
    | nil => simp
    | cons c r => simp [hb c r rfl]
  | cons x a ih =>
    obtain ⟨h1, h2⟩ := ih (fun y hy => ha y (by simp [hy]))
    simp [ha x (by simp), h1, h2]

private theorem exponent_head {x : List Char} {e : Int} (h : Exponent x e) : ∀ c r, x = c :: r → c = 'e' ∨ c = 'E' := by
  rintro c r rfl
  cases h with
  | some h1 => exact h1

private theorem parseDecimal_iff (neg : Bool) (s : List Char) (x : F32) :
    parseDecimal neg s = some x ↔ ∃ ds f fs t e, (∀ c ∈ ds, IsDigit c) ∧ Fraction f fs ∧ ds ++ fs ≠ [] ∧ Exponent t e ∧
      s = ds ++ (f ++ t) ∧ x = ofDecimal neg (numeralValue (ds ++ fs)) (e - fs.length) := by
  constructor
  · intro h
    have hs := (List.takeWhile_append_dropWhile (p := F32.isDigit) (l := s)).symm
    have hd : ∀ c ∈ s.takeWhile F32.isDigit, IsDigit c := fun c hc => (isDigit_iff c).1 (List.all_eq_true.1 List.all_takeWhile c hc)
    have hf : ∃ f, Fraction f (fractionOf (s.dropWhile F32.isDigit)).1 ∧
        s.dropWhile F32.isDigit = f ++ (fractionOf (s.dropWhile F32.isDigit)).2 := by
      generalize s.dropWhile F32.isDigit = r
      unfold fractionOf
      split
      · next r =>
        refine ⟨'.' :: r.takeWhile F32.isDigit, .point fun c hc => (isDigit_iff c).1 (List.all_eq_true.1 List.all_takeWhile c hc), ?_⟩
        simp [List.takeWhile_append_dropWhile]
      · exact ⟨[], .none, rfl⟩
    obtain ⟨f, hf, he⟩ := hf
    rw [he] at hs
    simp only [parseDecimal] at h
    generalize fractionOf (s.dropWhile F32.isDigit) = p at *
    obtain ⟨fs, r⟩ := p
    simp only at *
    split at h
    · cases h
    · next hne =>
      have hne : s.takeWhile F32.isDigit ++ fs ≠ [] := by simpa using hne
      split at h
      · cases h
        exact ⟨_, _, _, _, _, hd, hf, hne, .none, hs, by rw [digits_value]; simp⟩
      · next c r =>
        split at h
        · next hc =>
          obtain ⟨e, h1, rfl⟩ := Option.map_eq_some_iff.1 h
          obtain ⟨sg, ds, ng, g1, g2, rfl, rfl⟩ := (parseExp_iff _ _).1 h1
          exact ⟨_, _, _, _, _, hd, hf, hne, .some hc g1 g2, hs, by rw [digits_value]⟩
        · cases h
  · rintro ⟨ds, f, fs, t, e, hd, hf, hne, he, rfl, rfl⟩
    have nd : ∀ c, c = '.' ∨ c = 'e' ∨ c = 'E' → F32.isDigit c = false := by
      rintro c (rfl | rfl | rfl) <;> decide
    have hh := exponent_head he
    have ht : fractionOf (f ++ t) = (fs, t) := by
      cases hf with
      | none =>
        rw [List.nil_append]
        unfold fractionOf
        split
        · exact absurd (hh _ _ rfl) (by decide)
        · rfl
      | point h =>
        obtain ⟨a, b⟩ := takeWhile_stop (p := F32.isDigit) (b := t) (fun c hc => (isDigit_iff c).2 (h c hc))
          (fun c r e => nd c (.inr (hh c r e)))
        simp [fractionOf, a, b]
    have hft : ∀ c r, f ++ t = c :: r → F32.isDigit c = false := by
      intro c r e
      cases hf with
      | none => exact nd c (.inr (hh c r e))
      | point h => simp only [List.cons_append, List.cons.injEq] at e; exact nd c (.inl e.1.symm)
    obtain ⟨a, b⟩ := takeWhile_stop (p := F32.isDigit) (fun c hc => (isDigit_iff c).2 (hd c hc)) hft
    simp only [parseDecimal, a, b, ht]
    rw [if_neg (by simpa using hne)]
    cases he with
    | none => simp [digits_value]
    | some hc hs hn => simp only [if_pos hc, (parseExp_iff _ _).2 ⟨_, _, _, hs, hn, rfl, rfl⟩, Option.map_some, digits_value]

private theorem lower_iff (c d : Char) (hd : 97 ≤ d.toNat ∧ d.toNat ≤ 122) : lower c = d ↔ c = d ∨ c.toNat + 32 = d.toNat := by
  unfold lower
  split
  · next h =>
    have hv : (Char.ofNat (c.toNat + 32)).toNat = c.toNat + 32 := by
      have hv : (c.toNat + 32).isValidChar := by unfold Nat.isValidChar; omega
      simp only [Char.ofNat, dif_pos hv]
      rfl
    constructor
    · rintro rfl; exact .inr hv.symm
    · rintro (rfl | h1)
      · omega
      · rw [h1, Char.ofNat_toNat]
  · next h =>
    constructor
    · exact .inl
    · rintro (rfl | h1)
      · rfl
      · omega

private theorem same_iff (s : List Char) (w : String) (hw : ∀ d ∈ w.toList, 97 ≤ d.toNat ∧ d.toNat ≤ 122) :
    s.map lower = w.toList ↔ SameLetters s w := by
  unfold SameLetters
  generalize w.toList = w at *
  induction w generalizing s with
  | nil => simp
  | cons d w ih =>
    cases s with
    | nil => simp
    | cons c s =>
      have := ih s (fun x hx => hw x (by simp [hx]))
      simp only [List.map_cons, List.cons.injEq, lower_iff c d (hw d (by simp)), this, List.length_cons, Nat.add_right_cancel_iff,
        List.zip_cons_cons, List.forall_mem_cons]
      constructor
      · rintro ⟨a, b, c⟩; exact ⟨b, a, c⟩
      · rintro ⟨b, a, c⟩; exact ⟨a, b, c⟩

/-- One of the words that are read as infinite or not a number -/
private theorem special_iff (neg : Bool) (s : List Char) (x : F32) : parseSpecial neg s = some x ↔
    (SameLetters s "nan" ∧ x = .nan) ∨ ((SameLetters s "inf" ∨ SameLetters s "infinity") ∧ x = .inf neg) := by
  have h1 := same_iff s "nan" (by decide)
  have h2 := same_iff s "inf" (by decide)
  have h3 := same_iff s "infinity" (by decide)
  have h4 : (s.map lower = "inf".toList ∨ s.map lower = "infinity".toList) ↔ (SameLetters s "inf" ∨ SameLetters s "infinity") := by
    rw [h2, h3]
  unfold parseSpecial
  have ne : SameLetters s "nan" → ¬ (SameLetters s "inf" ∨ SameLetters s "infinity") := by
    rw [← h1, ← h2, ← h3]
    intro e
    rw [e]
    decide
  split
  · next h =>
    rw [h1] at h
    simp [h, ne h, eq_comm]
  · next h =>
    rw [h1] at h
    split
    · next h' =>
      rw [h4] at h'
      simp [h, h', eq_comm]
    · next h' =>
      rw [h4] at h'
      simp [h, h']

private theorem rounded (neg : Bool) (m : Nat) (e : Int) : Rounded neg m e (ofDecimal neg m e) := by
  unfold Rounded ofDecimal
  split
  · next h =>
    obtain ⟨a, b, c⟩ := C46_nearest (m * 10 ^ e.toNat * ONE) 1 (by decide)
    rw [show (-e).toNat = 0 by omega, Nat.pow_zero]
    exact ⟨_, ⟨a, b, c⟩, rfl⟩
  · next h =>
    obtain ⟨a, b, c⟩ := C46_nearest (m * ONE) (10 ^ (-e).toNat) (Nat.pow_pos (by decide))
    rw [show e.toNat = 0 by omega, Nat.pow_zero, Nat.mul_one]
    exact ⟨_, ⟨a, b, c⟩, rfl⟩

private theorem parse_sign {sg t : List Char} {neg : Bool} (h : Sign sg neg) (ht : t ≠ []) (hm : ∀ r, t ≠ '-' :: r) (hp : ∀ r, t ≠ '+' :: r) :
    F32.parse (sg ++ t) = parseBody neg t := by
  cases h with
  | none =>
    rw [List.nil_append]
    unfold F32.parse
    split
    · contradiction
    · exact absurd rfl (hm _)
    · exact absurd rfl (hp _)
    · rfl
  | plus => rfl
  | minus => rfl

private theorem sign_of (s : List Char) (hs : s ≠ []) : ∃ sg neg t, Sign sg neg ∧ s = sg ++ t ∧ F32.parse s = parseBody neg t := by
  unfold F32.parse
  split
  · contradiction
  · exact ⟨_, _, _, .minus, rfl, rfl⟩
  · exact ⟨_, _, _, .plus, rfl, rfl⟩
  · exact ⟨_, _, _, .none, rfl, rfl⟩

private theorem word_head {t : List Char} {w : String} (hw : w = "nan" ∨ w = "inf" ∨ w = "infinity") (h : SameLetters t w) :
    t ≠ [] ∧ (∀ r, t ≠ '-' :: r) ∧ (∀ r, t ≠ '+' :: r) ∧ (∀ neg, parseDecimal neg t = none) := by
  have hl : ∀ d ∈ w.toList, 97 ≤ d.toNat ∧ d.toNat ≤ 122 := by rcases hw with rfl | rfl | rfl <;> decide
  have hne : w.toList ≠ [] := by rcases hw with rfl | rfl | rfl <;> decide
  have hm := (same_iff t w hl).2 h
  have hh : ∀ c r, t = c :: r → 65 ≤ c.toNat ∧ lower c ∈ w.toList.head? := by
    rintro c r rfl
    rw [List.map_cons] at hm
    have h1 := hl (lower c) (by rw [← hm]; simp)
    refine ⟨?_, by rw [← hm]; simp⟩
    rcases (lower_iff c _ h1).1 rfl with e | e
    · have := congrArg Char.toNat e
      omega
    · omega
  refine ⟨?_, ?_, ?_, ?_⟩
  · rintro rfl; exact hne hm.symm
  · rintro r rfl; exact absurd (hh _ _ rfl).1 (by decide)
  · rintro r rfl; exact absurd (hh _ _ rfl).1 (by decide)
  · intro neg
    match hp : parseDecimal neg t with
    | none => rfl
    | some x =>
      obtain ⟨ds, f, fs, u, e, h1, h2, h3, h4, rfl, -⟩ := (parseDecimal_iff _ _ _).1 hp
      cases ds with
      | cons c ds =>
        have := (hh c _ rfl).1
        have := (h1 c (by simp)).2
        rw [show '9'.toNat = 57 from rfl] at this
        omega
      | nil =>
        cases h2 with
        | none => exact absurd rfl h3
        | point => exact absurd (hh '.' _ rfl).1 (by decide)

private theorem parse_written {sg ds f fs x : List Char} {neg : Bool} {e : Int} (h1 : Sign sg neg) (h2 : ∀ c ∈ ds, IsDigit c)
    (h3 : Fraction f fs) (h4 : ds ++ fs ≠ []) (h5 : Exponent x e) :
    F32.parse (sg ++ (ds ++ (f ++ x))) = .ok (ofDecimal neg (numeralValue (ds ++ fs)) (e - fs.length)) := by
  have hb := (parseDecimal_iff neg (ds ++ (f ++ x)) _).2 ⟨ds, f, fs, x, e, h2, h3, h4, h5, rfl, rfl⟩
  have hd : ∀ c r, ds ++ (f ++ x) = c :: r → IsDigit c ∨ c = '.' := by
    intro c r e
    cases ds with
    | cons d ds => simp only [List.cons_append, List.cons.injEq] at e; exact .inl (e.1 ▸ h2 d (by simp))
    | nil =>
      cases h3 with
      | none => exact absurd rfl h4
      | point => simp only [List.nil_append, List.cons_append, List.cons.injEq] at e; exact .inr e.1.symm
  rw [parse_sign h1]
  · simp only [parseBody, hb]
  · intro e
    rw [List.append_eq_nil_iff] at e
    obtain ⟨rfl, e⟩ := e
    cases h3 with
    | none => exact h4 rfl
    | point => cases e
  · intro r e
    have := hd _ _ e
    revert this
    unfold IsDigit
    decide
  · intro r e
    have := hd _ _ e
    revert this
    unfold IsDigit
    decide

/-- C68: which texts the percent field reads as numbers, and as which: decimal fractions,
with or without exponent, as the nearest binary32 number; the words of infinity and of not
a number in any mixture of cases; nothing else. -/
theorem C68_reads (s : List Char) :
    (∀ neg m e, WritesDecimal s neg m e → ∃ x, F32.parse s = .ok x ∧ Rounded neg m e x) ∧
    (∀ sg neg t, Sign sg neg → s = sg ++ t → (SameLetters t "nan" → F32.parse s = .ok .nan) ∧
      (SameLetters t "inf" ∨ SameLetters t "infinity" → F32.parse s = .ok (.inf neg))) ∧
    ((∀ neg m e, ¬ WritesDecimal s neg m e) →
      (∀ sg neg t, Sign sg neg → s = sg ++ t → ∀ w ∈ ["nan", "inf", "infinity"], ¬ SameLetters t w) →
      F32.parse s = .error (if s = [] then .empty else .invalid)) := by
  refine ⟨?_, ?_, ?_⟩
  · intro neg m e h
    cases h with
    | @mk sg ds f fs x neg e h1 h2 h3 h4 h5 =>
      exact ⟨_, parse_written h1 h2 h3 h4 h5, rounded neg _ _⟩
  · rintro sg neg t h1 rfl
    refine ⟨fun h => ?_, fun h => ?_⟩
    · obtain ⟨a, b, c, d⟩ := word_head (.inl rfl) h
      rw [parse_sign h1 a b c]
      simp only [parseBody, d, (special_iff neg t .nan).2 (.inl ⟨h, rfl⟩)]
    · have : t ≠ [] ∧ (∀ r, t ≠ '-' :: r) ∧ (∀ r, t ≠ '+' :: r) ∧ (∀ neg, parseDecimal neg t = none) := by
        rcases h with h | h
        · exact word_head (.inr (.inl rfl)) h
        · exact word_head (.inr (.inr rfl)) h
      obtain ⟨a, b, c, d⟩ := this
      rw [parse_sign h1 a b c]
      simp only [parseBody, d, (special_iff neg t (.inf neg)).2 (.inr ⟨h, rfl⟩)]
  · intro h1 h2
    by_cases hs : s = []
    · subst hs; rfl
    · rw [if_neg hs]
      obtain ⟨sg, neg, t, g1, g2, g3⟩ := sign_of s hs
      rw [g3, parseBody]
      split
      · next x hx =>
        obtain ⟨ds, f, fs, u, e, k1, k2, k3, k4, rfl, -⟩ := (parseDecimal_iff _ _ _).1 hx
        subst g2
        exact absurd (.mk g1 k1 k2 k3 k4) (h1 _ _ _)
      · split
        · next x hx =>
          have := h2 sg neg t g1 g2
          rcases (special_iff neg t x).1 hx with ⟨h, -⟩ | ⟨h | h, -⟩
          · exact absurd h (this _ (by simp))
          · exact absurd h (this _ (by simp))
          · exact absurd h (this _ (by simp))
        · rfl

example : WritesDecimal "-1.25e1".toList true 125 (-1) :=
  .mk (sg := ['-']) (ds := ['1']) (f := ['.', '2', '5']) (fs := ['2', '5']) (x := "e1".toList) .minus (by simp [IsDigit]) (.point (by simp [IsDigit])) (by decide)
    (.some (sg := []) (ds := ['1']) (.inl rfl) .none ⟨by decide, by simp [IsDigit]⟩)

example : F32.parse "-1.25e1".toList = .ok (.fin true (25 * 2 ^ 148)) ∧ F32.parse "1.5%".toList = .error .invalid ∧
    F32.parse "iNfinity".toList = .ok (.inf false) := by decide +kernel

/-! ## What is shown is read back -/

private theorem numeral_append (a b : List Char) : numeralValue (a ++ b) = numeralValue a * 10 ^ b.length + numeralValue b := by
  induction a with
  | nil => simp [numeralValue]
  | cons c a ih => rw [List.cons_append, numeralValue, ih, numeralValue, List.length_append, Nat.pow_add, Nat.add_mul, ← Nat.mul_assoc, Nat.add_assoc]

private theorem lastDigits_spec (m k : Nat) :
    (∀ c ∈ lastDigits m k, IsDigit c) ∧ (lastDigits m k).length = k ∧ numeralValue (lastDigits m k) = m % 10 ^ k := by
  induction k generalizing m with
  | zero => simp [lastDigits, numeralValue, Nat.mod_one]
  | succ k ih =>
    obtain ⟨h1, h2, h3⟩ := ih (m / 10)
    have hd := digit_ofNat (m % 10) (Nat.mod_lt _ (by decide))
    refine ⟨?_, ?_, ?_⟩
    · intro c hc
      simp only [lastDigits, List.mem_append, List.mem_singleton] at hc
      rcases hc with hc | rfl
      · exact h1 c hc
      · change 48 ≤ _ ∧ _ ≤ 57
        omega
    · simp [lastDigits, h2]
    · rw [lastDigits, numeralValue_append, h3, hd, show '0'.toNat = 48 from rfl, Nat.pow_succ]
      have := Nat.mod_mul_left_div_self m 10 (10 ^ k)
      have e : m % (10 ^ k * 10) = m / 10 % 10 ^ k * 10 + m % 10 := by
        rw [Nat.mul_comm (10 ^ k), Nat.mod_mul]
        omega
      omega

private theorem parse_positional (m j : Nat) : F32.parse (positional m ((j : Int) - 3)) = .ok (ofDecimal false m ((j : Int) - 3)) := by
  have plain : ∀ {n : Nat} {t : List Char} {x : F32}, parseDecimal false (decimal n ++ t) = some x → F32.parse (decimal n ++ t) = .ok x := by
    intro n t x h
    have hn := (decimal_spec n).1
    have := parse_sign (t := decimal n ++ t) .none
      (by intro e; exact hn.1 (List.append_eq_nil_iff.1 e).1)
      (by
        intro r e
        cases hd : decimal n with
        | nil => exact hn.1 hd
        | cons c cs =>
          rw [hd, List.cons_append, List.cons.injEq] at e
          exact (head_numeral hn).1 cs (by rw [hd, e.1]))
      (by
        intro r e
        cases hd : decimal n with
        | nil => exact hn.1 hd
        | cons c cs =>
          rw [hd, List.cons_append, List.cons.injEq] at e
          exact (head_numeral hn).2 cs (by rw [hd, e.1]))
    rw [List.nil_append] at this
    rw [this]
    simp only [parseBody, h]
  unfold positional
  split
  · next h =>
    have := (parseDecimal_iff false (decimal (m * 10 ^ ((j : Int) - 3).toNat) ++ []) _).2
      ⟨decimal (m * 10 ^ ((j : Int) - 3).toNat), [], [], [], 0, (decimal_spec _).1.2, .none, by simpa using (decimal_spec _).1.1, .none, by simp, rfl⟩
    have := plain this
    rw [List.append_nil, (decimal_spec _).2] at this
    rw [this]
    unfold ofDecimal
    rw [if_pos h]
    simp
  · next h =>
    obtain ⟨l1, l2, l3⟩ := lastDigits_spec m (-((j : Int) - 3)).toNat
    have := (parseDecimal_iff false (decimal (m / 10 ^ (-((j : Int) - 3)).toNat) ++ '.' :: lastDigits m (-((j : Int) - 3)).toNat) _).2
      ⟨decimal (m / 10 ^ (-((j : Int) - 3)).toNat), '.' :: _, _, [], 0, (decimal_spec _).1.2, .point l1, by
        intro e
        exact (decimal_spec _).1.1 (List.append_eq_nil_iff.1 e).1, .none, by rw [List.append_nil], rfl⟩
    rw [plain this, numeral_append, (decimal_spec _).2, l2, l3, Nat.mul_comm, Nat.div_add_mod]
    congr 2
    omega

/-- C68: what is shown of a rate is read as the very number it was made from. -/
theorem C68_same (v : Nat) (hv : v ≤ 65535) : F32.parse (Percent.toText ⟨v⟩) = .ok (Percent.toF32 ⟨v⟩) := by
  rcases Nat.eq_zero_or_pos v with rfl | h0
  · decide +kernel
  · have hf : Percent.toF32 ⟨v⟩ = ofUnits false (roundUnits (v * ONE) 1000) := rfl
    obtain ⟨j, j1, j2, j3⟩ := shortest_eq h0 hv
    have hp := positional_text j1 j2
    rw [C68_shown v hv, ← hp, parse_positional, ofDecimal_thousandths, hf]
    have hd := Nat.div_add_mod v (10 ^ j)
    rw [j1, Nat.mul_comm, Nat.add_zero] at hd
    rw [hd]

example : Percent.toText ⟨1500⟩ = "1.5".toList ∧ F32.parse "1.5".toList = .ok (.fin false (3 * 2 ^ 148)) ∧
    Percent.toF32 ⟨1500⟩ = .fin false (3 * 2 ^ 148) := by decide +kernel

/-- C68 (partial: the claim is false for ten rates, see `C68_roundtrip_false`): what is
shown of a rate, put into the percent field, gives the same rate, except for ten rates,
which lose a thousandth. -/
theorem C68_roundtrip_partial (v : Nat) (hv : v ≤ 2000) : fieldPercent F32.parse (Percent.toText ⟨v⟩) =
    .ok (.ok (some ⟨if v ∈ [251, 253, 502, 506, 511, 1004, 1009, 1012, 1017, 1022] then v - 1 else v⟩)) := by
  have hne : Percent.toText ⟨v⟩ ≠ [] := by
    intro e
    have := C68_same v (by omega)
    rw [e] at this
    cases this
  simp only [fieldPercent, if_neg hne, C68_same v (by omega)]
  split
  · next h => rw [(C46_rate_partial v hv).2 h]
  · next h => rw [(C46_rate_partial v hv).1 h]

example : fieldPercent F32.parse (Percent.toText ⟨750⟩) = .ok (.ok (some ⟨750⟩)) := C68_roundtrip_partial 750 (by decide)

/-- C68, negation: the field shows 1.004, and reads it as 1.003. -/
theorem C68_roundtrip_false : Percent.toText ⟨1004⟩ = "1.004".toList ∧
    fieldPercent F32.parse "1.004".toList = .ok (.ok (some ⟨1003⟩)) := by decide +kernel

example : fieldPercent F32.parse "0.253".toList = .ok (.ok (some ⟨252⟩)) ∧ fieldPercent F32.parse "0.254".toList = .ok (.ok (some ⟨254⟩)) := by
  decide +kernel

/-! ## What is entered -/

private theorem units_small {a b : Nat} (hb : 0 < b) (h : a < 2 ^ 23 * b) : roundUnits a b ≤ 2 ^ 23 := by
  have hq : a / b < 2 ^ 23 := (Nat.div_lt_iff_lt_mul hb).2 h
  have ht : (a / b).log2 - 23 = 0 := by
    rcases Nat.eq_zero_or_pos (a / b) with e | e
    · rw [e]; simp
    · have := (Nat.log2_lt (by omega)).2 hq
      omega
  simp only [roundUnits, ht, Nat.pow_zero, Nat.mul_one, roundDiv]
  split
  · omega
  · split
    · omega
    · split <;> omega

private theorem ofF32_fin {u : Nat} (hu : ¬ 2 * ONE < u) (hu1 : u < 2 ^ 277) (hp : roundUnits (u * (1000 * ONE)) ONE < 2 ^ 277) :
    (Percent.ofF32 (ofUnits false u)).value = asU16 (F32.fin false (roundUnits (u * (1000 * ONE)) ONE)).asI32 := by
  simp only [Percent.ofF32, ofUnits, if_pos hu1, isNan, ltZero, gtConst, F32.mul, if_pos hp, Bool.false_eq_true, if_false, Bool.false_and,
    Bool.not_false, Bool.true_and, decide_eq_true_eq, if_neg hu, bne_self_eq_false]

/-- Storing the number nearest to `A / B` -/
private theorem stored (A B : Nat) (hB : 0 < B) :
    let r := (Percent.ofF32 (ofUnits false (roundUnits (A * ONE) B))).value
    2000000 * (r * B) ≤ 2000001 * (1000 * A) ∧ (r = 2000 ∨ 1999999 * (1000 * A) < 2000000 * ((r + 1) * B)) := by
  have ho : 0 < ONE := Nat.two_pow_pos _
  intro r
  by_cases hsmall : A * ONE < 2 ^ 23 * B
  · -- next to nothing
    have hu := units_small hB hsmall
    have hA : 1999999 * (1000 * A) < 2000000 * B := by
      have : A * 2 ^ 126 < B := by
        refine Nat.lt_of_mul_lt_mul_left (a := 2 ^ 23) ?_
        refine Nat.lt_of_le_of_lt ?_ hsmall
        rw [show (ONE : Nat) = 2 ^ 126 * 2 ^ 23 from rfl]
        generalize (2 : Nat) ^ 126 = x
        generalize (2 : Nat) ^ 23 = y
        exact Nat.le_of_eq (by ac_rfl)
      have h2 : (2 : Nat) ^ 31 ≤ 2 ^ 126 := Nat.pow_le_pow_right (by decide) (by decide)
      have : A * 2 ^ 31 < B := Nat.lt_of_le_of_lt (Nat.mul_le_mul_left A h2) this
      omega
    have hr : r = 0 := by
      show (Percent.ofF32 (ofUnits false (roundUnits (A * ONE) B))).value = 0
      generalize roundUnits (A * ONE) B = u at hu
      have hu1 : u < 2 ^ 277 := Nat.lt_of_le_of_lt hu (by decide)
      have hu2 : ¬ 2 * ONE < u := Nat.not_lt.2 (Nat.le_trans hu (by decide))
      have hp : roundUnits (u * (1000 * ONE)) ONE ≤ 2 ^ 40 := by
        have e := roundUnits_scale (u * 1000) 1 ONE ho
        rw [Nat.one_mul, Nat.mul_assoc] at e
        rw [e]
        by_cases h0 : 2 ^ 23 * 1 ≤ u * 1000
        · have := (roundUnits_near (u * 1000) 1 (by decide) h0).2
          omega
        · have := units_small (a := u * 1000) (b := 1) (by decide) (Nat.lt_of_not_le h0)
          omega
      have hp0 : roundUnits (u * (1000 * ONE)) ONE / ONE = 0 :=
        Nat.div_eq_of_lt (Nat.lt_of_le_of_lt hp (by decide +kernel))
      have hp1 : roundUnits (u * (1000 * ONE)) ONE < 2 ^ 277 := Nat.lt_of_le_of_lt hp (by decide)
      rw [ofF32_fin hu2 hu1 hp1, asI32, hp0]
      rfl
    rw [hr]
    refine ⟨by omega, .inr (by omega)⟩
  · obtain ⟨n1, n2⟩ := roundUnits_near (A * ONE) B hB (by omega)
    revert r
    generalize roundUnits (A * ONE) B = u at n1 n2
    intro r
    by_cases hbig : 2 * ONE < u
    · have hr : r = 2000 := by
        show (Percent.ofF32 (ofUnits false u)).value = 2000
        unfold ofUnits
        split
        · exact congrArg Percent.value ((C46_special false u).2.2.2.2.1 hbig)
        · rfl
      refine ⟨?_, .inl hr⟩
      rw [hr]
      have : 2 * B * 2 ^ 24 ≤ (2 ^ 24 + 1) * A := by
        refine Nat.le_of_mul_le_mul_right (c := ONE) ?_ ho
        calc 2 * B * 2 ^ 24 * ONE = 2 * ONE * B * 2 ^ 24 := by generalize ONE = o; generalize (2 : Nat) ^ 24 = t; ac_rfl
          _ ≤ u * B * 2 ^ 24 := Nat.mul_le_mul_right _ (Nat.mul_le_mul_right _ (Nat.le_of_lt hbig))
          _ ≤ (2 ^ 24 + 1) * (A * ONE) := n2
          _ = (2 ^ 24 + 1) * A * ONE := by rw [Nat.mul_assoc]
      omega
    · have hu22 : 2 ^ 22 ≤ u := by
        have h1 : (2 ^ 24 - 1) * (2 ^ 23 * B) ≤ u * B * 2 ^ 24 :=
          Nat.le_trans (Nat.mul_le_mul_left _ (by omega)) n1
        have h2 : (2 ^ 24 - 1) * 2 ^ 23 ≤ u * 2 ^ 24 := by
          refine Nat.le_of_mul_le_mul_right (c := B) ?_ hB
          calc (2 ^ 24 - 1) * 2 ^ 23 * B = (2 ^ 24 - 1) * (2 ^ 23 * B) := by rw [Nat.mul_assoc]
            _ ≤ _ := h1
            _ = u * 2 ^ 24 * B := by generalize (2 : Nat) ^ 24 = t; ac_rfl
        omega
      have e := roundUnits_scale (u * 1000) 1 ONE ho
      rw [Nat.one_mul, Nat.mul_assoc] at e
      obtain ⟨p1, p2⟩ := roundUnits_near (u * 1000) 1 (by decide) (by omega)
      rw [← e, Nat.mul_one] at p1 p2
      have hp1 : roundUnits (u * (1000 * ONE)) ONE < 2 ^ 277 := by
        have h1 : u * 1000 ≤ 2 ^ 160 := by
          refine Nat.le_trans (Nat.mul_le_mul_right 1000 (Nat.not_lt.1 hbig)) (by decide)
        have h2 : (2 ^ 24 + 1) * (u * 1000) ≤ 2 ^ 200 := Nat.le_trans (Nat.mul_le_mul_left _ h1) (by decide)
        have h3 : roundUnits (u * (1000 * ONE)) ONE ≤ roundUnits (u * (1000 * ONE)) ONE * 2 ^ 24 :=
          Nat.le_mul_of_pos_right _ (by decide)
        exact Nat.lt_of_le_of_lt (Nat.le_trans h3 (Nat.le_trans p2 h2)) (by decide)
      have hu1 : u < 2 ^ 277 := Nat.lt_of_le_of_lt (Nat.not_lt.1 hbig) (by decide)
      have hr : r = asU16 (F32.fin false (roundUnits (u * (1000 * ONE)) ONE)).asI32 := by
        exact ofF32_fin hbig hu1 hp1
      clear_value r
      obtain ⟨p, hpe⟩ : ∃ p, p = roundUnits (u * (1000 * ONE)) ONE := ⟨_, rfl⟩
      rw [← hpe] at hr p1 p2
      clear hpe hp1 e
      have e1 := Nat.div_mul_le_self p ONE
      have e2 := Nat.lt_div_mul_add (a := p) ho
      simp only [asI32, asU16, I32_MAX] at hr
      generalize p / ONE = w at e1 e2 hr
      have hw : w ≤ 60000 := by
        have : w * 2 ^ 24 ≤ (2 ^ 24 + 1) * 2000 := by
          refine Nat.le_of_mul_le_mul_right (c := ONE) ?_ ho
          calc w * 2 ^ 24 * ONE = w * ONE * 2 ^ 24 := by generalize ONE = o; generalize (2 : Nat) ^ 24 = t; ac_rfl
            _ ≤ p * 2 ^ 24 := Nat.mul_le_mul_right _ e1
            _ ≤ (2 ^ 24 + 1) * (u * 1000) := p2
            _ ≤ (2 ^ 24 + 1) * (2 * ONE * 1000) := Nat.mul_le_mul_left _ (Nat.mul_le_mul_right _ (Nat.not_lt.1 hbig))
            _ = (2 ^ 24 + 1) * 2000 * ONE := by
              rw [show (2000 : Nat) = 2 * 1000 from rfl]; generalize ONE = o; generalize (2 : Nat) ^ 24 + 1 = t; ac_rfl
        omega
      have hrw : r = w := by rw [hr]; omega
      rw [hrw]
      have up : w * B * (2 ^ 24 * 2 ^ 24) ≤ (2 ^ 24 + 1) * (2 ^ 24 + 1) * (1000 * A) := by
        refine Nat.le_of_mul_le_mul_right (c := ONE) ?_ ho
        generalize (2 : Nat) ^ 24 + 1 = hi at *
        generalize (2 : Nat) ^ 24 = H at *
        calc w * B * (H * H) * ONE = w * ONE * (B * H * H) := by generalize ONE = o; ac_rfl
          _ ≤ p * (B * H * H) := Nat.mul_le_mul_right _ e1
          _ = p * H * (B * H) := by ac_rfl
          _ ≤ hi * (u * 1000) * (B * H) := Nat.mul_le_mul_right _ p2
          _ = hi * 1000 * (u * B * H) := by ac_rfl
          _ ≤ hi * 1000 * (hi * (A * ONE)) := Nat.mul_le_mul_left _ n2
          _ = hi * hi * (1000 * A) * ONE := by generalize ONE = o; ac_rfl
      have lo : (2 ^ 24 - 1) * (2 ^ 24 - 1) * (1000 * A) < (w + 1) * B * (2 ^ 24 * 2 ^ 24) := by
        refine Nat.lt_of_mul_lt_mul_right (a := ONE) ?_
        have hH : 0 < 2 ^ 24 := by decide
        generalize (2 : Nat) ^ 24 - 1 = l at *
        generalize (2 : Nat) ^ 24 = H at *
        calc l * l * (1000 * A) * ONE = l * 1000 * (l * (A * ONE)) := by generalize ONE = o; ac_rfl
          _ ≤ l * 1000 * (u * B * H) := Nat.mul_le_mul_left _ n1
          _ = l * (u * 1000) * (B * H) := by ac_rfl
          _ ≤ p * H * (B * H) := Nat.mul_le_mul_right _ p1
          _ = p * (B * H * H) := by ac_rfl
          _ < (w * ONE + ONE) * (B * H * H) := Nat.mul_lt_mul_of_pos_right e2 (Nat.mul_pos (Nat.mul_pos hB hH) hH)
          _ = (w + 1) * B * (H * H) * ONE := by rw [← Nat.succ_mul, Nat.succ_eq_add_one]; generalize ONE = o; ac_rfl
      clear e1 e2 p1 p2 n1 n2 hr
      have c1 : 2000000 * ((2 ^ 24 + 1) * (2 ^ 24 + 1)) ≤ 2000001 * (2 ^ 24 * 2 ^ 24) := by decide
      have c2 : 1999999 * (2 ^ 24 * 2 ^ 24) ≤ 2000000 * ((2 ^ 24 - 1) * (2 ^ 24 - 1)) := by decide
      generalize w * B = x at *
      generalize (w + 1) * B = y at *
      omega

/-- C68: what is entered is stored rounded down to thousandths and cut off at 0 and 200 %;
before the rounding down it may be off by one part in two million. -/
theorem C68_entered (s : List Char) (neg : Bool) (m : Nat) (e : Int) (h : WritesDecimal s neg m e) :
    ∃ r ≤ 2000, fieldPercent F32.parse s = .ok (.ok (some ⟨r⟩)) ∧ (neg = true → r = 0) ∧
      (neg = false → 2000000 * (r * 10 ^ (-e).toNat) ≤ 2000001 * (1000 * (m * 10 ^ e.toNat)) ∧
        (r = 2000 ∨ 1999999 * (1000 * (m * 10 ^ e.toNat)) < 2000000 * ((r + 1) * 10 ^ (-e).toNat))) := by
  cases h with
  | @mk sg ds f fs x neg e h1 h2 h3 h4 h5 =>
    generalize hm : numeralValue (ds ++ fs) = m
    generalize hE : e - (fs.length : Int) = E
    have hs : sg ++ (ds ++ (f ++ x)) ≠ [] := by
      intro hc
      have := (List.append_eq_nil_iff.1 (List.append_eq_nil_iff.1 hc).2)
      rw [this.1, List.nil_append] at h4
      have h6 := (List.append_eq_nil_iff.1 this.2).1
      cases h3 with
      | none => exact h4 rfl
      | point => cases h6
    have hp := parse_written h1 h2 h3 h4 h5
    rw [hm, hE] at hp
    refine ⟨(Percent.ofF32 (ofDecimal neg m E)).value, C46_range _, ?_, ?_, ?_⟩
    · simp only [fieldPercent, if_neg hs, hp]
    · rintro rfl
      have neg0 : ∀ u, (Percent.ofF32 (ofUnits true u)).value = 0 := by
        intro u
        unfold ofUnits
        split
        · rcases Nat.eq_zero_or_pos u with rfl | h0
          · rfl
          · exact congrArg Percent.value ((C46_special true u).2.2.2.1 h0)
        · rfl
      unfold ofDecimal
      split <;> exact neg0 _
    · rintro rfl
      have hd : ofDecimal false m E = ofUnits false (roundUnits (m * 10 ^ E.toNat * ONE) (10 ^ (-E).toNat)) := by
        unfold ofDecimal
        split
        · next h => rw [show (-E).toNat = 0 by omega, Nat.pow_zero]
        · next h => rw [show E.toNat = 0 by omega, Nat.pow_zero, Nat.mul_one]
      rw [hd]
      exact stored _ _ (Nat.pow_pos (by decide))

example : WritesDecimal "0.1239".toList false 1239 (-4) ∧ fieldPercent F32.parse "0.1239".toList = .ok (.ok (some ⟨123⟩)) ∧
    fieldPercent F32.parse "-3e2".toList = .ok (.ok (some ⟨0⟩)) ∧ fieldPercent F32.parse "3e2".toList = .ok (.ok (some ⟨2000⟩)) := by
  refine ⟨?_, by decide +kernel⟩
  exact .mk (sg := []) (ds := ['0']) (f := ['.', '1', '2', '3', '9']) (fs := ['1', '2', '3', '9']) (x := []) .none (by simp [IsDigit])
    (.point (by simp [IsDigit])) (by decide) .none

end Klavier
