import Verif.Spec.JsonGrammar
import Verif.Lemmas.Members
import Verif.Props.Strings

/-! # The reader and the grammar of JSON -/
set_option autoImplicit false
namespace Klavier
open Spec
namespace Json

/-! ## Numbers -/

theorem digits_split (s : List Char) : ∃ ds r, s = ds ++ r ∧ s.takeWhile isDigit = ds ∧ s.dropWhile isDigit = r ∧
    (∀ c ∈ ds, IsDigit c) :=
  ⟨s.takeWhile isDigit, s.dropWhile isDigit, List.takeWhile_append_dropWhile.symm, rfl, rfl,
    fun c hc => (isDigit_iff c).1 (takeWhile_mem hc)⟩

theorem exponent_sound {s a r : List Char} (h : exponent s = some (a, r)) :
    ∃ sign ds, sign ∈ [[], ['+'], ['-']] ∧ IsNumeral ds ∧ a = sign ++ ds ∧ s = sign ++ ds ++ r := by
  have key : ∀ (sign u : List Char), sign ∈ [[], ['+'], ['-']] →
      (if (u.takeWhile isDigit).isEmpty then none else some (sign ++ u.takeWhile isDigit, u.dropWhile isDigit)) = some (a, r) →
      ∃ ds, IsNumeral ds ∧ a = sign ++ ds ∧ u = ds ++ r := by
    intro sign u _ h
    obtain ⟨ds, t, e, e1, e2, e3⟩ := digits_split u
    rw [e1, e2] at h
    split at h
    · cases h
    · next hne =>
      cases h
      exact ⟨ds, ⟨by simpa using hne, e3⟩, rfl, e⟩
  unfold exponent at h
  split at h
  · next s' s u e =>
    split at e
    all_goals
      cases e
      obtain ⟨ds, h1, h2, h3⟩ := key _ _ (by simp) h
      exact ⟨_, ds, by simp, h1, h2, by simp [h3]⟩

theorem exponent_complete {sign ds r : List Char} (h1 : sign ∈ [[], ['+'], ['-']]) (h2 : IsNumeral ds) (hr : Stops r) :
    exponent (sign ++ ds ++ r) = some (sign ++ ds, r) := by
  obtain ⟨e1, e2⟩ := takeWhile_digits (r := r) h2.2 (fun c hc => (hr c hc).1)
  have hne : ds.isEmpty = false := by cases ds <;> simp_all [IsNumeral]
  simp only [List.mem_cons, List.not_mem_nil, or_false] at h1
  rcases h1 with rfl | rfl | rfl
  · match ds, h2 with
    | c :: ds, h2 =>
      have hc := h2.2 c (by simp)
      have h3 : c ≠ '-' := digit_not_minus hc
      have h4 : c ≠ '+' := by rintro rfl; revert hc; unfold IsDigit; decide
      unfold exponent
      simp only [List.nil_append, List.cons_append] at e1 e2 ⊢
      split
      · next e => cases e; exact absurd rfl h4
      · next e => cases e; exact absurd rfl h3
      · simp only [e1, e2]; rfl
  · simp [exponent, e1, e2, hne]
  · simp [exponent, e1, e2, hne]

theorem fraction_sound {s f r : List Char} (h : fraction s = some (f, r)) :
    ∃ fr ex ex', Frac fr ∧ Exp ex ex' ∧ f = fr ++ ex' ∧ s = fr ++ ex ++ r := by
  have key : ∀ (fr u : List Char) (e : Char), Frac fr → e = 'e' ∨ e = 'E' →
      (exponent u).map (fun (a, b) => (fr ++ 'e' :: a, b)) = some (f, r) →
      ∃ ex ex', Exp ex ex' ∧ f = fr ++ ex' ∧ e :: u = ex ++ r := by
    intro fr u e _ he h
    obtain ⟨⟨a, b⟩, h1, h2⟩ := Option.map_eq_some_iff.1 h
    cases h2
    obtain ⟨sign, ds, h3, h4, rfl, rfl⟩ := exponent_sound h1
    exact ⟨_, _, .some he h3 h4, rfl, by simp⟩
  unfold fraction at h
  split at h
  · next s =>
    obtain ⟨ds, t, e, e1, e2, e3⟩ := digits_split s
    simp only [e1, e2] at h
    split at h
    · cases h
    next hne =>
    have hf : Frac ('.' :: ds) := .some ⟨by simpa using hne, e3⟩
    split at h
    · obtain ⟨ex, ex', h1, h2, h3⟩ := key _ _ 'e' hf (.inl rfl) h
      exact ⟨_, ex, ex', hf, h1, h2, by rw [e, h3]; simp⟩
    · obtain ⟨ex, ex', h1, h2, h3⟩ := key _ _ 'E' hf (.inr rfl) h
      exact ⟨_, ex, ex', hf, h1, h2, by rw [e, h3]; simp⟩
    · cases h
      exact ⟨_, [], [], hf, .none, by simp, by rw [e]; simp⟩
  · obtain ⟨ex, ex', h1, h2, h3⟩ := key [] _ 'e' .none (.inl rfl) h
    exact ⟨_, ex, ex', .none, h1, h2, h3⟩
  · obtain ⟨ex, ex', h1, h2, h3⟩ := key [] _ 'E' .none (.inr rfl) h
    exact ⟨_, ex, ex', .none, h1, h2, h3⟩
  · cases h
    exact ⟨[], [], [], .none, .none, rfl, rfl⟩

theorem fraction_complete {fr ex ex' r : List Char} (h1 : Frac fr) (h2 : Exp ex ex') (hr : Stops r) :
    fraction (fr ++ ex ++ r) = some (fr ++ ex', r) := by
  cases h1 with
  | none =>
    cases h2 with
    | none => exact fraction_stops hr
    | some he hs hd =>
      have := exponent_complete hs hd hr
      rcases he with rfl | rfl <;> simp [fraction, List.append_assoc] <;> simpa using this
  | some hd =>
    rename_i ds
    have hne : ds.isEmpty = false := by cases ds <;> simp_all [IsNumeral]
    cases h2 with
    | none =>
      obtain ⟨e1, e2⟩ := takeWhile_digits (r := r) hd.2 (fun c hc => (hr c hc).1)
      simp only [List.append_nil, List.cons_append, fraction, e1, e2, hne]
      match r with
      | [] => rfl
      | c :: r =>
        obtain ⟨_, _, h3, h4⟩ := hr c rfl
        simp only [Bool.false_eq_true, if_false]
        split
        · next e => cases e; exact absurd rfl h3
        · next e => cases e; exact absurd rfl h4
        · rfl
    | some he hs hd' =>
      rename_i e sign ds'
      have hx := exponent_complete hs hd' hr
      have hst : ∀ c, ((e :: (sign ++ ds')) ++ r).head? = some c → ¬ IsDigit c := by
        intro c hc
        cases hc
        rcases he with rfl | rfl <;> unfold IsDigit <;> decide
      obtain ⟨e1, e2⟩ := takeWhile_digits (r := (e :: (sign ++ ds')) ++ r) hd.2 hst
      rw [← List.append_assoc] at e1 e2
      simp only [List.cons_append, List.append_assoc] at e1 e2 hx
      simp only [List.cons_append, List.append_assoc, fraction, e1, e2, hne]
      rcases he with rfl | rfl <;> simp [hx]

theorem writes_of_run {s : List Char} (h1 : (s.takeWhile isDigit).isEmpty = false) (h2 : leadingZero (s.takeWhile isDigit) = false) :
    WritesJsonNat (s.takeWhile isDigit) (digitsValue (s.takeWhile isDigit)) := by
  have hd : ∀ c ∈ s.takeWhile isDigit, IsDigit c := fun c hc => (isDigit_iff c).1 (takeWhile_mem hc)
  refine ⟨⟨by simpa using h1, hd⟩, (digitsValue_numeral hd).symm, fun h0 => ?_⟩
  match e : s.takeWhile isDigit with
  | [] => rw [e] at h0; cases h0
  | [x] => rfl
  | x :: y :: l =>
    rw [e] at h0 h2
    cases h0
    simp [leadingZero] at h2

theorem signed_sound {over : List Char → Bool} {neg : Bool} {s r : List Char} {n : JsonNum}
    (h : parseDigitsOf over neg s = some (n, r)) : ∃ t, s = t ++ r ∧ Numeral over ((if neg then ['-'] else []) ++ t) n := by
  unfold parseDigitsOf at h
  simp only at h
  split at h
  · cases h
  next hd =>
  simp only [Bool.or_eq_true, not_or, Bool.not_eq_true] at hd
  have hw := writes_of_run hd.1 hd.2
  have hs : s = s.takeWhile isDigit ++ s.dropWhile isDigit := List.takeWhile_append_dropWhile.symm
  generalize s.takeWhile isDigit = ds at hw hs h
  generalize s.dropWhile isDigit = u at hs h
  split at h
  · cases h
  next frac rest hf =>
  obtain ⟨fr, ex, ex', f1, f2, rfl, rfl⟩ := fraction_sound hf
  split at h
  · next hc =>
    simp only [Bool.and_eq_true, decide_eq_true_eq, List.isEmpty_iff, List.append_eq_nil_iff] at hc
    obtain ⟨⟨rfl, rfl⟩, hn⟩ := hc
    cases f2
    simp only [U64_MAX] at hn
    cases neg with
    | false =>
      cases h
      exact ⟨ds, hs, .nat hw (by omega)⟩
    | true =>
      simp only [Bool.not_true, Bool.false_eq_true, if_false, Bool.and_eq_true, decide_eq_true_eq] at h
      split at h
      · next h1 => cases h; exact ⟨ds, hs, .neg hw (by omega) (by omega)⟩
      · next h1 => cases h; exact ⟨ds, hs, .below hw (by omega) (by omega)⟩
  · next hc =>
    by_cases ho : over ((if neg then ['-'] else []) ++ ds ++ (fr ++ ex')) = true
    · rw [if_pos ho] at h; cases h
    rw [if_neg ho] at h
    cases h
    refine ⟨ds ++ (fr ++ ex), by rw [hs]; simp, .real (exp' := ex') (by cases neg <;> simp) hw f1 f2 ?_ ?_⟩
    · simp only [Bool.and_eq_true, decide_eq_true_eq, List.isEmpty_iff, U64_MAX, not_and] at hc
      by_cases he : fr ++ ex = []
      · right
        have : fr ++ ex' = [] := by
          simp only [List.append_eq_nil_iff] at he ⊢
          obtain ⟨rfl, rfl⟩ := he
          cases f2
          exact ⟨rfl, rfl⟩
        have := hc this
        omega
      · exact .inl he
    · simpa using ho

theorem parseNumber_sound {over : List Char → Bool} {s r : List Char} {n : JsonNum}
    (h : parseNumber over s = some (n, r)) : ∃ t, s = t ++ r ∧ Numeral over t n := by
  unfold parseNumber at h
  split at h
  · obtain ⟨t, rfl, h2⟩ := signed_sound h
    exact ⟨'-' :: t, rfl, h2⟩
  · obtain ⟨t, rfl, h2⟩ := signed_sound h
    exact ⟨t, rfl, h2⟩

theorem signed_complete {over : List Char → Bool} {neg : Bool} {ds fr ex ex' r : List Char} {n : Nat}
    (h : WritesJsonNat ds n) (hf : Frac fr) (he : Exp ex ex') (hr : Stops r) (hx : fr ++ ex ≠ [] ∨ 2 ^ 64 ≤ n)
    (ho : over ((if neg then ['-'] else []) ++ ds ++ (fr ++ ex')) = false) :
    parseDigitsOf over neg (ds ++ (fr ++ ex ++ r)) = some (.float, r) := by
  obtain ⟨⟨h1, h2⟩, h3, h4⟩ := h
  have hst : ∀ c, (fr ++ ex ++ r).head? = some c → ¬ IsDigit c := by
    intro c hc
    cases hf with
    | none =>
      cases he with
      | none => exact (hr c hc).1
      | some h _ _ => cases hc; rcases h with rfl | rfl <;> unfold IsDigit <;> decide
    | some _ => cases hc; unfold IsDigit; decide
  obtain ⟨e1, e2⟩ := takeWhile_digits (r := fr ++ ex ++ r) h2 hst
  have hne : ds.isEmpty = false := by cases ds <;> simp_all
  have hc : ((fr ++ ex').isEmpty && decide (n ≤ U64_MAX)) = false := by
    rcases hx with hx | hx
    · have : (fr ++ ex').isEmpty = false := by
        cases hf with
        | some _ => rfl
        | none =>
          cases he with
          | none => exact absurd rfl hx
          | some _ _ _ => rfl
      rw [this]; rfl
    · have : decide (n ≤ U64_MAX) = false := decide_eq_false (by simp only [U64_MAX]; omega)
      rw [this, Bool.and_false]
  unfold parseDigitsOf
  simp only [e1, e2, hne, leading_ok h4, fraction_complete hf he hr, digitsValue_numeral h2, h3, Bool.or_false, Bool.false_eq_true,
    if_false, hc, ho]

theorem parseNumber_complete {over : List Char → Bool} {t r : List Char} {n : JsonNum} (h : Numeral over t n) (hr : Stops r) :
    parseNumber over (t ++ r) = some (n, r) := by
  cases h with
  | nat h hn => exact parseNumber_nat over h (by simp only [U64_MAX]; omega) hr
  | neg h h1 hn => exact parseNumber_neg over h h1 (by omega) hr
  | below h h1 hn =>
    rename_i ds n
    show parseNumber over ('-' :: (ds ++ r)) = _
    rw [parseNumber_minus, parseDigitsOf_numeral over Bool.true h (by simp only [U64_MAX]; omega) hr, if_neg (by simp),
      if_neg (by omega)]
  | real hs h hf he hx ho =>
    rename_i sign ds fr ex ex' n
    simp only [List.mem_cons, List.not_mem_nil, or_false] at hs
    rcases hs with rfl | rfl
    · have e : [] ++ (ds ++ (fr ++ ex)) ++ r = ds ++ (fr ++ ex ++ r) := by simp
      rw [e, parseNumber_plain, signed_complete h hf he hr hx (by simpa using ho)]
      match ds, h with
      | [], h => exact absurd rfl h.1.1
      | c :: ds, h =>
        have := digit_not_minus (h.1.2 c (by simp))
        simpa using this
    · have e : ['-'] ++ (ds ++ (fr ++ ex)) ++ r = '-' :: (ds ++ (fr ++ ex ++ r)) := by simp
      rw [e, parseNumber_minus, signed_complete h hf he hr hx (by simpa using ho)]

/-! ## Values: what is read is JSON -/

theorem tooLarge_refused (over : List Char → Bool) (m : JsonMode) : tooLarge over m = Refused over m := by
  cases m <;> rfl

theorem readStr_iff (m : JsonMode) (t s r : List Char) : readStr m t = some (s, r) ↔ ∃ w, StringText m w s ∧ t = w ++ '"' :: r := by
  cases m with
  | skip =>
    simp only [readStr, StringText, Option.map_eq_some_iff, Prod.mk.injEq, C67_skipped]
    constructor
    · rintro ⟨_, ⟨w, h1, h2⟩, rfl, rfl⟩; exact ⟨w, ⟨h1, rfl⟩, h2⟩
    · rintro ⟨w, ⟨h1, rfl⟩, h2⟩; exact ⟨_, ⟨w, h1, h2⟩, rfl, rfl⟩
  | _ => exact C67_strings _ _ _

theorem parseIdent_sound {v j : Json} {cs s r : List Char} (h : parseIdent v cs s = (j, some r)) : j = v ∧ s = cs ++ r := by
  induction cs generalizing s with
  | nil => cases h; exact ⟨rfl, rfl⟩
  | cons c cs ih =>
    match s with
    | [] => cases h
    | x :: s =>
      rw [parseIdent] at h
      split at h
      · next e => subst e; obtain ⟨h1, h2⟩ := ih h; exact ⟨h1, by rw [h2]; rfl⟩
      · cases h

/-- What `parseElems` may have read. -/
def ElemsRead (over : List Char → Bool) (m : JsonMode) (d : Nat) (first : Bool) (s : List Char) (l : List Json) (r : List Char) : Prop :=
  (∃ w, Blank w ∧ s = w ++ ']' :: r ∧ l = []) ∨
  ∃ w t, Blank w ∧ s = (if first then t ++ ']' :: r else w ++ ',' :: (t ++ ']' :: r)) ∧ Elems over m d t l

/-- What `parseMembers` may have read. -/
def MembersRead (over : List Char → Bool) (m : JsonMode) (d : Nat) (first : Bool) (s : List Char) (l : List (List Char × Json)) (r : List Char) : Prop :=
  (∃ w, Blank w ∧ s = w ++ '}' :: r ∧ l = []) ∨
  ∃ w t, Blank w ∧ s = (if first then t ++ '}' :: r else w ++ ',' :: (t ++ '}' :: r)) ∧ Members over m d t l

theorem elems_blank {over : List Char → Bool} {m : JsonMode} {d : Nat} {t w : List Char} {l : List Json} (hw : Blank w) (h : Elems over m d t l) :
    Elems over m d (w ++ t) l := by
  have app : ∀ {v : List Char}, Blank v → Blank (w ++ v) := fun hv c hc => by
    rcases List.mem_append.1 hc with h | h
    · exact hw c h
    · exact hv c h
  cases h with
  | one h1 h2 h3 => rw [← List.append_assoc]; exact .one (app h1) h2 h3
  | more h1 h2 h3 h4 => rw [← List.append_assoc]; exact .more (app h1) h2 h3 h4

theorem members_blank {over : List Char → Bool} {m : JsonMode} {d : Nat} {t w : List Char} {l : List (List Char × Json)} (hw : Blank w)
    (h : Members over m d t l) : Members over m d (w ++ t) l := by
  have app : ∀ {v : List Char}, Blank v → Blank (w ++ v) := fun hv c hc => by
    rcases List.mem_append.1 hc with h | h
    · exact hw c h
    · exact hv c h
  cases h with
  | one h1 h2 h3 h4 h5 h6 => rw [← List.append_assoc]; exact .one (app h1) h2 h3 h4 h5 h6
  | more h1 h2 h3 h4 h5 h6 h7 => rw [← List.append_assoc]; exact .more (app h1) h2 h3 h4 h5 h6 h7

theorem not_tooDeep {m : JsonMode} {d : Nat} (h : ¬ tooDeep m d = true) : m = .skip ∨ 0 < d - 1 := by
  cases m with
  | skip => exact .inl rfl
  | _ => simp only [tooDeep, decide_eq_true_eq] at h; exact .inr (by omega)

theorem parse_sound (over : List Char → Bool) (fuel : Nat) :
    (∀ m d s j r, parseValue over m fuel d s = (j, some r) → ∃ w t, Blank w ∧ s = w ++ (t ++ r) ∧ JsonText over m (d - 1) t j) ∧
    (∀ m d b s l r, parseElems over m fuel d b s = (l, some r) → ElemsRead over m (d - 1) b s l r) ∧
    (∀ m d b s l r, parseMembers over m fuel d b s = (l, some r) → MembersRead over m (d - 1) b s l r) := by
  induction fuel with
  | zero => exact ⟨fun _ _ _ _ _ h => (by cases h), fun _ _ _ _ _ _ h => (by cases h), fun _ _ _ _ _ _ h => (by cases h)⟩
  | succ fuel ih =>
    obtain ⟨ih1, ih2, ih3⟩ := ih
    refine ⟨?_, ?_, ?_⟩
    · intro m d s j r h
      obtain ⟨w, hs, hw⟩ := skipWs_split s
      rw [parseValue] at h
      split at h
      · cases h
      next c u hu =>
      rw [hu] at hs
      suffices hh : ∃ t, c :: u = t ++ r ∧ JsonText over m (d - 1) t j by
        obtain ⟨t, e, ht⟩ := hh
        exact ⟨w, t, hw, by rw [hs, e], ht⟩
      split at h
      · next hc => subst hc; obtain ⟨rfl, rfl⟩ := parseIdent_sound h; exact ⟨_, rfl, .null⟩
      split at h
      · next hc => subst hc; obtain ⟨rfl, rfl⟩ := parseIdent_sound h; exact ⟨_, rfl, .true⟩
      split at h
      · next hc => subst hc; obtain ⟨rfl, rfl⟩ := parseIdent_sound h; exact ⟨_, rfl, .false⟩
      split at h
      · next hc =>
        subst hc
        split at h
        · next hp =>
          cases h
          obtain ⟨k, hk, rfl⟩ := (readStr_iff _ _ _ _).1 hp
          exact ⟨'"' :: (k ++ ['"']), by simp, .str hk⟩
        · cases h
      split at h
      · next hc =>
        subst hc
        split at h
        · cases h
        next hd =>
        generalize hp : parseElems over m fuel (d - 1) true u = p at h
        obtain ⟨l, o⟩ := p
        cases h
        have hd' := not_tooDeep hd
        rcases ih2 _ _ _ _ _ _ hp with ⟨w, h1, rfl, rfl⟩ | ⟨-, t, -, rfl, h2⟩
        · exact ⟨'[' :: (w ++ [']']), by simp, .noElems hd' h1⟩
        · exact ⟨'[' :: (t ++ [']']), by simp, .arr hd' h2⟩
      split at h
      · next hc =>
        subst hc
        split at h
        · cases h
        next hd =>
        generalize hp : parseMembers over m fuel (d - 1) true u = p at h
        obtain ⟨l, o⟩ := p
        cases h
        have hd' := not_tooDeep hd
        rcases ih3 _ _ _ _ _ _ hp with ⟨w, h1, rfl, rfl⟩ | ⟨-, t, -, rfl, h2⟩
        · exact ⟨'{' :: (w ++ ['}']), by simp, .noMembers hd' h1⟩
        · exact ⟨'{' :: (t ++ ['}']), by simp, .obj hd' h2⟩
      split at h
      · next hp =>
        cases h
        obtain ⟨t, e, ht⟩ := parseNumber_sound hp
        exact ⟨t, e, .num (tooLarge_refused over m ▸ ht)⟩
      · cases h
    · intro m d b s l r h
      obtain ⟨w, hs, hw⟩ := skipWs_split s
      rw [parseElems] at h
      split at h
      · cases h
      next c u hu =>
      rw [hu] at hs
      split at h
      · next hc => subst hc; cases h; exact .inl ⟨w, hw, hs, rfl⟩
      have go : ∀ t, (match parseValue over m fuel d t with
            | (v, none) => ([v], none)
            | (v, some r) => (v :: (parseElems over m fuel d false r).1, (parseElems over m fuel d false r).2)) = (l, some r) →
          ∃ t', t = t' ++ ']' :: r ∧ Elems over m (d - 1) t' l := by
        intro t h
        split at h
        · cases h
        next v r1 hv =>
        obtain ⟨w1, t1, b1, rfl, j1⟩ := ih1 _ _ _ _ _ hv
        generalize hp : parseElems over m fuel d false r1 = p at h
        obtain ⟨l', o⟩ := p
        cases h
        rcases ih2 _ _ _ _ _ _ hp with ⟨w2, h1, rfl, rfl⟩ | ⟨w2, t2, h1, rfl, h2⟩
        · exact ⟨w1 ++ (t1 ++ w2), by simp, .one b1 j1 h1⟩
        · exact ⟨w1 ++ (t1 ++ (w2 ++ ',' :: t2)), by simp, .more b1 j1 h1 h2⟩
      cases b with
      | true =>
        rw [if_pos rfl] at h
        obtain ⟨t', e, ht⟩ := go _ h
        refine .inr ⟨[], w ++ t', fun _ h => (by cases h), ?_, elems_blank hw ht⟩
        rw [if_pos rfl, hs, e, List.append_assoc]
      | false =>
        rw [if_neg (by simp)] at h
        split at h
        · next hc =>
          subst hc
          obtain ⟨w', hs', hw'⟩ := skipWs_split u
          split at h
          · cases h
          · obtain ⟨t', e, ht⟩ := go _ h
            refine .inr ⟨w, w' ++ t', hw, ?_, elems_blank hw' ht⟩
            rw [if_neg (by simp), hs, List.append_assoc, ← e, ← hs']
        · cases h
    · intro m d b s l r h
      obtain ⟨w, hs, hw⟩ := skipWs_split s
      rw [parseMembers] at h
      split at h
      · cases h
      next c u hu =>
      rw [hu] at hs
      split at h
      · next hc => subst hc; cases h; exact .inl ⟨w, hw, hs, rfl⟩
      have go : ∀ t, (match t with
            | '"' :: t =>
              match readStr m t with
              | none => ([([], bad)], none)
              | some (k, t) =>
                match skipWs t with
                | ':' :: t =>
                  match orSkip m (parseValue over m fuel d t) (parseValue over .skip fuel d t).2 with
                  | (v, none) => ([(k, v)], none)
                  | (v, some r) => ((k, v) :: (parseMembers over m fuel d false r).1, (parseMembers over m fuel d false r).2)
                | _ => ([(k, bad)], none)
            | _ => ([([], bad)], none)) = (l, some r) →
          ∃ t', t = t' ++ '}' :: r ∧ Members over m (d - 1) t' l := by
        intro t h
        split at h
        · next t =>
          split at h
          · cases h
          next k t3 hk =>
          obtain ⟨k', sk, rfl⟩ := (readStr_iff _ _ _ _).1 hk
          obtain ⟨w3, hs3, hw3⟩ := skipWs_split t3
          split at h
          · next t4 ht4 =>
            rw [ht4] at hs3
            split at h
            · cases h
            next v r1 hv =>
            have hm : ∃ w t, Blank w ∧ t4 = w ++ (t ++ r1) ∧ MemberText over m (d - 1) t v := by
              rcases orSkip_ok hv with hv | ⟨rfl, v', -, hq, rfl⟩
              · obtain ⟨w1, t1, b1, e1, j1⟩ := ih1 _ _ _ _ _ hv
                exact ⟨w1, t1, b1, e1, .read j1⟩
              · obtain ⟨w1, t1, b1, e1, j1⟩ := ih1 _ _ _ _ _ (Prod.ext rfl hq)
                exact ⟨w1, t1, b1, e1, .skipped j1⟩
            obtain ⟨w1, t1, b1, rfl, j1⟩ := hm
            generalize hp : parseMembers over m fuel d false r1 = p at h
            obtain ⟨l', o⟩ := p
            cases h
            rw [hs3]
            rcases ih3 _ _ _ _ _ _ hp with ⟨w2, h1, rfl, rfl⟩ | ⟨w2, t2, h1, rfl, h2⟩
            · exact ⟨_, by simp, Members.one (w := []) (fun _ h => (by cases h)) sk hw3 b1 j1 h1⟩
            · exact ⟨_, by simp, Members.more (w := []) (fun _ h => (by cases h)) sk hw3 b1 j1 h1 h2⟩
          · cases h
        · cases h
      cases b with
      | true =>
        rw [if_pos rfl] at h
        obtain ⟨t', e, ht⟩ := go _ h
        refine .inr ⟨[], w ++ t', fun _ h => (by cases h), ?_, members_blank hw ht⟩
        rw [if_pos rfl, hs, e, List.append_assoc]
      | false =>
        rw [if_neg (by simp)] at h
        split at h
        · next hc =>
          subst hc
          obtain ⟨w', hs', hw'⟩ := skipWs_split u
          obtain ⟨t', e, ht⟩ := go _ h
          refine .inr ⟨w, w' ++ t', hw, ?_, members_blank hw' ht⟩
          rw [if_neg (by simp), hs, List.append_assoc, ← e, ← hs']
        · cases h

/-! ## Values: JSON is read -/

theorem numeral_begins {over : List Char → Bool} {t : List Char} {n : JsonNum} (h : Numeral over t n) :
    ∃ c u, t = c :: u ∧ Begins c ∧ c ≠ 'n' ∧ c ≠ 't' ∧ c ≠ 'f' ∧ c ≠ '"' ∧ c ≠ '[' ∧ c ≠ '{' := by
  have dig : ∀ {ds : List Char} {m : Nat} (rest : List Char), WritesJsonNat ds m → ∃ c u, ds ++ rest = c :: u ∧ Begins c ∧
      c ≠ 'n' ∧ c ≠ 't' ∧ c ≠ 'f' ∧ c ≠ '"' ∧ c ≠ '[' ∧ c ≠ '{' := by
    intro ds m rest h
    match ds, h with
    | [], h => exact absurd rfl h.1.1
    | c :: ds, h => exact ⟨c, ds ++ rest, rfl, digit_begins (h.1.2 c (by simp))⟩
  have minus : Begins '-' ∧ '-' ≠ 'n' ∧ '-' ≠ 't' ∧ '-' ≠ 'f' ∧ '-' ≠ '"' ∧ '-' ≠ '[' ∧ '-' ≠ '{' := by
    unfold Begins IsBlank; decide
  cases h with
  | nat h hn => simpa using dig [] h
  | neg h h1 hn => exact ⟨_, _, rfl, minus⟩
  | below h h1 hn => exact ⟨_, _, rfl, minus⟩
  | real hs h hf he hx ho =>
    simp only [List.mem_cons, List.not_mem_nil, or_false] at hs
    rcases hs with rfl | rfl
    · rw [List.nil_append]; exact dig _ h
    · exact ⟨_, _, rfl, minus⟩

theorem jsonText_begins {over : List Char → Bool} {m : JsonMode} {d : Nat} {t : List Char} {j : Json} (h : JsonText over m d t j) :
    ∃ c u, t = c :: u ∧ Begins c := by
  cases h with
  | null => exact ⟨'n', _, rfl, by unfold Begins IsBlank; decide⟩
  | true => exact ⟨'t', _, rfl, by unfold Begins IsBlank; decide⟩
  | false => exact ⟨'f', _, rfl, by unfold Begins IsBlank; decide⟩
  | num h => obtain ⟨c, u, e, hb, -⟩ := numeral_begins h; exact ⟨c, u, e, hb⟩
  | str h => exact ⟨'"', _, rfl, by unfold Begins IsBlank; decide⟩
  | noElems _ h => exact ⟨'[', _, rfl, by unfold Begins IsBlank; decide⟩
  | arr _ h => exact ⟨'[', _, rfl, by unfold Begins IsBlank; decide⟩
  | noMembers _ h => exact ⟨'{', _, rfl, by unfold Begins IsBlank; decide⟩
  | obj _ h => exact ⟨'{', _, rfl, by unfold Begins IsBlank; decide⟩

theorem blank_stops {w r : List Char} {c : Char} (hw : Blank w) (hc : ¬ IsDigit c ∧ c ≠ '.' ∧ c ≠ 'e' ∧ c ≠ 'E') :
    Stops (w ++ c :: r) := by
  intro x hx
  match w with
  | [] => cases hx; exact hc
  | y :: w =>
    cases hx
    rcases hw _ (List.mem_cons_self ..) with rfl | rfl | rfl | rfl <;> unfold IsDigit <;> decide

/-! ### What can be read can be skipped -/

theorem parseDigitsOf_skip {over : List Char → Bool} {neg : Bool} {s r : List Char} {n : JsonNum}
    (h : parseDigitsOf over neg s = some (n, r)) : parseDigitsOf (fun _ => false) neg s = some (n, r) := by
  unfold parseDigitsOf at h ⊢
  by_cases h0 : ((s.takeWhile isDigit).isEmpty || leadingZero (s.takeWhile isDigit)) = true
  · simp only [if_pos h0] at h; cases h
  · simp only [if_neg h0] at h ⊢
    cases hf : fraction (s.dropWhile isDigit) with
    | none => simp only [hf] at h; cases h
    | some p =>
      obtain ⟨frac, rest⟩ := p
      simp only [hf] at h ⊢
      split
      · next h1 => rw [if_pos h1] at h; exact h
      · next h1 =>
        rw [if_neg h1] at h
        by_cases ho : over ((if neg = true then ['-'] else []) ++ List.takeWhile isDigit s ++ frac) = true
        · rw [if_pos ho] at h; cases h
        · rw [if_neg ho] at h; simpa using h

theorem parseNumber_skip {over : List Char → Bool} {m : JsonMode} {s r : List Char} {n : JsonNum}
    (h : parseNumber (tooLarge over m) s = some (n, r)) : parseNumber (tooLarge over .skip) s = some (n, r) := by
  show parseNumber (fun _ => false) s = _
  match s with
  | [] => exact parseDigitsOf_skip (over := tooLarge over m) (s := []) (neg := false) h
  | c :: u =>
    by_cases hc : c = '-'
    · subst hc; exact parseDigitsOf_skip (s := u) (neg := true) h
    · have e : ∀ o, parseNumber o (c :: u) = parseDigitsOf o false (c :: u) := by
        intro o
        unfold parseNumber
        split
        · next e => cases e; exact absurd rfl hc
        · rfl
      rw [e] at h ⊢
      exact parseDigitsOf_skip h

theorem readStr_skip {m : JsonMode} {s k r : List Char} (h : readStr m s = some (k, r)) : readStr .skip s = some ([], r) := by
  obtain ⟨w, hw, rfl⟩ := (readStr_iff _ _ _ _).1 h
  refine (readStr_iff _ _ _ _).2 ⟨w, ⟨?_, rfl⟩, rfl⟩
  match m with
  | .skip => exact hw.1
  | .full => exact Spelled.skipped hw
  | .typed => exact Spelled.skipped hw

theorem parse_skippable (over : List Char → Bool) (fuel : Nat) :
    (∀ m d d' s v r, parseValue over m fuel d s = (v, some r) → (parseValue over .skip fuel d' s).2 = some r) ∧
    (∀ m d d' b s l r, parseElems over m fuel d b s = (l, some r) → (parseElems over .skip fuel d' b s).2 = some r) ∧
    (∀ m d d' b s l r, parseMembers over m fuel d b s = (l, some r) → (parseMembers over .skip fuel d' b s).2 = some r) := by
  induction fuel with
  | zero => exact ⟨fun _ _ _ _ _ _ h => (by cases h), fun _ _ _ _ _ _ _ h => (by cases h), fun _ _ _ _ _ _ _ h => (by cases h)⟩
  | succ fuel ih =>
    obtain ⟨ih1, ih2, ih3⟩ := ih
    refine ⟨?_, ?_, ?_⟩
    · intro m d d' s v r h
      rw [parseValue] at h ⊢
      split at h
      · cases h
      · next c u hs =>
        split at h
        · next hc => simp only [if_pos hc, h]
        · next h1 =>
          split at h
          · next hc => simp only [if_neg h1, if_pos hc, h]
          · next h2 =>
            split at h
            · next hc => simp only [if_neg h1, if_neg h2, if_pos hc, h]
            · next h3 =>
              simp only [if_neg h1, if_neg h2, if_neg h3]
              split at h
              · next hc =>
                rw [if_pos hc]
                split at h
                · next k r' hk => cases h; simp only [readStr_skip hk]
                · cases h
              · next h4 =>
                rw [if_neg h4]
                split at h
                · next hc =>
                  rw [if_pos hc]
                  split at h
                  · cases h
                  · exact ih2 m _ _ _ _ _ r (Prod.ext rfl (Prod.ext_iff.1 h).2)
                · next h5 =>
                  rw [if_neg h5]
                  split at h
                  · next hc =>
                    rw [if_pos hc]
                    split at h
                    · cases h
                    · exact ih3 m _ _ _ _ _ r (Prod.ext rfl (Prod.ext_iff.1 h).2)
                  · next h6 =>
                    rw [if_neg h6]
                    split at h
                    · next n r' hn => cases h; simp only [parseNumber_skip hn]
                    · cases h
    · intro m d d' b s l r h
      rw [parseElems] at h ⊢
      split at h
      · cases h
      · next c u hs =>
        have go : ∀ t, (match parseValue over m fuel d t with
            | (v, none) => ([v], none)
            | (v, some r) => (v :: (parseElems over m fuel d false r).1, (parseElems over m fuel d false r).2)) = (l, some r) →
            (match parseValue over .skip fuel d' t with
            | (v, none) => ([v], none)
            | (v, some r) => (v :: (parseElems over .skip fuel d' false r).1, (parseElems over .skip fuel d' false r).2)).2 =
              some r := by
          intro t h
          split at h
          · cases h
          · next v r1 hv =>
            have h1 := ih1 _ _ d' _ _ _ hv
            generalize hp : parseValue over .skip fuel d' t = p at h1
            obtain ⟨v', o⟩ := p
            cases h1
            exact ih2 m _ _ _ _ _ r (Prod.ext rfl (Prod.ext_iff.1 h).2)
        split at h
        · next hc => cases h; rw [if_pos hc]
        · next h1 =>
          simp only [if_neg h1]
          split at h
          · next hb => simp only [if_pos hb]; exact go _ h
          · next hb =>
            simp only [if_neg hb]
            split at h
            · next hc =>
              simp only [if_pos hc]
              split at h
              · cases h
              · next t ht => exact go _ h
            · cases h
    · intro m d d' b s l r h
      rw [parseMembers] at h ⊢
      split at h
      · cases h
      · next c u hs =>
        have go : ∀ t, (match t with
            | '"' :: t =>
              match readStr m t with
              | none => ([([], bad)], none)
              | some (k, t) =>
                match skipWs t with
                | ':' :: t =>
                  match orSkip m (parseValue over m fuel d t) (parseValue over .skip fuel d t).2 with
                  | (v, none) => ([(k, v)], none)
                  | (v, some r) => ((k, v) :: (parseMembers over m fuel d false r).1, (parseMembers over m fuel d false r).2)
                | _ => ([(k, bad)], none)
            | _ => ([([], bad)], none)) = (l, some r) →
            (match t with
            | '"' :: t =>
              match readStr .skip t with
              | none => ([([], bad)], none)
              | some (k, t) =>
                match skipWs t with
                | ':' :: t =>
                  match orSkip .skip (parseValue over .skip fuel d' t) (parseValue over .skip fuel d' t).2 with
                  | (v, none) => ([(k, v)], none)
                  | (v, some r) =>
                    ((k, v) :: (parseMembers over .skip fuel d' false r).1, (parseMembers over .skip fuel d' false r).2)
                | _ => ([(k, bad)], none)
            | _ => ([([], bad)], none)).2 = some r := by
          intro t h
          split at h
          · next t2 =>
            split at h
            · cases h
            · next k t3 hk =>
              simp only [readStr_skip hk]
              split at h
              · next t4 hc =>
                split at h
                · cases h
                · next v r1 hv =>
                  have h1 : (parseValue over .skip fuel d' t4).2 = some r1 := by
                    rcases orSkip_ok hv with hv | ⟨rfl, v', -, hq, rfl⟩
                    · exact ih1 _ _ d' _ _ _ hv
                    · exact ih1 _ _ d' _ _ _ (Prod.ext rfl hq)
                  generalize hp : parseValue over .skip fuel d' t4 = p at h1
                  obtain ⟨v', o⟩ := p
                  cases h1
                  exact ih3 m _ _ _ _ _ r (Prod.ext rfl (Prod.ext_iff.1 h).2)
              · cases h
          · cases h
        split at h
        · next hc => cases h; rw [if_pos hc]
        · next h1 =>
          simp only [if_neg h1]
          split at h
          · next hb => simp only [if_pos hb]; exact go _ h
          · next hb =>
            simp only [if_neg hb]
            split at h
            · next hc => simp only [if_pos hc]; exact go _ h
            · cases h

/-- What is read where `j` was written -/
def Found {α : Type} (m : JsonMode) (same : α → α → Prop) (a' a : α) : Prop := same a' a ∧ (m ≠ .typed → a' = a)

theorem found_same (m : JsonMode) (j : Json) : Found m SameBut j j := ⟨.same j, fun _ => rfl⟩

theorem elems_step (over : List Char → Bool) (m : JsonMode) {fuel d : Nat} {first : Bool} {v : Json} {l : List Json}
    {s w t r r' : List Char} {c : Char} {u : List Char} (ht : t = c :: u) (hb : Begins c) (hw : Blank w)
    (hs : (first = true ∧ s = w ++ (t ++ r)) ∨ (first = false ∧ ∃ w', Blank w' ∧ s = w' ++ ',' :: (w ++ (t ++ r))))
    (h1 : parseValue over m fuel d (t ++ r) = (v, some r))
    (h2 : parseElems over m fuel d false r = (l, some r')) :
    parseElems over m (fuel + 1) d first s = (v :: l, some r') := by
  have h1' := h1
  rw [ht, List.cons_append] at h1'
  rcases hs with ⟨rfl, rfl⟩ | ⟨rfl, w', hw', rfl⟩
  · rw [parseElems, skipWs_blank hw, ht, List.cons_append, skipWs_stop hb.1]
    simp only [if_neg hb.2.1, if_true, h1', h2]
  · rw [parseElems, skipWs_blank hw', skipWs_stop (by unfold IsBlank; decide)]
    simp only [if_neg (show ¬ ',' = ']' by decide), Bool.false_eq_true, if_false, if_true]
    rw [skipWs_blank hw, ht, List.cons_append, skipWs_stop hb.1]
    split
    · next e => cases e; exact absurd rfl hb.2.1
    · simp only [h1', h2]

theorem members_step (over : List Char → Bool) (m : JsonMode) {fuel d : Nat} {first : Bool} {v : Json}
    {l : List (List Char × Json)} {s w k name w1 w2 t r r' : List Char} (hk : StringText m k name) (hw : Blank w) (hw1 : Blank w1)
    (hw2 : Blank w2)
    (hs : (first = true ∧ s = w ++ '"' :: (k ++ '"' :: (w1 ++ ':' :: (w2 ++ (t ++ r))))) ∨
      (first = false ∧ ∃ w', Blank w' ∧ s = w' ++ ',' :: (w ++ '"' :: (k ++ '"' :: (w1 ++ ':' :: (w2 ++ (t ++ r)))))))
    (h1 : orSkip m (parseValue over m fuel d (t ++ r)) (parseValue over .skip fuel d (t ++ r)).2 = (v, some r))
    (h2 : parseMembers over m fuel d false r = (l, some r')) :
    parseMembers over m (fuel + 1) d first s = ((name, v) :: l, some r') := by
  have h0 := (readStr_iff m _ _ (w1 ++ ':' :: (w2 ++ (t ++ r)))).2 ⟨k, hk, rfl⟩
  have hc : skipWs (w1 ++ ':' :: (w2 ++ (t ++ r))) = ':' :: (w2 ++ (t ++ r)) := by
    rw [skipWs_blank hw1, skipWs_stop (by unfold IsBlank; decide)]
  rcases hs with ⟨rfl, rfl⟩ | ⟨rfl, w', hw', rfl⟩
  · rw [parseMembers, skipWs_blank hw, skipWs_stop (by unfold IsBlank; decide)]
    simp only [if_neg (show ¬ '"' = '}' by decide), if_true, h0, hc, parseValue_ws over _ hw2, h1, h2]
  · rw [parseMembers, skipWs_blank hw', skipWs_stop (by unfold IsBlank; decide)]
    simp only [if_neg (show ¬ ',' = '}' by decide), Bool.false_eq_true, if_false, if_true]
    rw [skipWs_blank hw, skipWs_stop (by unfold IsBlank; decide)]
    simp only [h0, hc, parseValue_ws over _ hw2, h1, h2]

theorem elems_end (over : List Char → Bool) (m : JsonMode) (fuel d : Nat) (b : Bool) {w r : List Char} (hw : Blank w) :
    parseElems over m (fuel + 1) d b (w ++ ']' :: r) = ([], some r) := by
  rw [parseElems, skipWs_blank hw, skipWs_stop (by unfold IsBlank; decide)]
  simp only [if_true]

theorem members_end (over : List Char → Bool) (m : JsonMode) (fuel d : Nat) (b : Bool) {w r : List Char} (hw : Blank w) :
    parseMembers over m (fuel + 1) d b (w ++ '}' :: r) = ([], some r) := by
  rw [parseMembers, skipWs_blank hw, skipWs_stop (by unfold IsBlank; decide)]
  simp only [if_true]

/-- The depth left, where `d` more arrays and objects within each other are allowed -/
def DepthFor (m : JsonMode) (d d' : Nat) : Prop := m = .skip ∨ d' = d + 1

theorem depthFor_enter {m : JsonMode} {d d' : Nat} (h : m = .skip ∨ 0 < d) (hd : DepthFor m d d') :
    tooDeep m d' = false ∧ DepthFor m (d - 1) (d' - 1) := by
  rcases hd with rfl | rfl
  · exact ⟨rfl, .inl rfl⟩
  · rcases h with rfl | h
    · exact ⟨rfl, .inl rfl⟩
    · refine ⟨?_, .inr (by omega)⟩
      cases m <;> simp [tooDeep] <;> omega

mutual
theorem value_complete {over : List Char → Bool} : ∀ {m : JsonMode} {d : Nat} {t : List Char} {j : Json}, JsonText over m d t j →
    ∀ (fuel d' : Nat) (r : List Char), DepthFor m d d' → 2 * t.length + 1 ≤ fuel → Stops r →
    ∃ j', parseValue over m fuel d' (t ++ r) = (j', some r) ∧ Found m SameBut j' j
  | _, _, _, _, .null, 0, _, _, _, hf, _ => by omega
  | _, _, _, _, .null, fuel + 1, _, r, _, _, _ => by
    refine ⟨_, ?_, found_same _ _⟩
    rw [parseValue, show "null".toList ++ r = 'n' :: ("ull".toList ++ r) from rfl, skipWs_stop (by unfold IsBlank; decide)]
    exact parseIdent_self _ _ _
  | _, _, _, _, .true, 0, _, _, _, hf, _ => by omega
  | _, _, _, _, .true, fuel + 1, _, r, _, _, _ => by
    refine ⟨_, ?_, found_same _ _⟩
    rw [parseValue, show "true".toList ++ r = 't' :: ("rue".toList ++ r) from rfl, skipWs_stop (by unfold IsBlank; decide)]
    exact parseIdent_self _ _ _
  | _, _, _, _, .false, 0, _, _, _, hf, _ => by omega
  | _, _, _, _, .false, fuel + 1, _, r, _, _, _ => by
    refine ⟨_, ?_, found_same _ _⟩
    rw [parseValue, show "false".toList ++ r = 'f' :: ("alse".toList ++ r) from rfl, skipWs_stop (by unfold IsBlank; decide)]
    exact parseIdent_self _ _ _
  | _, _, _, _, .num h, 0, _, _, _, hf, _ => by omega
  | m, _, _, _, .num h, fuel + 1, _, r, _, _, hr => by
    refine ⟨_, ?_, found_same _ _⟩
    obtain ⟨c, u, rfl, h1, h2, h3, h4, h5, h6, h7⟩ := numeral_begins h
    have hp := parseNumber_complete (tooLarge_refused over m ▸ h) hr
    rw [parseValue]
    rw [List.cons_append] at hp ⊢
    rw [skipWs_stop h1.1]
    simp only [if_neg h2, if_neg h3, if_neg h4, if_neg h5, if_neg h6, if_neg h7, hp]
  | _, _, _, _, .str h, 0, _, _, _, hf, _ => by omega
  | m, _, _, _, .str (t := t) h, fuel + 1, _, r, _, _, hr => by
    refine ⟨_, ?_, found_same _ _⟩
    have hp := (readStr_iff m _ _ r).2 ⟨t, h, rfl⟩
    rw [parseValue, List.cons_append, skipWs_stop (by unfold IsBlank; decide), List.append_assoc]
    simp [hp]
  | _, _, _, _, .noElems _ h, 0, _, _, _, hf, _ => by omega
  | _, _, _, _, .noElems _ h, 1, _, _, _, hf, _ => by simp at hf
  | m, _, _, _, .noElems h0 h, fuel + 2, d', r, hd, _, hr => by
    refine ⟨_, ?_, found_same _ _⟩
    have hp := elems_end over m fuel (d' - 1) true (r := r) h
    rw [parseValue, List.cons_append, skipWs_stop (by unfold IsBlank; decide), List.append_assoc]
    simp [hp, (depthFor_enter h0 hd).1]
  | _, _, _, _, .arr _ h, 0, _, _, _, hf, _ => by omega
  | m, _, _, _, .arr h0 h, fuel + 1, d', r, hd, hf, hr => by
    obtain ⟨hd1, hd2⟩ := depthFor_enter h0 hd
    obtain ⟨l', hp, -, h1, h2⟩ := elems_complete h fuel (d' - 1) r hd2 (by simp at hf; omega)
    refine ⟨.arr l', ?_, .arr h1, fun hm => by rw [h2 hm]⟩
    rw [parseValue, List.cons_append, skipWs_stop (by unfold IsBlank; decide), List.append_assoc]
    simp [hp, hd1]
  | _, _, _, _, .noMembers _ h, 0, _, _, _, hf, _ => by omega
  | _, _, _, _, .noMembers _ h, 1, _, _, _, hf, _ => by simp at hf
  | m, _, _, _, .noMembers h0 h, fuel + 2, d', r, hd, _, hr => by
    refine ⟨_, ?_, found_same _ _⟩
    have hp := members_end over m fuel (d' - 1) true (r := r) h
    rw [parseValue, List.cons_append, skipWs_stop (by unfold IsBlank; decide), List.append_assoc]
    simp [hp, (depthFor_enter h0 hd).1]
  | _, _, _, _, .obj _ h, 0, _, _, _, hf, _ => by omega
  | m, _, _, _, .obj h0 h, fuel + 1, d', r, hd, hf, hr => by
    obtain ⟨hd1, hd2⟩ := depthFor_enter h0 hd
    obtain ⟨l', hp, -, h1, h2⟩ := members_complete h fuel (d' - 1) r hd2 (by simp at hf; omega)
    refine ⟨.obj l', ?_, .obj h1, fun hm => by rw [h2 hm]⟩
    rw [parseValue, List.cons_append, skipWs_stop (by unfold IsBlank; decide), List.append_assoc]
    simp [hp, hd1]
theorem elems_complete {over : List Char → Bool} : ∀ {m : JsonMode} {d : Nat} {t : List Char} {l : List Json}, Elems over m d t l →
    ∀ (fuel d' : Nat) (r : List Char), DepthFor m d d' → 2 * t.length + 2 ≤ fuel →
    ∃ l', parseElems over m fuel d' true (t ++ ']' :: r) = (l', some r) ∧
      (∀ w, Blank w → parseElems over m fuel d' false (w ++ ',' :: (t ++ ']' :: r)) = (l', some r)) ∧ Found m SameElems l' l
  | _, _, _, _, .one _ _ _, 0, _, _, _, hf => by omega
  | _, _, _, _, .one _ _ _, 1, _, _, _, hf => by omega
  | m, _, _, _, .one (w := w) (t := t) (w' := w') h1 h2 h3, fuel + 2, d', r, hd, hf => by
    obtain ⟨c, u, e, hb⟩ := jsonText_begins h2
    obtain ⟨j', hv, hs, hm⟩ := value_complete h2 (fuel + 1) d' (w' ++ ']' :: r) hd (by simp at hf; omega)
      (blank_stops h3 (by unfold IsDigit; decide))
    have he := elems_end over m fuel d' Bool.false (r := r) h3
    exact ⟨[j'], elems_step over m e hb h1 (.inl ⟨rfl, by simp⟩) hv he,
      fun w0 hw0 => elems_step over m e hb h1 (.inr ⟨rfl, w0, hw0, by simp⟩) hv he, .cons hs .nil, fun h => by rw [hm h]⟩
  | _, _, _, _, .more _ _ _ _, 0, _, _, _, hf => by omega
  | m, _, _, _, .more (w := w) (t := t) (w' := w') (t' := t') h1 h2 h3 h4, fuel + 1, d', r, hd, hf => by
    obtain ⟨c, u, e, hb⟩ := jsonText_begins h2
    obtain ⟨j', hv, hs, hm⟩ := value_complete h2 fuel d' (w' ++ ',' :: (t' ++ ']' :: r)) hd (by simp at hf; omega)
      (blank_stops h3 (by unfold IsDigit; decide))
    obtain ⟨l', -, he, hs', hm'⟩ := elems_complete h4 fuel d' r hd (by simp at hf; omega)
    exact ⟨j' :: l', elems_step over m e hb h1 (.inl ⟨rfl, by simp⟩) hv (he w' h3),
      fun w0 hw0 => elems_step over m e hb h1 (.inr ⟨rfl, w0, hw0, by simp⟩) hv (he w' h3), .cons hs hs',
      fun h => by rw [hm h, hm' h]⟩
theorem members_complete {over : List Char → Bool} : ∀ {m : JsonMode} {d : Nat} {t : List Char} {l : List (List Char × Json)},
    Members over m d t l → ∀ (fuel d' : Nat) (r : List Char), DepthFor m d d' → 2 * t.length + 2 ≤ fuel →
    ∃ l', parseMembers over m fuel d' true (t ++ '}' :: r) = (l', some r) ∧
      (∀ w, Blank w → parseMembers over m fuel d' false (w ++ ',' :: (t ++ '}' :: r)) = (l', some r)) ∧ Found m SameMembers l' l
  | _, _, _, _, .one _ _ _ _ _ _, 0, _, _, _, hf => by omega
  | _, _, _, _, .one _ _ _ _ _ _, 1, _, _, _, hf => by omega
  | m, _, _, _, .one (t := t) (w' := w') h1 hk h5 h6 h2 h3, fuel + 2, d', r, hd, hf => by
    obtain ⟨j', hv, hs, hm⟩ := member_complete h2 (fuel + 1) d' (w' ++ '}' :: r) hd (by simp at hf; omega)
      (blank_stops h3 (by unfold IsDigit; decide))
    have he := members_end over m fuel d' Bool.false (r := r) h3
    exact ⟨_, members_step over m hk h1 h5 h6 (.inl ⟨rfl, by simp⟩) hv he,
      fun w0 hw0 => members_step over m hk h1 h5 h6 (.inr ⟨rfl, w0, hw0, by simp⟩) hv he, .cons hs .nil, fun h => by rw [hm h]⟩
  | _, _, _, _, .more _ _ _ _ _ _ _, 0, _, _, _, hf => by omega
  | m, _, _, _, .more (t := t) (w' := w') (t' := t') h1 hk h5 h6 h2 h3 h4, fuel + 1, d', r, hd, hf => by
    obtain ⟨j', hv, hs, hm⟩ := member_complete h2 fuel d' (w' ++ ',' :: (t' ++ '}' :: r)) hd (by simp at hf; omega)
      (blank_stops h3 (by unfold IsDigit; decide))
    obtain ⟨l', -, he, hs', hm'⟩ := members_complete h4 fuel d' r hd (by simp at hf; omega)
    exact ⟨_, members_step over m hk h1 h5 h6 (.inl ⟨rfl, by simp⟩) hv (he w' h3),
      fun w0 hw0 => members_step over m hk h1 h5 h6 (.inr ⟨rfl, w0, hw0, by simp⟩) hv (he w' h3), .cons hs hs',
      fun h => by rw [hm h, hm' h]⟩
theorem member_complete {over : List Char → Bool} : ∀ {m : JsonMode} {d : Nat} {t : List Char} {j : Json}, MemberText over m d t j →
    ∀ (fuel d' : Nat) (r : List Char), DepthFor m d d' → 2 * t.length + 1 ≤ fuel → Stops r →
    ∃ j', orSkip m (parseValue over m fuel d' (t ++ r)) (parseValue over .skip fuel d' (t ++ r)).2 = (j', some r) ∧
      Found m SameBut j' j
  | _, _, _, _, .read h, fuel, d', r, hd, hf, hr => by
    obtain ⟨j', hp, hj⟩ := value_complete h fuel d' r hd hf hr
    exact ⟨j', by rw [hp, orSkip_some], hj⟩
  | _, _, t, _, .skipped h, fuel, d', r, hd, hf, hr => by
    obtain ⟨v, hv, -⟩ := value_complete h fuel d' r (.inl rfl) hf hr
    generalize hp : parseValue over .typed fuel d' (t ++ r) = p
    match p, hp with
    | (v', none), hp => exact ⟨.skip v', by rw [hv]; rfl, .skipped _ _, fun hm => absurd rfl hm⟩
    | (v', some r'), hp =>
      have h' := (parse_skippable over fuel).1 _ _ d' _ _ _ hp
      rw [hv] at h'
      cases h'
      exact ⟨v', by rw [orSkip_some], .skipped _ _, fun hm => absurd rfl hm⟩
end

/-! ## JSON is JSON to its end -/

mutual
theorem jsonText_intact {over : List Char → Bool} : ∀ {m : JsonMode} {d : Nat} {t : List Char} {j : Json},
    JsonText over m d t j → Intact j
  | _, _, _, _, .null => .null
  | _, _, _, _, .true => .bool _
  | _, _, _, _, .false => .bool _
  | _, _, _, _, .num _ => .num _
  | _, _, _, _, .str _ => .str _
  | _, _, _, _, .noElems _ _ => .arr (fun _ h => by cases h)
  | _, _, _, _, .arr _ h => .arr (elems_intact h)
  | _, _, _, _, .noMembers _ _ => .obj (fun _ h => by cases h)
  | _, _, _, _, .obj _ h => .obj (members_intact h)
theorem elems_intact {over : List Char → Bool} : ∀ {m : JsonMode} {d : Nat} {t : List Char} {l : List Json},
    Elems over m d t l → ∀ x ∈ l, Intact x
  | _, _, _, _, .one _ h _, x, hx => by
    cases List.mem_singleton.1 hx
    exact jsonText_intact h
  | _, _, _, _, .more _ h _ h', x, hx => by
    rcases List.mem_cons.1 hx with e | hx
    · exact e ▸ jsonText_intact h
    · exact elems_intact h' x hx
theorem members_intact {over : List Char → Bool} : ∀ {m : JsonMode} {d : Nat} {t : List Char} {l : List (List Char × Json)},
    Members over m d t l → ∀ x ∈ l, Intact x.2
  | _, _, _, _, .one _ _ _ _ h _, x, hx => by
    cases List.mem_singleton.1 hx
    exact member_intact h
  | _, _, _, _, .more _ _ _ _ h _ h', x, hx => by
    rcases List.mem_cons.1 hx with e | hx
    · exact e ▸ member_intact h
    · exact members_intact h' x hx
theorem member_intact {over : List Char → Bool} : ∀ {m : JsonMode} {d : Nat} {t : List Char} {j : Json},
    MemberText over m d t j → Intact j
  | _, _, _, _, .read h => jsonText_intact h
  | _, _, _, _, .skipped _ => .skip _
end

end Json
end Klavier
