import Verif.Lemmas.JsonText

/-! # The fuel of the JSON reader suffices -/
set_option autoImplicit false
namespace Klavier
open Spec
namespace Json

theorem dropWhile_length (p : Char → Bool) (s : List Char) : (s.dropWhile p).length ≤ s.length := by
  exact (List.dropWhile_sublist p).length_le

theorem parseIdent_length {v w : Json} : ∀ {a s r : List Char}, parseIdent v a s = (w, some r) → r.length ≤ s.length
  | [], s, r, h => by simp [parseIdent] at h; rw [h.2]; exact Nat.le_refl _
  | c :: a, [], r, h => by simp [parseIdent] at h
  | c :: a, d :: s, r, h => by
    simp only [parseIdent] at h
    split at h
    · have := parseIdent_length h; simp; omega
    · simp at h

theorem parseStr_length : ∀ (n : Nat) (s t r : List Char), s.length ≤ n → parseStr s = some (t, r) → r.length < s.length
  | 0, s, t, r, hn, h => by
    match s with
    | [] => simp [parseStr] at h
  | n + 1, s, t, r, hn, h => by
    have key : ∀ (u : List Char) (f : List Char × List Char → List Char × List Char), (parseStr u).map f = some (t, r) →
        u.length < s.length → (∀ p, (f p).2 = p.2) → r.length < s.length := by
      intro u f h hu hf
      match e : parseStr u with
      | none => rw [e] at h; simp at h
      | some (a, b) =>
        rw [e] at h
        simp only [Option.map_some, Option.some.injEq] at h
        have h2 := hf (a, b)
        rw [h] at h2
        have := parseStr_length n u a b (by omega) e
        simp only at h2
        rw [h2]
        omega
    unfold parseStr at h
    split at h
    · simp at h
    · cases h; simp
    · split at h
      · simp at h
      · split at h
        · split at h
          · simp at h
          · split at h
            · exact key _ _ h (by simp; omega) (fun p => rfl)
            · simp at h
        · split at h
          · simp at h
          · exact key _ _ h (by simp) (fun p => rfl)
    · split at h
      · simp at h
      · split at h
        · simp at h
        · exact key _ _ h (by simp; omega) (fun p => rfl)
    · split at h
      · exact key _ _ h (by simp; omega) (fun p => rfl)
      · simp at h
    · split at h
      · simp at h
      · exact key _ _ h (by simp) (fun p => rfl)

theorem ignoreStr_length : ∀ (n : Nat) (s r : List Char), s.length ≤ n → ignoreStr s = some r → r.length < s.length
  | 0, s, r, hn, h => by
    match s with
    | [] => simp [ignoreStr] at h
  | n + 1, s, r, hn, h => by
    have key : ∀ u : List Char, ignoreStr u = some r → u.length < s.length → r.length < s.length := by
      intro u h hu
      have := ignoreStr_length n u r (by omega) h
      omega
    unfold ignoreStr at h
    split at h
    · simp at h
    · cases h; simp
    · split at h
      · simp at h
      · exact key _ h (by simp; omega)
    · split at h
      · exact key _ h (by simp; omega)
      · simp at h
    · split at h
      · simp at h
      · exact key _ h (by simp)

theorem readStr_length {m : JsonMode} {s t r : List Char} (h : readStr m s = some (t, r)) : r.length < s.length := by
  cases m with
  | skip =>
    simp only [readStr, Option.map_eq_some_iff, Prod.mk.injEq] at h
    obtain ⟨a, h1, -, rfl⟩ := h
    exact ignoreStr_length _ _ _ (Nat.le_refl _) h1
  | _ => exact parseStr_length _ _ _ _ (Nat.le_refl _) h

theorem orSkip_ok {m : JsonMode} {p : Json × Option (List Char)} {q : Option (List Char)} {v : Json} {r : List Char}
    (h : orSkip m p q = (v, some r)) :
    p = (v, some r) ∨ m = .typed ∧ ∃ v', p = (v', none) ∧ q = some r ∧ v = .skip v' := by
  match m, p, q with
  | .typed, (v', none), some r' => cases h; exact .inr ⟨rfl, v', rfl, rfl, rfl⟩
  | .typed, (v', none), none => exact .inl h
  | .typed, (v', some _), _ => exact .inl h
  | .full, _, _ => exact .inl h
  | .skip, _, _ => exact .inl h

theorem exponent_length {s a r : List Char} (h : exponent s = some (a, r)) : r.length ≤ s.length := by
  unfold exponent at h
  split at h
  next sign t e =>
  simp only at h
  split at h
  · cases h
  · cases h
    have := dropWhile_length isDigit t
    have : t.length ≤ s.length := by
      split at e <;> cases e
      · simp
      · simp
      · exact Nat.le_refl _
    omega

theorem fraction_length {s a r : List Char} (h : fraction s = some (a, r)) : r.length ≤ s.length := by
  have key : ∀ (u : List Char) (f : List Char × List Char → List Char × List Char), (exponent u).map f = some (a, r) →
      u.length ≤ s.length → (∀ p, (f p).2 = p.2) → r.length ≤ s.length := by
    intro u f h hu hf
    match e : exponent u with
    | none => rw [e] at h; simp at h
    | some (x, y) =>
      rw [e] at h
      simp only [Option.map_some, Option.some.injEq] at h
      have h2 := hf (x, y)
      rw [h] at h2
      have := exponent_length e
      simp only at h2
      rw [h2]
      omega
  unfold fraction at h
  split at h
  · next t =>
    simp only at h
    have hl := dropWhile_length isDigit t
    split at h
    · cases h
    · split at h
      · next e => rw [e] at hl; exact key _ _ h (by simp at hl ⊢; omega) (fun p => rfl)
      · next e => rw [e] at hl; exact key _ _ h (by simp at hl ⊢; omega) (fun p => rfl)
      · cases h; simp; omega
  · exact key _ _ h (by simp) (fun p => rfl)
  · exact key _ _ h (by simp) (fun p => rfl)
  · cases h; exact Nat.le_refl _

theorem parseDigitsOf_length {over : List Char → Bool} {neg : Bool} {s r : List Char} {n : JsonNum}
    (h : parseDigitsOf over neg s = some (n, r)) : r.length < s.length := by
  unfold parseDigitsOf at h
  simp only at h
  split at h
  · cases h
  next hd =>
  split at h
  · cases h
  next frac rest hf =>
  have h1 := fraction_length hf
  have h2 := congrArg List.length (List.takeWhile_append_dropWhile (p := isDigit) (l := s))
  simp only [List.length_append] at h2
  have h3 : s.takeWhile isDigit ≠ [] := by intro e; rw [e] at hd; simp at hd
  have h4 := List.length_pos_iff.2 h3
  have hr : r = rest := by
    split at h
    · split at h
      · cases h; rfl
      · split at h <;> cases h <;> rfl
    · generalize over _ = b at h
      cases b <;> simp at h
      exact h.2.symm
  rw [hr]
  omega

theorem parseNumber_length {over : List Char → Bool} {s r : List Char} {n : JsonNum}
    (h : parseNumber over s = some (n, r)) : r.length < s.length := by
  unfold parseNumber at h
  split at h
  · have := parseDigitsOf_length h; simp; omega
  · exact parseDigitsOf_length h

theorem member_length {over : List Char → Bool} {fuel d : Nat} {m : JsonMode} {s r : List Char} {v : Json}
    (h : ∀ m d s v r, parseValue over m fuel d s = (v, some r) → r.length < s.length)
    (e : orSkip m (parseValue over m fuel d s) (parseValue over .skip fuel d s).2 = (v, some r)) : r.length < s.length := by
  rcases orSkip_ok e with e | ⟨-, v', -, e, -⟩
  · exact h _ _ _ _ _ e
  · exact h _ _ _ _ _ (Prod.ext rfl e)

theorem parse_lengths (over : List Char → Bool) (fuel : Nat) :
    (∀ m d s v r, parseValue over m fuel d s = (v, some r) → r.length < s.length) ∧
    (∀ m d b s v r, parseElems over m fuel d b s = (v, some r) → r.length < s.length) ∧
    (∀ m d b s v r, parseMembers over m fuel d b s = (v, some r) → r.length < s.length) := by
  induction fuel with
  | zero => refine ⟨?_, ?_, ?_⟩ <;> intros <;> simp_all [parseValue, parseElems, parseMembers]
  | succ fuel ih =>
    obtain ⟨i1, i2, i3⟩ := ih
    refine ⟨?_, ?_, ?_⟩
    · intro m d s v r h
      have hl := skipWs_length s
      rw [parseValue] at h
      split at h
      · simp at h
      next c t e =>
      rw [e] at hl
      simp only [List.length_cons] at hl
      split at h
      · have := parseIdent_length h; omega
      split at h
      · have := parseIdent_length h; omega
      split at h
      · have := parseIdent_length h; omega
      split at h
      · split at h
        · next e => have := readStr_length e; simp at h; rw [← h.2]; omega
        · simp at h
      split at h
      · split at h
        · simp at h
        · simp only [Prod.mk.injEq] at h
          have := i2 _ _ _ _ _ _ (Prod.ext rfl h.2); omega
      split at h
      · split at h
        · simp at h
        · simp only [Prod.mk.injEq] at h
          have := i3 _ _ _ _ _ _ (Prod.ext rfl h.2); omega
      split at h
      · next e => have := parseNumber_length e; simp at h this; rw [← h.2]; omega
      · simp at h
    · intro m d b s v r h
      have hl := skipWs_length s
      rw [parseElems] at h
      split at h
      · simp at h
      next c t e =>
      rw [e] at hl
      simp only [List.length_cons] at hl
      have key : ∀ u : List Char, u.length ≤ t.length + 1 →
          (match parseValue over m fuel d u with
          | (v, none) => ([v], none)
          | (v, some r) => (v :: (parseElems over m fuel d false r).1, (parseElems over m fuel d false r).2)) = (v, some r) →
          r.length < s.length := by
        intro u hu h
        split at h
        · simp at h
        · next e' =>
          have a := i1 _ _ _ _ _ e'
          simp only [Prod.mk.injEq] at h
          have := i2 _ _ _ _ _ _ (Prod.ext rfl h.2); omega
      split at h
      · simp at h; rw [← h.2]; omega
      · simp only at h
        split at h
        · exact key _ (by simp) h
        · split at h
          · have := skipWs_length t
            split at h
            · simp at h
            · exact key _ (by omega) h
          · simp at h
    · intro m d b s v r h
      have hl := skipWs_length s
      rw [parseMembers] at h
      split at h
      · simp at h
      next c t e =>
      rw [e] at hl
      simp only [List.length_cons] at hl
      have key : ∀ u : List Char, u.length ≤ t.length + 1 →
          (match u with
          | '"' :: t =>
            match readStr m t with
            | none => ([([], bad)], none)
            | some (k, t) =>
              match skipWs t with
              | ':' :: t =>
                match orSkip m (parseValue over m fuel d t) (parseValue over .skip fuel d t).2 with
                | (v, none) => ([(k, v)], none)
                | (v, some r) => ((k, v) :: (parseMembers over m fuel d false r).1, (parseMembers over m fuel d false r).2)
              | _ => ([(k, bad)], none)
          | _ => ([([], bad)], none)) = (v, some r) →
          r.length < s.length := by
        intro u hu h
        split at h
        · split at h
          · simp at h
          · next e1 =>
            have a := readStr_length e1
            split at h
            · next e2 =>
              have b := skipWs_length _ |> Nat.le_trans (Nat.le_of_eq (congrArg List.length e2.symm))
              split at h
              · simp at h
              · next e3 =>
                have c := member_length i1 e3
                simp only [Prod.mk.injEq] at h
                have := i3 _ _ _ _ _ _ (Prod.ext rfl h.2)
                simp at hu b; omega
            · simp at h
        · simp at h
      split at h
      · simp at h; rw [← h.2]; omega
      · simp only at h
        split at h
        · exact key _ (by simp) h
        · split at h
          · have := skipWs_length t
            exact key _ (by omega) h
          · simp at h

/-- More fuel than the text needs changes nothing. -/
theorem parse_more (over : List Char → Bool) (fuel : Nat) :
    (∀ m d s, 2 * s.length + 1 ≤ fuel → parseValue over m fuel d s = parseValue over m (fuel + 1) d s) ∧
    (∀ m d b s, 2 * s.length + 2 ≤ fuel → parseElems over m fuel d b s = parseElems over m (fuel + 1) d b s) ∧
    (∀ m d b s, 2 * s.length + 2 ≤ fuel → parseMembers over m fuel d b s = parseMembers over m (fuel + 1) d b s) := by
  induction fuel with
  | zero => refine ⟨?_, ?_, ?_⟩ <;> intros <;> omega
  | succ fuel ih =>
    obtain ⟨i1, i2, i3⟩ := ih
    refine ⟨?_, ?_, ?_⟩
    · intro m d s hs
      have hl := skipWs_length s
      rw [parseValue, parseValue]
      match e : skipWs s with
      | [] => rfl
      | c :: t =>
        rw [e] at hl
        simp only [List.length_cons] at hl
        simp only
        rw [i2 _ _ _ _ (by omega), i3 _ _ _ _ (by omega)]
    · intro m d b s hs
      have hl := skipWs_length s
      rw [parseElems, parseElems]
      match e : skipWs s with
      | [] => rfl
      | c :: t =>
        rw [e] at hl
        simp only [List.length_cons] at hl
        simp only
        have hl2 := skipWs_length t
        have key : ∀ u : List Char, u.length ≤ t.length + 1 →
          (match parseValue over m fuel d u with
          | (v, none) => ([v], none)
          | (v, some r) => (v :: (parseElems over m fuel d false r).1, (parseElems over m fuel d false r).2)) =
          (match parseValue over m (fuel + 1) d u with
          | (v, none) => ([v], none)
          | (v, some r) => (v :: (parseElems over m (fuel + 1) d false r).1, (parseElems over m (fuel + 1) d false r).2)) := by
          intro u hu
          rw [← i1 _ _ _ (by omega)]
          match e : parseValue over m fuel d u with
          | (v, none) => rfl
          | (v, some r) =>
            have a := (parse_lengths over fuel).1 _ _ _ _ _ e
            simp only
            rw [i2 _ _ _ _ (by omega)]
        by_cases h1 : c = ']'
        · simp only [if_pos h1]
        by_cases h2 : b = true
        · simp only [if_neg h1, if_pos h2]
          exact key (c :: t) (by simp)
        by_cases h3 : c = ','
        · simp only [if_neg h1, if_neg h2, if_pos h3]
          split
          · rfl
          · exact key _ (by omega)
        · simp only [if_neg h1, if_neg h2, if_neg h3]
    · intro m d b s hs
      have hl := skipWs_length s
      rw [parseMembers, parseMembers]
      match e : skipWs s with
      | [] => rfl
      | c :: t =>
        rw [e] at hl
        simp only [List.length_cons] at hl
        simp only
        have hl2 := skipWs_length t
        have key : ∀ u : List Char, u.length ≤ t.length + 1 →
          (match u with
          | '"' :: t =>
            match readStr m t with
            | none => ([([], bad)], none)
            | some (k, t) =>
              match skipWs t with
              | ':' :: t =>
                match orSkip m (parseValue over m fuel d t) (parseValue over .skip fuel d t).2 with
                | (v, none) => ([(k, v)], none)
                | (v, some r) => ((k, v) :: (parseMembers over m fuel d false r).1, (parseMembers over m fuel d false r).2)
              | _ => ([(k, bad)], none)
          | _ => ([([], bad)], none)) =
          (match u with
          | '"' :: t =>
            match readStr m t with
            | none => ([([], bad)], none)
            | some (k, t) =>
              match skipWs t with
              | ':' :: t =>
                match orSkip m (parseValue over m (fuel + 1) d t) (parseValue over .skip (fuel + 1) d t).2 with
                | (v, none) => ([(k, v)], none)
                | (v, some r) => ((k, v) :: (parseMembers over m (fuel + 1) d false r).1, (parseMembers over m (fuel + 1) d false r).2)
              | _ => ([(k, bad)], none)
          | _ => ([([], bad)], none)) := by
          intro u hu
          split
          · next t' =>
            split
            · rfl
            · next k t2 e1 =>
              have a := readStr_length e1
              have a2 := skipWs_length t2
              split
              · next t3 e2 =>
                rw [e2] at a2
                simp at a2 hu
                rw [← i1 m _ _ (by omega), ← i1 .skip _ _ (by omega)]
                match e : orSkip m (parseValue over m fuel d t3) (parseValue over .skip fuel d t3).2 with
                | (v, none) => rfl
                | (v, some r) =>
                  have a := member_length (parse_lengths over fuel).1 e
                  simp only
                  rw [i3 _ _ _ _ (by omega)]
              · rfl
          · rfl
        by_cases h1 : c = '}'
        · simp only [if_pos h1]
        by_cases h2 : b = true
        · simp only [if_neg h1, if_pos h2]
          exact key (c :: t) (by simp)
        by_cases h3 : c = ','
        · simp only [if_neg h1, if_neg h2, if_pos h3]
          exact key _ (by omega)
        · simp only [if_neg h1, if_neg h2, if_neg h3]

/-- However much fuel is given beyond `2 * length + 2`: the result is that of `parse`. -/
theorem parse_fuel (over : List Char → Bool) (m : JsonMode) (s : List Char) (extra : Nat) :
    parseValue over m (2 * s.length + 2 + extra) 128 s = parse over m s := by
  induction extra with
  | zero => rfl
  | succ n ih => rw [← ih]; exact ((parse_more over (2 * s.length + 2 + n)).1 m 128 s (by omega)).symm

end Json
end Klavier
