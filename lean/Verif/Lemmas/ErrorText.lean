import Verif.Model.ErrorText
import Verif.Spec.ErrorText
import Verif.Lemmas.Text
import Verif.Lemmas.Pitch

/-! # Lemmas about the texts of errors -/
set_option autoImplicit false
namespace Klavier
open Spec

private theorem scan_digits (m : Bool) : ∀ (ds : List Char) (n : Nat) (r : List Char), (∀ c ∈ ds, IsDigit c) →
    scanNumbers m (some n) (ds ++ r) = scanNumbers m (some (n * 10 ^ ds.length + numeralValue ds)) r
  | [], n, r, _ => by simp [numeralValue]
  | c :: ds, n, r, h => by
    rw [List.cons_append, scanNumbers, if_pos (h c (List.mem_cons_self ..)),
      scan_digits m ds _ r (fun c hc => h c (List.mem_cons_of_mem _ hc))]
    congr 2
    simp only [numeralValue, Option.getD_some, List.length_cons, Nat.pow_succ, Nat.add_mul, Nat.mul_assoc,
      Nat.mul_comm 10]
    omega

/-- A number that ends the text -/
theorem scan_end (m : Bool) (n : Nat) : scanNumbers m none (decimal n) = [if m then -(n : Int) else n] := by
  obtain ⟨⟨hne, hd⟩, hv⟩ := decimal_spec n
  match e : decimal n, hne with
  | c :: ds, _ =>
    rw [e] at hd hv
    rw [scanNumbers, if_pos (hd c (List.mem_cons_self ..))]
    have := scan_digits m ds ((none : Option Nat).getD 0 * 10 + (c.toNat - '0'.toNat)) []
      (fun c hc => hd c (List.mem_cons_of_mem _ hc))
    rw [List.append_nil] at this
    rw [this, show (none : Option Nat).getD 0 * 10 + (c.toNat - '0'.toNat) = c.toNat - '0'.toNat by simp]
    rw [show (c.toNat - '0'.toNat) * 10 ^ ds.length + numeralValue ds = n from hv]
    rfl

/-- A number, followed by something else -/
theorem scan_number (m : Bool) (n : Nat) (c : Char) (r : List Char) (hc : ¬ IsDigit c) :
    scanNumbers m none (decimal n ++ c :: r) = (if m then -(n : Int) else n) :: scanNumbers (c == '-') none r := by
  obtain ⟨⟨hne, hd⟩, hv⟩ := decimal_spec n
  match e : decimal n, hne with
  | d :: ds, _ =>
    rw [e] at hd hv
    rw [List.cons_append, scanNumbers, if_pos (hd d (List.mem_cons_self ..)),
      scan_digits m ds _ _ (fun c hc => hd c (List.mem_cons_of_mem _ hc)),
      show (none : Option Nat).getD 0 * 10 + (d.toNat - '0'.toNat) = d.toNat - '0'.toNat by simp,
      show (d.toNat - '0'.toNat) * 10 ^ ds.length + numeralValue ds = n from hv, scanNumbers, if_neg hc]
    rfl

/-- Text without digits and minus signs -/
theorem scan_plain (m : Bool) (r : List Char) : ∀ (s : List Char), s ≠ [] → s.all (fun c => ¬ IsDigit c ∧ c ≠ '-') = true →
    scanNumbers m none (s ++ r) = scanNumbers false none r := by
  intro s
  induction s generalizing m with
  | nil => intro h; exact absurd rfl h
  | cons c s ih =>
    intro _ h
    simp only [List.all_cons, Bool.and_eq_true, decide_eq_true_eq] at h
    rw [List.cons_append, scanNumbers, if_neg h.1.1, show (c == '-') = false by simpa using h.1.2]
    show scanNumbers false none (s ++ r) = _
    by_cases hs : s = []
    · rw [hs]; rfl
    · exact ih false hs h.2

theorem scan_plain_end (m : Bool) (s : List Char) (h : s.all (fun c => ¬ IsDigit c ∧ c ≠ '-') = true) :
    scanNumbers m none s = [] := by
  by_cases hs : s = []
  · rw [hs]; rfl
  · have := scan_plain m [] s hs h
    rw [List.append_nil] at this
    rw [this]; rfl

/-- A number with its sign that ends the text -/
theorem scan_int_end (v : Int) : scanNumbers false none (showInt v) = [v] := by
  unfold showInt
  split
  · rw [scanNumbers, if_neg (by decide)]
    show scanNumbers true none _ = _
    rw [scan_end]
    simp only [if_true, List.cons.injEq, and_true]
    omega
  · rw [scan_end]
    simp only [List.cons.injEq, and_true, Bool.false_eq_true, if_false]
    omega

theorem scan_int (v : Int) (c : Char) (r : List Char) (hc : ¬ IsDigit c) :
    scanNumbers false none (showInt v ++ c :: r) = v :: scanNumbers (c == '-') none r := by
  unfold showInt
  split
  · rw [List.cons_append, scanNumbers, if_neg (by decide)]
    show scanNumbers true none _ = _
    rw [scan_number _ _ _ _ hc]
    simp only [if_true, List.cons.injEq, and_true]
    omega
  · rw [scan_number _ _ _ _ hc]
    simp only [List.cons.injEq, and_true, Bool.false_eq_true, if_false]
    omega

theorem RenderRegionError.numbers1 (name field : String) (t : Nat)
    (hn : name.toList ≠ [] ∧ name.toList.all (fun c => ¬ IsDigit c ∧ c ≠ '-') = true)
    (hf : field.toList ≠ [] ∧ field.toList.all (fun c => ¬ IsDigit c ∧ c ≠ '-') = true) :
    numbersIn (debug1 name field t) = [(t : Int)] := by
  unfold numbersIn debug1
  rw [scan_plain _ _ _ hn.1 hn.2, scan_plain _ _ _ (by decide) (by decide), scan_plain _ _ _ hf.1 hf.2,
    scan_plain _ _ _ (by decide) (by decide), show " }".toList = ' ' :: ['}'] from rfl, scan_number _ _ _ _ (by decide),
    scan_plain_end _ _ (by decide)]
  rfl

theorem RenderRegionError.numbers2 (name : String) (a b : Nat)
    (hn : name.toList ≠ [] ∧ name.toList.all (fun c => ¬ IsDigit c ∧ c ≠ '-') = true) :
    numbersIn (debug2 name a b) = [(a : Int), (b : Int)] := by
  unfold numbersIn debug2
  rw [scan_plain _ _ _ hn.1 hn.2, scan_plain _ _ _ (by decide) (by decide),
    show ", ".toList = ',' :: [' '] from rfl, List.cons_append, scan_number _ _ _ _ (by decide),
    show "] }".toList = ']' :: [' ', '}'] from rfl, List.singleton_append, show (',' == '-') = false from rfl,
    show ' ' :: (decimal b ++ ']' :: [' ', '}']) = [' '] ++ (decimal b ++ ']' :: [' ', '}']) from rfl,
    scan_plain _ _ _ (by decide) (by decide), scan_number _ _ _ _ (by decide), scan_plain_end _ _ (by decide)]
  rfl

theorem scan_sep (m : Bool) (n : Nat) (s : String) (c : Char) (s' r : List Char) (hs : s.toList = c :: s') (hc : ¬ IsDigit c)
    (hm : c ≠ '-') (h : s' = [] ∨ (s' ≠ [] ∧ s'.all (fun c => ¬ IsDigit c ∧ c ≠ '-') = true)) :
    scanNumbers m none (decimal n ++ (s.toList ++ r)) = (if m then -(n : Int) else n) :: scanNumbers false none r := by
  rw [hs, List.cons_append, scan_number _ _ _ _ hc, show (c == '-') = false by simpa using hm]
  rcases h with rfl | h
  · rfl
  · rw [scan_plain _ _ _ h.1 h.2]

theorem scan_varIndex (v : VarIndex) (c : Char) (r : List Char) (hc : ¬ IsDigit c) :
    scanNumbers false none (v.debug ++ c :: r) = (v.value : Int) :: scanNumbers (c == '-') none r := by
  cases v <;> (
    show scanNumbers false none ('V' :: 'I' :: _ :: c :: r) = _
    rw [scanNumbers, if_neg (by decide), scanNumbers, if_neg (by decide), scanNumbers, if_pos (by decide), scanNumbers, if_neg hc]
    rfl)

attribute [local irreducible] RenderRegionError.debug1 RenderRegionError.debug2 in
theorem RenderRegionError.numbers (e : RenderRegionError) : numbersIn e.text = numbersOf e := by
  cases e with
  | invalidRegionIndex t a e =>
    unfold numbersIn text
    rw [scan_plain _ _ _ (by decide) (by decide), scan_plain _ _ _ (by decide) (by decide),
      scan_sep _ _ _ ',' _ _ rfl (by decide) (by decide) (by decide),
      show ", expected: ".toList = ',' :: " expected: ".toList from rfl, List.cons_append, scan_varIndex _ _ _ (by decide),
      scan_plain _ _ _ (by decide) (by decide), show " }".toList = ' ' :: ['}'] from rfl, scan_varIndex _ _ _ (by decide)]
    rfl
  | fineNotAfterSegno a b =>
    unfold numbersIn text
    rw [scan_plain _ _ _ (by decide) (by decide), scan_plain _ _ _ (by decide) (by decide),
      scan_sep _ _ _ ',' _ _ rfl (by decide) (by decide) (by decide), show " }".toList = ' ' :: ['}'] from rfl,
      scan_number _ _ _ _ (by decide)]
    rfl
  | moreThanTwoCodas a b c =>
    unfold numbersIn text
    rw [scan_plain _ _ _ (by decide) (by decide), scan_plain _ _ _ (by decide) (by decide),
      scan_sep _ _ _ ',' _ _ rfl (by decide) (by decide) (by decide),
      scan_sep _ _ _ ',' _ _ rfl (by decide) (by decide) (by decide), show "] }".toList = ']' :: [' ', '}'] from rfl,
      scan_number _ _ _ _ (by decide)]
    rfl
  | codaAfterFine a b c =>
    unfold numbersIn text
    rw [scan_plain _ _ _ (by decide) (by decide), scan_plain _ _ _ (by decide) (by decide),
      scan_sep _ _ _ ',' _ _ rfl (by decide) (by decide) (by decide),
      scan_sep _ _ _ ',' _ _ rfl (by decide) (by decide) (by decide), show " }".toList = ' ' :: ['}'] from rfl,
      scan_number _ _ _ _ (by decide)]
    rfl
  | _ => first | exact numbers2 _ _ _ (by decide) | exact numbers1 _ _ _ (by decide) (by decide)

private theorem take_name (a b : List Char) (h : a.all (· != ' ') = true) :
    (a ++ ' ' :: b).takeWhile (· != ' ') = a := by
  induction a with
  | nil => rfl
  | cons c a ih =>
    simp only [List.all_cons, Bool.and_eq_true] at h
    simp only [List.cons_append, List.takeWhile_cons, h.1, if_true, ih h.2]

private def kind : RenderRegionError → Fin 22
  | .duplicatedRepeatStart _ => 0 | .duplicatedSegno _ _ => 1 | .duplicatedDsDc _ _ => 2 | .duplicatedFine _ _ => 3
  | .orphanRepeatEnd _ => 4 | .fineWithoutDsDc _ => 5 | .segnoWithoutDs _ => 6 | .codaWithoutDsDc _ _ => 7
  | .noRepeatEnd _ => 8 | .invalidRegionIndex _ _ _ => 9 | .repeatInVariation _ => 10 | .variationNotClosed _ => 11
  | .repeatOrVariationOnDc _ => 12 | .repeatOrVariationOnDs _ => 13 | .fineNotAfterSegno _ _ => 14 | .noSegnoForDs _ => 15
  | .moreThanTwoCodas _ _ _ => 16 | .onlyOneCoda _ => 17 | .dcDsWhileRepeat _ => 18 | .dcDsWhileVariation _ => 19
  | .segnoWhileVariation _ => 20 | .codaAfterFine _ _ _ => 21

private def kindNames : List String :=
  ["DuplicatedRepeatStart", "DuplicatedSegno", "DuplicatedDsDc", "DuplicatedFine",
   "OrphanRepeatEnd", "FineWithoutDsDc", "SegnoWithoutDs", "CodaWithoutDsDc",
   "NoRepeatEnd", "InvalidRegionIndex", "RepeatInVariation", "VariationNotClosed",
   "RepeatOrVariationOnDc", "RepeatOrVariationOnDs", "FineNotAfterSegno", "NoSegnoForDs",
   "MoreThanTwoCodas", "OnlyOneCoda", "DcDsWhileRepeat", "DcDsWhileVariation",
   "SegnoWhildVariation", "CodaAfterFine"]

private def kindName (k : Fin 22) : String := kindNames[k.val]'k.isLt

private theorem kindName_plain : ∀ k, (kindName k).toList.all (· != ' ') = true := by decide +kernel

private theorem kindName_inj : ∀ k k', kindName k = kindName k' → k = k' := by decide +kernel

private theorem text_kind (e : RenderRegionError) : ∃ r, e.text = (kindName (kind e)).toList ++ ' ' :: r := by
  cases e <;> exact ⟨_, rfl⟩

private theorem value_inj (a b : VarIndex) : (a.value = b.value) ↔ a = b := by cases a <;> cases b <;> decide

theorem RenderRegionError.text_inj {e e' : RenderRegionError} (h : e.text = e'.text) : e = e' := by
  have hn : numbersOf e = numbersOf e' := by rw [← numbers, ← numbers, h]
  obtain ⟨r, hr⟩ := text_kind e
  obtain ⟨r', hr'⟩ := text_kind e'
  have hk : kind e = kind e' := by
    apply kindName_inj
    apply String.toList_injective
    rw [← take_name _ r (kindName_plain _), ← hr, h, hr', take_name _ _ (kindName_plain _)]
  clear h hr hr'
  cases e <;> cases e' <;> first
    | (simp only [kind] at hk; exact absurd hk (by decide))
    | (simp only [numbersOf, List.cons.injEq, Int.ofNat_inj, and_true, value_inj] at hn
       simp only [hn])

theorem OctaveError.numbers (v : Int) : numbersIn (OctaveError.text (.invalidValue v)) = [v, -2, v, 8] := by
  unfold numbersIn OctaveError.text
  rw [scan_plain _ _ _ (by decide) (by decide), show ") should ".toList = ')' :: " should ".toList from rfl,
    List.cons_append, scan_int _ _ _ (by decide), show (')' == '-') = false from rfl,
    scan_plain _ _ _ (by decide) (by decide), show " <= ".toList = ' ' :: "<= ".toList from rfl, List.cons_append,
    scan_int _ _ _ (by decide), show (' ' == '-') = false from rfl, scan_plain _ _ _ (by decide) (by decide), List.cons_append,
    scan_int _ _ _ (by decide), show (' ' == '-') = false from rfl, scan_plain _ _ _ (by decide) (by decide), scan_int_end]
  rfl

theorem showInt_inj {a b : Int} (h : showInt a = showInt b) : a = b := by
  have := scan_int_end a
  rw [h, scan_int_end] at this
  exact ((List.cons.inj this).1).symm

private theorem split_at (c : Char) : ∀ (a a' r r' : List Char), a ++ c :: r = a' ++ c :: r' → c ∉ a → c ∉ a' → a = a' ∧ r = r'
  | [], [], _, _, h, _, _ => ⟨rfl, (List.cons.inj h).2⟩
  | [], _ :: _, _, _, h, _, hn => absurd (List.cons.inj h).1 (fun e => hn (e ▸ List.mem_cons_self ..))
  | _ :: _, [], _, _, h, hn, _ => absurd (List.cons.inj h).1.symm (fun e => hn (e ▸ List.mem_cons_self ..))
  | x :: a, y :: a', r, r', h, h1, h2 => by
    obtain ⟨h3, h4⟩ := List.cons.inj h
    obtain ⟨h5, h6⟩ := split_at c a a' r r' h4 (fun m => h1 (List.mem_cons_of_mem _ m)) (fun m => h2 (List.mem_cons_of_mem _ m))
    exact ⟨by rw [h3, h5], h6⟩

private theorem solfa_debug_inj : ∀ s s' : Solfa, s.debug = s'.debug → s = s' := by
  intro s s'; cases s <;> cases s' <;> decide
private theorem octave_debug_inj : ∀ o o' : Octave, o.debug = o'.debug → o = o' := by
  intro o o'; cases o <;> cases o' <;> decide
private theorem sharp_debug_inj : ∀ a a' : SharpFlat, a.debug = a'.debug → a = a' := by
  intro a a'; cases a <;> cases a' <;> decide
private theorem solfa_debug_no : ∀ s : Solfa, ',' ∉ s.debug := by intro s; cases s <;> decide
private theorem octave_debug_no : ∀ o : Octave, ',' ∉ o.debug := by intro o; cases o <;> decide
private theorem sharp_debug_no : ∀ a : SharpFlat, ')' ∉ a.debug := by intro a; cases a <;> decide

private theorem pitch_inj {s s' : Solfa} {o o' : Octave} {a a' : SharpFlat} {r r' : List Char}
    (h : "Pitch(".toList ++ (s.debug ++ (", ".toList ++ (o.debug ++ (", ".toList ++ (a.debug ++ (')' :: r)))))) =
      "Pitch(".toList ++ (s'.debug ++ (", ".toList ++ (o'.debug ++ (", ".toList ++ (a'.debug ++ (')' :: r'))))))) :
    s = s' ∧ o = o' ∧ a = a' ∧ r = r' := by
  have h := List.append_cancel_left h
  obtain ⟨h1, h⟩ := split_at ',' _ _ _ _ h (solfa_debug_no _) (solfa_debug_no _)
  obtain ⟨h2, h⟩ := split_at ',' _ _ _ _ (List.cons.inj h).2 (octave_debug_no _) (octave_debug_no _)
  obtain ⟨h3, h⟩ := split_at ')' _ _ _ _ (List.cons.inj h).2 (sharp_debug_no _) (sharp_debug_no _)
  exact ⟨solfa_debug_inj _ _ h1, octave_debug_inj _ _ h2, sharp_debug_inj _ _ h3, h⟩

theorem PitchError.text_inj {e e' : PitchError} (h : e.text = e'.text) : e = e' := by
  cases e with
  | tooLow s o a v =>
    cases e' with
    | tooLow s' o' a' v' =>
      obtain ⟨h1, h2, h3, h4⟩ := pitch_inj (r := " is too low ".toList ++ showInt v) (r' := " is too low ".toList ++ showInt v') h
      rw [h1, h2, h3, showInt_inj (List.append_cancel_left h4)]
    | tooHigh s' o' a' v' =>
      obtain ⟨_, _, _, h4⟩ := pitch_inj (r := " is too low ".toList ++ showInt v) (r' := " is too high ".toList ++ showInt v') h
      have h4 : ' ' :: 'i' :: 's' :: ' ' :: 't' :: 'o' :: 'o' :: ' ' :: 'l' :: 'o' :: 'w' :: ' ' :: showInt v =
        ' ' :: 'i' :: 's' :: ' ' :: 't' :: 'o' :: 'o' :: ' ' :: 'h' :: 'i' :: 'g' :: 'h' :: ' ' :: showInt v' := h4
      simp at h4
    | invalidScoreOffset v' =>
      have h1 := congrArg List.head? h
      exact absurd (show some 'P' = some 'S' from h1) (by decide)
  | tooHigh s o a v =>
    cases e' with
    | tooHigh s' o' a' v' =>
      obtain ⟨h1, h2, h3, h4⟩ := pitch_inj (r := " is too high ".toList ++ showInt v) (r' := " is too high ".toList ++ showInt v') h
      rw [h1, h2, h3, showInt_inj (List.append_cancel_left h4)]
    | tooLow s' o' a' v' =>
      obtain ⟨_, _, _, h4⟩ := pitch_inj (r := " is too high ".toList ++ showInt v) (r' := " is too low ".toList ++ showInt v') h
      have h4 : ' ' :: 'i' :: 's' :: ' ' :: 't' :: 'o' :: 'o' :: ' ' :: 'h' :: 'i' :: 'g' :: 'h' :: ' ' :: showInt v =
        ' ' :: 'i' :: 's' :: ' ' :: 't' :: 'o' :: 'o' :: ' ' :: 'l' :: 'o' :: 'w' :: ' ' :: showInt v' := h4
      simp at h4
    | invalidScoreOffset v' =>
      have h1 := congrArg List.head? h
      exact absurd (show some 'P' = some 'S' from h1) (by decide)
  | invalidScoreOffset v =>
    cases e' with
    | invalidScoreOffset v' =>
      have h1 := List.append_cancel_left h
      rw [showInt_inj (List.append_cancel_right h1)]
    | tooLow s' o' a' v' =>
      have h1 := congrArg List.head? h
      exact absurd (show some 'S' = some 'P' from h1) (by decide)
    | tooHigh s' o' a' v' =>
      have h1 := congrArg List.head? h
      exact absurd (show some 'S' = some 'P' from h1) (by decide)

private theorem scan_octave (o : Octave) (r : List Char) :
    scanNumbers false none (o.debug ++ (", ".toList ++ r)) = (o.value.natAbs : Int) :: scanNumbers false none r := by
  have k : ∀ (d : Char) (n : Int), IsDigit d → ((d.toNat - '0'.toNat : Nat) : Int) = n →
      scanNumbers false none (d :: ',' :: ' ' :: r) = n :: scanNumbers false none r := by
    intro d n hd hn
    rw [scanNumbers, if_pos hd, scanNumbers, if_neg (by decide)]
    show [(((none : Option Nat).getD 0 * 10 + (d.toNat - '0'.toNat) : Nat) : Int)] ++ scanNumbers (' ' == '-') none r = _
    simp only [Option.getD_none, Nat.zero_mul, Nat.zero_add, hn]
    rfl
  cases o <;> first
    | exact (scan_plain false _ ['O', 'c', 't', 'M'] (by decide) (by decide)).trans (k _ _ (by decide) rfl)
    | exact (scan_plain false _ ['O', 'c', 't'] (by decide) (by decide)).trans (k _ _ (by decide) rfl)

/-- The numbers in the message of a pitch error: that of the octave (without its sign),
and the one it is about -/
theorem PitchError.numbers (e : PitchError) : numbersIn e.text = (match e with
    | .tooLow _ o _ v => [(o.value.natAbs : Int), v] | .tooHigh _ o _ v => [(o.value.natAbs : Int), v]
    | .invalidScoreOffset v => [v]) := by
  have hs : ∀ s : Solfa, s.debug ≠ [] ∧ s.debug.all (fun c => ¬ IsDigit c ∧ c ≠ '-') = true := by intro s; cases s <;> decide
  have ha : ∀ a : SharpFlat, a.debug ≠ [] ∧ a.debug.all (fun c => ¬ IsDigit c ∧ c ≠ '-') = true := by
    intro a; cases a <;> decide
  cases e with
  | tooLow s o a v =>
    unfold numbersIn PitchError.text
    rw [scan_plain _ _ _ (by decide) (by decide), scan_plain _ _ _ (hs s).1 (hs s).2, scan_plain _ _ _ (by decide) (by decide),
      scan_octave, scan_plain _ _ _ (ha a).1 (ha a).2, scan_plain _ _ _ (by decide) (by decide), scan_int_end]
  | tooHigh s o a v =>
    unfold numbersIn PitchError.text
    rw [scan_plain _ _ _ (by decide) (by decide), scan_plain _ _ _ (hs s).1 (hs s).2, scan_plain _ _ _ (by decide) (by decide),
      scan_octave, scan_plain _ _ _ (ha a).1 (ha a).2, scan_plain _ _ _ (by decide) (by decide), scan_int_end]
  | invalidScoreOffset v =>
    unfold numbersIn PitchError.text
    rw [scan_plain _ _ _ (by decide) (by decide), scan_int _ _ _ (by decide)]
    rfl

theorem tellsTruth_valueOf {s : Solfa} {o : Octave} {a : SharpFlat} {e : PitchError} (h : Pitch.valueOf s o a = .error e) :
    TellsTruth e := by
  rw [valueOf_spec] at h
  split at h
  · next h1 => cases h; exact ⟨rfl, h1⟩
  · split at h
    · next h1 => cases h; exact ⟨rfl, h1⟩
    · cases h

end Klavier
