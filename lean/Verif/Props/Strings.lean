import Verif.Lemmas.Members

/-! # C67: strings on the clipboard -/
set_option autoImplicit false
namespace Klavier
open Spec

private theorem toNat_eq {c : Char} {n : Nat} (h : c.toNat = n) : c = Char.ofNat n := by
  rw [← h, Char.ofNat_toNat]

private theorem hex_iff (c : Char) (d : Nat) : Json.hexDigit c = some d ↔ Hex c d := by
  constructor
  · intro h
    simp only [Json.hexDigit, Char.le_def, UInt32.le_iff_toNat_le] at h
    have key : ∀ (n : Nat), (48 ≤ n ∧ n ≤ 57) → Hex (Char.ofNat n) (n - 48) := by
      have h : ∀ n ∈ List.range' 48 10, Hex (Char.ofNat n) (n - 48) := by unfold Hex; decide
      exact fun n hn => h n (by rw [List.mem_range'_1]; omega)
    have key2 : ∀ (n : Nat), (97 ≤ n ∧ n ≤ 102) → Hex (Char.ofNat n) (n - 97 + 10) := by
      have h : ∀ n ∈ List.range' 97 6, Hex (Char.ofNat n) (n - 97 + 10) := by unfold Hex; decide
      exact fun n hn => h n (by rw [List.mem_range'_1]; omega)
    have key3 : ∀ (n : Nat), (65 ≤ n ∧ n ≤ 70) → Hex (Char.ofNat n) (n - 65 + 10) := by
      have h : ∀ n ∈ List.range' 65 6, Hex (Char.ofNat n) (n - 65 + 10) := by unfold Hex; decide
      exact fun n hn => h n (by rw [List.mem_range'_1]; omega)
    split at h
    · next h1 =>
      cases h
      have := key c.toNat h1
      rwa [Char.ofNat_toNat] at this
    · split at h
      · next h1 =>
        cases h
        have := key2 c.toNat h1
        rwa [Char.ofNat_toNat] at this
      · split at h
        · next h1 =>
          cases h
          have := key3 c.toNat h1
          rwa [Char.ofNat_toNat] at this
        · cases h
  · intro h
    have hd : d < 16 := by
      rcases h with h | h <;> (have := (List.getElem?_eq_some_iff.1 h).1; exact this)
    have key : ∀ d < 16, (∀ c ∈ "0123456789abcdef".toList[d]?, Json.hexDigit c = some d) ∧
      (∀ c ∈ "0123456789ABCDEF".toList[d]?, Json.hexDigit c = some d) := by decide
    rcases h with h | h
    · exact (key d hd).1 c h
    · exact (key d hd).2 c h

private theorem hex4_iff (a b c d : Char) (n : Nat) : Json.hex4 a b c d = some n ↔ Unit16 ['\\', 'u', a, b, c, d] n := by
  constructor
  · intro h
    simp only [Json.hex4, Option.bind_eq_bind, Option.bind_eq_some_iff, hex_iff, Option.pure_def, Option.some.injEq] at h
    obtain ⟨w, hw, x, hx, y, hy, z, hz, rfl⟩ := h
    have := Unit16.mk hw hx hy hz
    rwa [show 4096 * w + 256 * x + 16 * y + z = ((w * 16 + x) * 16 + y) * 16 + z by omega] at this
  · rintro ⟨hw, hx, hy, hz⟩
    simp only [Json.hex4, (hex_iff _ _).2 hw, (hex_iff _ _).2 hx, (hex_iff _ _).2 hy, (hex_iff _ _).2 hz, Option.bind_eq_bind,
      Option.bind_some, Option.pure_def, Option.some.injEq]
    omega

private theorem unit_form {w : List Char} {n : Nat} (h : Unit16 w n) :
    ∃ a b c d, w = ['\\', 'u', a, b, c, d] ∧ Json.hex4 a b c d = some n := by
  have h' := h
  cases h with
  | mk => exact ⟨_, _, _, _, rfl, (hex4_iff _ _ _ _ _).2 h'⟩

private theorem hex4_lt {a b c d : Char} {n : Nat} (h : Json.hex4 a b c d = some n) : n < 65536 := by
  have h := (hex4_iff _ _ _ _ _).1 h
  have lt : ∀ {c : Char} {d : Nat}, Hex c d → d < 16 := by
    rintro c d (h | h) <;> (have := (List.getElem?_eq_some_iff.1 h).1; exact this)
  generalize ['\\', 'u', a, b, c, d] = w at h
  cases h with
  | mk h1 h2 h3 h4 =>
    have := lt h1
    have := lt h2
    have := lt h3
    have := lt h4
    omega

private theorem valid (c : Char) : c.toNat < 0xD800 ∨ (0xDFFF < c.toNat ∧ c.toNat < 0x110000) := c.valid

private theorem str_unit {a b c d x : Char} {t : List Char} (h : Json.hex4 a b c d = some x.toNat) :
    Json.parseStr ('\\' :: 'u' :: a :: b :: c :: d :: t) = (Json.parseStr t).map (fun p => (x :: p.1, p.2)) := by
  have hv := valid x
  rw [Json.parseStr.eq_def]
  split
  · contradiction
  · simp at *
  · next e =>
    simp only [List.cons.injEq, true_and] at e
    obtain ⟨rfl, rfl, rfl, rfl, rfl⟩ := e
    simp only [h]
    rw [if_neg (by omega), if_neg (by omega), Char.ofNat_toNat]
  · next e =>
    simp only [List.cons.injEq, true_and] at e
    obtain ⟨rfl, rfl, rfl, rfl, rfl⟩ := e
    simp only [h]
    rw [if_neg (by omega), Char.ofNat_toNat]
  · next hno e =>
    simp only [List.cons.injEq, true_and] at e
    obtain ⟨rfl, rfl⟩ := e
    exact absurd rfl (hno a b c d t rfl)
  · next e =>
    simp only [List.cons.injEq] at e
    obtain ⟨rfl, rfl⟩ := e
    simp_all

private theorem str_short {x e : Char} {t : List Char} (h : Json.escapeChar x = some e) (hu : x ≠ 'u') :
    Json.parseStr ('\\' :: x :: t) = (Json.parseStr t).map (fun p => (e :: p.1, p.2)) := by
  rw [Json.parseStr.eq_def]
  split
  · contradiction
  · simp at *
  · next e => simp_all
  · next e => simp_all
  · next e =>
    simp only [List.cons.injEq, true_and] at e
    obtain ⟨rfl, rfl⟩ := e
    simp only [h]
  · next e =>
    simp only [List.cons.injEq] at e
    obtain ⟨rfl, rfl⟩ := e
    simp_all

private theorem short_iff (x c : Char) : Json.escapeChar x = some c ↔
    (x, c) ∈ [('"', '"'), ('\\', '\\'), ('/', '/'), ('b', Char.ofNat 8), ('f', Char.ofNat 12),
      ('n', Char.ofNat 10), ('r', Char.ofNat 13), ('t', Char.ofNat 9)] := by
  simp only [Json.escapeChar, List.mem_cons, Prod.mk.injEq, List.not_mem_nil, or_false]
  constructor
  · intro h
    repeat' split at h
    all_goals first | (cases h; subst_vars; simp; done) | skip
    all_goals simp_all
  · rintro (⟨rfl, rfl⟩ | ⟨rfl, rfl⟩ | ⟨rfl, rfl⟩ | ⟨rfl, rfl⟩ | ⟨rfl, rfl⟩ | ⟨rfl, rfl⟩ | ⟨rfl, rfl⟩ | ⟨rfl, rfl⟩) <;> decide

private theorem read_spelling {w t : List Char} {c : Char} (h : Spelling w c) :
    Json.parseStr (w ++ t) = (Json.parseStr t).map (fun p => (c :: p.1, p.2)) := by
  cases h with
  | plain h1 h2 h3 =>
    rw [List.singleton_append, Json.parseStr.eq_def]
    split
    · contradiction
    · simp_all
    · simp_all
    · simp_all
    · simp_all
    · next e =>
      simp only [List.cons.injEq] at e
      obtain ⟨rfl, rfl⟩ := e
      rw [if_neg (by simp [h2]; omega)]
  | short h1 =>
    exact str_short ((short_iff _ _).2 h1) (by rintro rfl; revert h1; simp)
  | unit h1 =>
    obtain ⟨a, b, c, d, rfl, h⟩ := unit_form h1
    exact str_unit h
  | pair h1 h2 h3 h4 h5 h6 h7 =>
    obtain ⟨a, b, c, d, rfl, h⟩ := unit_form h1
    obtain ⟨e, f, g, i, rfl, h'⟩ := unit_form h2
    simp only [List.cons_append, List.nil_append, Json.parseStr, h, h']
    rw [if_pos (by omega), if_pos (by omega)]
    rename_i x hi lo
    rw [show (hi - 0xD800) * 1024 + (lo - 0xDC00) + 0x10000 = x.toNat by omega, Char.ofNat_toNat]

private theorem char_toNat {n : Nat} (h : n.isValidChar) : (Char.ofNat n).toNat = n := by
  simp only [Char.ofNat, dif_pos h]
  rfl

private theorem read_back {t : List Char} : ∀ {s r : List Char}, Json.parseStr t = some (s, r) → ∃ w, Spelled w s ∧ t = w ++ '"' :: r := by
  have step : ∀ {t' w : List Char} {c : Char} {s r : List Char}, Spelling w c →
      (∀ {s r : List Char}, Json.parseStr t' = some (s, r) → ∃ w, Spelled w s ∧ t' = w ++ '"' :: r) →
      (Json.parseStr t').map (fun (s, r) => (c :: s, r)) = some (s, r) →
      ∃ v, Spelled v s ∧ w ++ t' = v ++ '"' :: r := by
    intro t' w c s r hw ih h
    obtain ⟨⟨s', r'⟩, h1, h2⟩ := Option.map_eq_some_iff.1 h
    cases h2
    obtain ⟨v, hv, e⟩ := ih h1
    exact ⟨w ++ v, .cons hw hv, by rw [e, List.append_assoc]⟩
  have unitc : ∀ {a b c d : Char} {n : Nat}, Json.hex4 a b c d = some n → ¬ (0xD800 ≤ n ∧ n ≤ 0xDFFF) →
      Spelling ['\\', 'u', a, b, c, d] (Char.ofNat n) := by
    intro a b c d n h hn
    have := hex4_lt h
    have e : (Char.ofNat n).toNat = n := char_toNat (by unfold Nat.isValidChar; omega)
    exact .unit (by rw [e]; exact (hex4_iff _ _ _ _ _).1 h)
  fun_induction Json.parseStr t with
  | case1 => intro s r h; cases h
  | case2 r => intro s r h; cases h; exact ⟨[], .nil, rfl⟩
  | case3 => intro s r h; cases h
  | case4 => intro s r h; cases h
  | case5 =>
    rename_i hi hhi h1 lo hlo h2 ih
    intro s r h
    refine step (.pair ((hex4_iff _ _ _ _ _).1 hhi) ((hex4_iff _ _ _ _ _).1 hlo) h1.1 (by omega) h2.1 (by omega) ?_) ih h
    have hv : ((hi - 55296) * 1024 + (lo - 56320) + 65536).isValidChar := by unfold Nat.isValidChar; omega
    rw [char_toNat hv]
    omega
  | case6 => intro s r h; cases h
  | case7 => intro s r h; cases h
  | case8 =>
    rename_i hn h1 h2 ih
    intro s r h
    exact step (unitc hn (by omega)) ih h
  | case9 => intro s r h; cases h
  | case10 => intro s r h; cases h
  | case11 =>
    rename_i hn h1 ih
    intro s r h
    exact step (unitc hn h1) ih h
  | case12 =>
    rename_i he ih
    intro s r h
    exact step (.short ((short_iff _ _).1 he)) ih h
  | case13 => intro s r h; cases h
  | case14 => intro s r h; cases h
  | case15 =>
    rename_i hq _ _ _ hc ih
    intro s r h
    exact step (w := [_]) (.plain hq (fun e => hc (.inl e)) (by omega)) ih h

/-- A string on the clipboard is read up to the quote that ends it, and as the characters
that are written there, in whichever of the ways of JSON; nothing else is read as a string. -/
theorem C67_strings (t s r : List Char) :
    Json.parseStr t = some (s, r) ↔ ∃ w, Spelled w s ∧ t = w ++ '"' :: r := by
  refine ⟨read_back, ?_⟩
  rintro ⟨w, hw, rfl⟩
  induction hw with
  | nil => rfl
  | cons h _ ih => rw [List.append_assoc, read_spelling h, ih]; rfl

/-! `é` in either case, a character outside the basic plane, and a short escape; half a
pair of surrogates is refused. -/

example : Json.parseStr "\\u00e9\\u00E9\\ud83c\\uDFB5x\\n\",".toList = some ("éé🎵x\n".toList, [',']) := by decide +kernel

example : Spelled "\\ud83c\\uDFB5".toList ['🎵'] :=
  .cons (.pair (hi := 0xD83C) (lo := 0xDFB5) (v := "\\ud83c".toList) (w := "\\uDFB5".toList)
    (.mk (w := 13) (x := 8) (y := 3) (z := 12) (.inl rfl) (.inl rfl) (.inl rfl) (.inl rfl))
    (.mk (w := 13) (x := 15) (y := 11) (z := 5) (.inr rfl) (.inr rfl) (.inr rfl) (.inr rfl))
    (by decide) (by decide) (by decide) (by decide) rfl) .nil

example : Json.parseStr "\\ud83c\"".toList = none := by decide +kernel

private theorem short_mem (x : Char) : (∃ c, Json.escapeChar x = some c) ↔ x ∈ ['"', '\\', '/', 'b', 'f', 'n', 'r', 't'] := by
  constructor
  · rintro ⟨c, h⟩
    simp only [short_iff, List.mem_cons, Prod.mk.injEq, List.not_mem_nil, or_false] at h
    rcases h with h | h | h | h | h | h | h | h <;> simp [h.1]
  · intro h
    simp only [List.mem_cons, List.not_mem_nil, or_false] at h
    rcases h with h | h | h | h | h | h | h | h <;> subst h <;> exact ⟨_, rfl⟩

/-- A string that belongs to an unknown member is skipped up to the quote that ends it: `\u`
must be followed by four hexadecimal digits, but they need not be a character. -/
theorem C67_skipped (t r : List Char) : Json.ignoreStr t = some r ↔ ∃ w, Skipped w ∧ t = w ++ '"' :: r := by
  constructor
  · intro h
    fun_induction Json.ignoreStr t with
    | case1 => cases h
    | case2 => cases h; exact ⟨[], .nil, rfl⟩
    | case3 => cases h
    | case4 =>
      rename_i hn ih
      obtain ⟨w, hw, rfl⟩ := ih h
      exact ⟨_, .unit ((hex4_iff _ _ _ _ _).1 hn) hw, rfl⟩
    | case5 =>
      rename_i he ih
      obtain ⟨w, hw, rfl⟩ := ih h
      exact ⟨_, .short ((short_mem _).1 ⟨_, he⟩) hw, rfl⟩
    | case6 => cases h
    | case7 => cases h
    | case8 =>
      rename_i hq _ _ hc ih
      obtain ⟨w, hw, rfl⟩ := ih h
      exact ⟨_, .plain hq (fun e => hc (.inl e)) (by omega) hw, rfl⟩
  · rintro ⟨w, hw, rfl⟩
    induction hw with
    | nil => rfl
    | plain h1 h2 h3 _ ih =>
      rw [List.cons_append, Json.ignoreStr.eq_def]
      split
      · contradiction
      · simp_all
      · simp_all
      · simp_all
      · next e =>
        simp only [List.cons.injEq] at e
        obtain ⟨rfl, rfl⟩ := e
        rw [if_neg (by simp [h2]; omega), ih]
    | @short x _ h1 _ ih =>
      have hu : x ≠ 'u' := by rintro rfl; revert h1; decide
      obtain ⟨c, hc⟩ := (short_mem _).2 h1
      rw [List.cons_append, List.cons_append, Json.ignoreStr.eq_def]
      split
      · contradiction
      · simp at *
      · simp_all
      · next e =>
        simp only [List.cons.injEq, true_and] at e
        obtain ⟨rfl, rfl⟩ := e
        simp only [hc, ih]
      · next e =>
        simp only [List.cons.injEq] at e
        obtain ⟨rfl, rfl⟩ := e
        simp_all
    | unit h1 _ ih =>
      obtain ⟨a, b, c, d, rfl, h⟩ := unit_form h1
      simp only [List.cons_append, List.nil_append, Json.ignoreStr, h, ih]

/-- Half a pair of surrogates can be skipped; what is not hexadecimal, a control character, an
unknown escape, a string without its end cannot. -/
example : Json.ignoreStr "a\\ud83c\\n\"]".toList = some [']'] ∧ Json.ignoreStr "\\u00g0\"".toList = none ∧
    Json.ignoreStr "a\nb\"".toList = none ∧ Json.ignoreStr "\\x\"".toList = none ∧ Json.ignoreStr "abc".toList = none := by
  decide +kernel

/-- Whatever can be read as a string can be skipped. -/
theorem Spec.Spelled.skipped {w s : List Char} (h : Spelled w s) : Skipped w := by
  induction h with
  | nil => exact .nil
  | cons h _ ih =>
    cases h with
    | plain h1 h2 h3 => exact .plain h1 h2 h3 ih
    | short h1 =>
      refine .short ?_ ih
      simp only [List.mem_cons, Prod.mk.injEq, List.not_mem_nil, or_false] at h1 ⊢
      rcases h1 with h | h | h | h | h | h | h | h <;> simp [h.1]
    | unit h1 => exact .unit h1 ih
    | pair h1 h2 _ _ _ _ _ => rw [List.append_assoc]; exact .unit h1 (.unit h2 ih)

end Klavier
