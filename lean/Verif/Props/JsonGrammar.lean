import Verif.Lemmas.JsonGrammar
import Verif.Lemmas.Format
import Verif.Lemmas.SameBut

/-!
# C71: what is read from the clipboard is JSON

The grammar is that of RFC 8259 (`Spec/JsonGrammar.lean`), with two limits: at most 127
arrays and objects within each other, and no number too large for a `f64` (`over`, which is
arbitrary throughout).  Neither limit holds in members that are not known (`.typed`), and
strings there may contain half a pair of surrogates.
-/
set_option autoImplicit false
namespace Klavier
open Spec

private theorem blank_delimited {w : List Char} (h : Blank w) : Delimited w := by
  match w with
  | [] => exact .inl rfl
  | c :: r => exact .inr ⟨c, r, rfl, .inl (h c (by simp))⟩

/-- C71: the value at the beginning of a text is found exactly if the text begins with a JSON
value (after white space), and it is that value; what is left is what comes after it. -/
theorem C71_json (over : List Char → Bool) (s r : List Char) (j : Json) (hr : Delimited r) :
    Json.parse over .full s = (j, some r) ↔ ∃ w t, Blank w ∧ s = w ++ (t ++ r) ∧ JsonText over .full 127 t j := by
  constructor
  · exact (Json.parse_sound over _).1 .full 128 s j r
  · rintro ⟨w, t, hw, rfl, ht⟩
    obtain ⟨j', h1, -, h2⟩ := Json.value_complete ht (2 * (w ++ (t ++ r)).length + 2) 128 r (.inr rfl) (by simp; omega)
      (Json.delimited_stops hr)
    unfold Json.parse
    rw [Json.parseValue_ws over _ hw, h1, h2 (by simp)]

private def noOver : List Char → Bool := fun _ => false

/-- `[ 1 ,{"a":-2.50E+1}]` -/
private theorem sample (d : Nat) : JsonText noOver .full (d + 2) "[ 1 ,{\"a\":-2.50E+1}]".toList
    (.arr [.num (.nat 1), .obj [("a".toList, .num .float)]]) := by
  have blank : Blank [' '] := by unfold Blank IsBlank; decide
  have none : Blank [] := by unfold Blank; simp
  have one : JsonText noOver .full (d + 1) ['1'] (.num (.nat 1)) :=
    .num (.nat ⟨⟨by decide, by unfold IsDigit; decide⟩, by decide, by decide⟩ (by decide))
  have real : JsonText noOver .full d "-2.50E+1".toList (.num .float) :=
    .num (.real (sign := ['-']) (ds := ['2']) (frac := ".50".toList) (exp := "E+1".toList) (exp' := "e+1".toList) (n := 2)
      (by decide) ⟨⟨by decide, by unfold IsDigit; decide⟩, by decide, by decide⟩
      (.some (ds := ['5', '0']) ⟨by decide, by unfold IsDigit; decide⟩)
      (.some (e := 'E') (sign := ['+']) (ds := ['1']) (.inr rfl) (by decide) ⟨by decide, by unfold IsDigit; decide⟩)
      (.inl (by decide)) rfl)
  have name : StringText .full ['a'] ['a'] := Spelled.cons (c := 'a') (.plain (by decide) (by decide) (by decide)) .nil
  have obj : JsonText noOver .full (d + 1) "{\"a\":-2.50E+1}".toList (.obj [("a".toList, .num .float)]) :=
    .obj (d := d + 1) (.inr (by omega)) (.one (w := []) (k := ['a']) (w1 := []) (w2 := []) (w' := []) none
      name none none (.read real) none)
  exact .arr (d := d + 2) (.inr (by omega)) (.more (w := [' ']) (w' := [' ']) blank one blank (.one (w := []) (w' := []) none obj none))

example : Json.parse noOver .full "\n[ 1 ,{\"a\":-2.50E+1}]".toList = (.arr [.num (.nat 1), .obj [("a".toList, .num .float)]], some []) :=
  (C71_json noOver _ [] _ (.inl rfl)).2 ⟨['\n'], _, by unfold Blank IsBlank; decide, rfl, sample 125⟩

/-! What is not JSON is not: a comma too much, no comma, a number with a leading zero, a
number without digits after the point, a string without its end. -/

example : ¬ ∃ j, JsonText noOver .full 127 "[1,]".toList j := by
  rintro ⟨j, h⟩
  have := (C71_json noOver "[1,]".toList [] j (.inl rfl)).2 ⟨[], _, by unfold Blank; simp, rfl, h⟩
  have : (Json.parse noOver .full "[1,]".toList).2 = some [] := congrArg (·.2) this
  revert this
  decide +kernel

example : ∀ t ∈ ["[1 2]", "01", "1.", "\"a", "{\"a\" 1}", "{a:1}", "nul", "+1", "[1", "1,2"],
    ¬ ∃ j, JsonText noOver .full 127 t.toList j := by
  rintro t ht ⟨j, h⟩
  have : (Json.parse noOver .full t.toList).2 = some [] :=
    congrArg (·.2) ((C71_json noOver t.toList [] j (.inl rfl)).2 ⟨[], _, by unfold Blank; simp, by simp, h⟩)
  revert this
  clear h j
  revert t
  decide +kernel

/-- C71: a text is read as a value of some type exactly if it is one JSON value between white
space, and that value stands for one of the type (which must not depend on what is in members
that are skipped). -/
theorem C71_read {α : Type} (over : List Char → Bool) (de : Json → De α) (s : List Char) (a : α)
    (hde : ∀ j j' a, Intact j → Intact j' → SameBut j' j → de j = .ok a → de j' = .ok a) :
    fromSlice over de s = .ok a ↔
      ∃ w t w' j, s = w ++ (t ++ w') ∧ Blank w ∧ Blank w' ∧ JsonText over .typed 127 t j ∧ de j = .ok a := by
  constructor
  · intro h
    simp only [fromSlice, De.bind_eq_ok] at h
    obtain ⟨b, h1, h2⟩ := h
    split at h2
    · next r e =>
      split at h2
      · next he =>
        cases h2
        have hr : Blank r := Json.skipWs_nil.1 (List.isEmpty_iff.1 he)
        obtain ⟨w, t, hw, hs, ht⟩ := (Json.parse_sound over _).1 .typed 128 s _ r (Prod.ext rfl e)
        exact ⟨w, t, r, _, hs, hw, hr, ht, h1⟩
      · cases h2
    · cases h2
  · rintro ⟨w, t, w', j, rfl, hw, hw', ht, h⟩
    obtain ⟨j', h1, h2, -⟩ := Json.value_complete ht (2 * (w ++ (t ++ w')).length + 2) 128 w' (.inr rfl) (by simp; omega)
      (Json.delimited_stops (blank_delimited hw'))
    rw [← Json.parseValue_ws over _ hw] at h1
    obtain ⟨-, t', -, -, ht'⟩ := (Json.parse_sound over _).1 _ _ _ _ _ h1
    have hp : Json.parse over .typed (w ++ (t ++ w')) = (j', some w') := h1
    simp only [fromSlice, hp, hde j j' a (Json.jsonText_intact ht) (Json.jsonText_intact ht') h2 h, De_bind_ok, Json.skipWs_nil.2 hw']
    rfl

private theorem steady_de {α : Type} {de : Json → De α} {of : Json → α → Prop} (ha : De.Agrees de of) (hs : Steady of) (j j' : Json)
    (a : α) (hj : Intact j) (hj' : Intact j') (h : SameBut j' j) (hd : de j = .ok a) : de j' = .ok a :=
  (ha j' a hj').2 (hs j j' a h ((ha j a hj).1 hd))

/-- `{"x":1e999,"start_tick":5,"value":60}`, where `1e999` is too large: it is in a member that
is not known. -/
private theorem large : JsonText (fun _ => true) .typed 127 "{\"x\":1e999,\"start_tick\":5,\"value\":60}".toList
    (.obj [("x".toList, .skip .bad), ("start_tick".toList, .num (.nat 5)), ("value".toList, .num (.nat 60))]) := by
  have none : Blank [] := by unfold Blank; simp
  have plain : ∀ w : List Char, (∀ c ∈ w, c ≠ '"' ∧ c ≠ '\\' ∧ 32 ≤ c.toNat) → Spelled w w := by
    intro w
    induction w with
    | nil => exact fun _ => .nil
    | cons c w ih =>
      intro h
      obtain ⟨h1, h2, h3⟩ := h c (by simp)
      exact .cons (w := [c]) (.plain h1 h2 h3) (ih fun x hx => h x (by simp [hx]))
  have name : ∀ w : List Char, (∀ c ∈ w, c ≠ '"' ∧ c ≠ '\\' ∧ 32 ≤ c.toNat) → StringText .typed w w := plain
  have x : JsonText (fun _ => true) .skip 0 "1e999".toList (.num .float) :=
    .num (.real (sign := []) (ds := ['1']) (frac := []) (exp := "e999".toList) (exp' := "e999".toList) (n := 1) (by decide)
      ⟨⟨by decide, by unfold IsDigit; decide⟩, by decide, by decide⟩ .none
      (.some (e := 'e') (sign := []) (ds := "999".toList) (.inl rfl) (by decide) ⟨by decide, by unfold IsDigit; decide⟩)
      (.inl (by decide)) rfl)
  exact .obj (d := 127) (.inr (by decide)) (.more (w := []) (k := "x".toList) (w1 := []) (w2 := []) (w' := []) none (name _ (by decide)) none
    none (.skipped x) none (.more (w := []) (k := "start_tick".toList) (w1 := []) (w2 := []) (t := ['5']) (w' := []) none
    (name _ (by decide)) none none (.read (.num (.nat ⟨⟨by decide, by unfold IsDigit; decide⟩, by decide, by decide⟩ (by decide))))
    none (.one (w := []) (k := "value".toList) (w1 := []) (w2 := []) (t := ['6', '0']) (w' := []) none (name _ (by decide)) none
    none (.read (.num (.nat ⟨⟨by decide, by unfold IsDigit; decide⟩, by decide, by decide⟩ (by decide)))) none)))

example : fromSlice (fun _ => true) Tempo.de "\n{\"x\":1e999,\"start_tick\":5,\"value\":60} ".toList = .ok ⟨5, ⟨60⟩⟩ :=
  (C71_read _ _ _ _ (steady_de Tempo.agrees isTempo_steady)).2 ⟨['\n'], _, [' '], _, rfl, by unfold Blank IsBlank; decide,
    by unfold Blank IsBlank; decide, large, by decide +kernel⟩

/-- The same number in a known member is refused. -/
example : fromSlice (fun _ => true) Tempo.de "{\"start_tick\":1e999,\"value\":60}".toList = .error .invalid := by decide +kernel

private theorem one_writes {ds : List Char} (h : WritesJsonNat ds 1) : ds = ['1'] := by
  obtain ⟨⟨hne, hd⟩, hv, hz⟩ := h
  match ds, hne with
  | [c], _ =>
    simp only [numeralValue, List.length_nil] at hv
    have hc : c.toNat = 49 := by
      have : '0'.toNat = 48 := rfl
      omega
    have : c = '1' := Char.ext (UInt32.toNat_inj.1 hc)
    rw [this]
  | c :: x :: r, _ =>
    have hc : c.toNat ≠ 48 := by
      intro e
      have : c = '0' := Char.ext (UInt32.toNat_inj.1 e)
      have := hz (by rw [this]; rfl)
      simp at this
    have h0 := (hd c (by simp)).1
    have : 1 ≤ c.toNat - '0'.toNat := by
      have : '0'.toNat = 48 := rfl
      omega
    have h1 : 10 ≤ 10 ^ (x :: r).length := by
      rw [List.length_cons, Nat.pow_succ]
      have := Nat.pow_pos (n := r.length) (show 0 < 10 by decide)
      omega
    have := Nat.mul_le_mul this h1
    rw [numeralValue] at hv
    omega

private theorem clip_iff {α : Type} (over : List Char → Bool) (de : Json → De α)
    (ho : ∀ j a, de j = .ok a → (∃ l, j = .arr l) ∨ ∃ l, j = .obj l)
    (hde : ∀ j j' a, Intact j → Intact j' → SameBut j' j → de j = .ok a → de j' = .ok a) (text : List Char) (a : α) :
    fromClipboard over de text = .ok (.ok a) ↔ ∃ w w1 t w2 j, text = w ++ '1' :: (w1 ++ (t ++ w2)) ∧
      Blank w ∧ Blank w1 ∧ Blank w2 ∧ JsonText over .typed 127 t j ∧ de j = .ok a := by
  constructor
  · intro h
    rcases fromClipboard_cases over de text with ⟨v, rest, hb, hv⟩ | h' | h' | h'
    · rw [fromClipboard_version over de hb hv] at h
      split at h
      · next e =>
        subst e
        obtain ⟨w, ds, rfl, hw, hd, -⟩ := hb
        cases one_writes hd
        have : fromSlice over de rest = .ok a := by
          unfold clipResult at h
          split at h <;> cases h
          assumption
        obtain ⟨w1, t, w2, j, rfl, h1, h2, h3, h4⟩ := (C71_read over de rest a hde).1 this
        exact ⟨w, w1, t, w2, j, by simp, hw, h1, h2, h3, h4⟩
      · cases h
    · rw [h'.1] at h; cases h
    · rw [h'] at h; cases h
    · rw [h'] at h; cases h
  · rintro ⟨w, w1, t, w2, j, rfl, hw, hw1, hw2, ht, hd⟩
    have hc : ∃ c u, t = c :: u ∧ (c = '[' ∨ c = '{') := by
      rcases ho j a hd with ⟨l, rfl⟩ | ⟨l, rfl⟩
      · cases ht <;> exact ⟨_, _, rfl, .inl rfl⟩
      · cases ht <;> exact ⟨_, _, rfl, .inr rfl⟩
    obtain ⟨c, u, rfl, hc⟩ := hc
    have hb : BeginsWithVersion (w ++ '1' :: (w1 ++ (c :: u ++ w2))) 1 (w1 ++ (c :: u ++ w2)) := by
      refine ⟨w, ['1'], by simp, hw, ⟨⟨by decide, by unfold IsDigit; decide⟩, by decide, by decide⟩, ?_⟩
      match w1 with
      | [] => exact .inr ⟨c, u ++ w2, rfl, by rcases hc with rfl | rfl <;> simp⟩
      | x :: w1 => exact .inr ⟨x, _, rfl, .inl (hw1 x (by simp))⟩
    rw [fromClipboard_version over de hb (by decide), if_pos rfl,
      (C71_read over de _ a hde).2 ⟨w1, c :: u, w2, j, rfl, hw1, hw2, ht, hd⟩]
    rfl

private theorem de_shape {α : Type} {fs : List De.Field} {g : List (List Char × Json) → De α} {j : Json} {a : α}
    (h : (De.struct fs j >>= g) = .ok a) : (∃ l, j = .arr l) ∨ ∃ l, j = .obj l := by
  cases j with
  | arr l => exact .inl ⟨l, rfl⟩
  | obj l => exact .inr ⟨l, rfl⟩
  | _ => cases h

/-- C71: a text is pasted as the selection `m` exactly if it is the version number 1 followed by
a JSON value that stands for `m`, with white space anywhere between. -/
theorem C71_paste (over : List Char → Bool) (text : List Char) (m : Models) :
    Models.fromClipboardText over text = .ok (.ok m) ↔ ∃ w w1 t w2 j, text = w ++ '1' :: (w1 ++ (t ++ w2)) ∧
      Blank w ∧ Blank w1 ∧ Blank w2 ∧ JsonText over .typed 127 t j ∧ IsSelection j m := by
  unfold Models.fromClipboardText
  rw [clip_iff over Models.de (fun j a h => de_shape h) (steady_de Models.agrees isSelection_steady)]
  constructor
  · rintro ⟨w, w1, t, w2, j, h1, h2, h3, h4, h5, h6⟩
    exact ⟨w, w1, t, w2, j, h1, h2, h3, h4, h5, (Models.agrees j m (Json.jsonText_intact h5)).1 h6⟩
  · rintro ⟨w, w1, t, w2, j, h1, h2, h3, h4, h5, h6⟩
    exact ⟨w, w1, t, w2, j, h1, h2, h3, h4, h5, (Models.agrees j m (Json.jsonText_intact h5)).2 h6⟩

/-- A text with white space, another order, an unknown member (with half a pair of surrogates), a
tempo without names -/
private def pasted : List Char :=
  " 1\n{ \"softs\":[], \"tempos\" : [[5, 0]],\"notes\":[],\"x\":{\"y\":[0.5,\"\\uD800\"]},\"bars\":[],\"dumpers\":[]}\n".toList

/-- It is read, so it is a selection as JSON. -/
example : Models.fromClipboardText noOver pasted = .ok (.ok { tempos := [⟨5, ⟨1⟩⟩] }) ∧
    ∃ w w1 t w2 j, pasted = w ++ '1' :: (w1 ++ (t ++ w2)) ∧ Blank w ∧ Blank w1 ∧ Blank w2 ∧ JsonText noOver .typed 127 t j ∧
      IsSelection j { tempos := [⟨5, ⟨1⟩⟩] } := by
  have h : Models.fromClipboardText noOver pasted = .ok (.ok { tempos := [⟨5, ⟨1⟩⟩] }) := by decide +kernel
  exact ⟨h, (C71_paste ..).1 h⟩

/-- The tempo without names: 0 stands for 1. -/
example : IsTempo (.arr [.num (.nat 5), .num (.nat 0)]) ⟨5, ⟨1⟩⟩ :=
  ⟨.arr rfl, ⟨_, .arr 0 rfl rfl, rfl, by decide⟩, ⟨_, .arr 1 rfl rfl, 0, ⟨rfl, by decide⟩, rfl⟩⟩

/-- A selection must have all its members: this is JSON, but not a selection. -/
example : ¬ ∃ m, IsSelection (.obj [("notes".toList, .arr [])]) m := by
  rintro ⟨m, -, -, ⟨v, hv, -⟩, -⟩
  cases hv with
  | obj hv => revert hv; simp

/-- The shortest text that is pasted -/
example : Models.fromClipboardText noOver "1[[],[],[],[],[]]".toList = .ok (.ok {}) := by
  have none : Blank [] := by unfold Blank; simp
  have e : ∀ d, JsonText noOver .typed (d + 1) "[]".toList (.arr []) := fun d => .noElems (w := []) (.inr (by omega)) none
  refine (C71_paste ..).2 ⟨[], [], "[[],[],[],[],[]]".toList, [], .arr [.arr [], .arr [], .arr [], .arr [], .arr []],
    rfl, none, none, none, ?_, ?_⟩
  · exact .arr (d := 127) (.inr (by decide)) (.more (w := []) (w' := []) none (e 125) none (.more (w := []) (w' := []) none (e 125) none
      (.more (w := []) (w' := []) none (e 125) none (.more (w := []) (w' := []) none (e 125) none
      (.one (w := []) (w' := []) none (e 125) none)))))
  · exact ⟨.arr rfl, ⟨_, .arr 0 rfl rfl, _, rfl, .nil⟩, ⟨_, .arr 1 rfl rfl, _, rfl, .nil⟩, ⟨_, .arr 2 rfl rfl, _, rfl, .nil⟩,
      ⟨_, .arr 3 rfl rfl, _, rfl, .nil⟩, ⟨_, .arr 4 rfl rfl, _, rfl, .nil⟩⟩

/-- C71: the same for the importer of projects. -/
theorem C71_import (over : List Char → Bool) (text : List Char) (p : ClipProject) :
    ClipProject.fromClipboardText over text = .ok (.ok p) ↔ ∃ w w1 t w2 j, text = w ++ '1' :: (w1 ++ (t ++ w2)) ∧
      Blank w ∧ Blank w1 ∧ Blank w2 ∧ JsonText over .typed 127 t j ∧ IsClipProject j p := by
  unfold ClipProject.fromClipboardText
  rw [clip_iff over ClipProject.de (fun j a h => de_shape h) (steady_de ClipProject.agrees isClipProject_steady)]
  constructor
  · rintro ⟨w, w1, t, w2, j, h1, h2, h3, h4, h5, h6⟩
    exact ⟨w, w1, t, w2, j, h1, h2, h3, h4, h5, (ClipProject.agrees j p (Json.jsonText_intact h5)).1 h6⟩
  · rintro ⟨w, w1, t, w2, j, h1, h2, h3, h4, h5, h6⟩
    exact ⟨w, w1, t, w2, j, h1, h2, h3, h4, h5, (ClipProject.agrees j p (Json.jsonText_intact h5)).2 h6⟩

/-- An object with neither key nor time signature -/
example : ∃ w w1 t w2 j, pasted = w ++ '1' :: (w1 ++ (t ++ w2)) ∧ Blank w ∧ Blank w1 ∧ Blank w2 ∧ JsonText noOver .typed 127 t j ∧
      IsClipProject j { models := { tempos := [⟨5, ⟨1⟩⟩] } } :=
  (C71_import ..).1 (by decide +kernel)

/-- With a key -/
example : ClipProject.fromClipboardText noOver "1[-3,null,[],[],[],[],[]]".toList = .ok (.ok { key := some ⟨-3⟩ }) := by decide +kernel

end Klavier
