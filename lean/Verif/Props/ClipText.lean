import Verif.Lemmas.Members
import Verif.Lemmas.Paste
import Verif.Spec.ClipText

/-! # C67: the text on the clipboard -/
set_option autoImplicit false
namespace Klavier
open Spec

private theorem get_iff {α : Type} {ms : List (List Char × Json)} {name : String} {de : Json → De α} {a : α} :
    De.get ms name de = .ok a ↔ ∃ v, ms.lookup name.toList = some v ∧ de v = .ok a := by
  unfold De.get
  cases ms.lookup name.toList <;> simp

private theorem get_skip {α : Type} {ms : List (List Char × Json)} {k : List Char} {name : String} {de : Json → De α} {v : Json}
    (h : name.toList ≠ k) : De.get ((k, v) :: ms) name de = De.get ms name de := by
  unfold De.get
  rw [List.lookup_cons, show (name.toList == k) = false from by simpa using h]

private theorem getOption_skip {α : Type} {ms : List (List Char × Json)} {k : List Char} {name : String} {de : Json → De α} {v : Json}
    (h : name.toList ≠ k) : De.getOption ((k, v) :: ms) name de = De.getOption ms name de := by
  unfold De.getOption
  rw [List.lookup_cons, show (name.toList == k) = false from by simpa using h]

private theorem getOption_null {α : Type} {ms : List (List Char × Json)} {name : String} {de : Json → De α}
    (h : ms.lookup name.toList = none) : De.getOption ((name.toList, .null) :: ms) name de = De.getOption ms name de := by
  unfold De.getOption
  rw [h, List.lookup_cons, show (name.toList == name.toList) = true from by simp]
  rfl

private theorem decimal_text (n : Nat) : decimal n = (toString n).toList := by
  have hd : ∀ d, d < 10 → Char.ofNat (48 + d) = d.digitChar := by decide
  rw [show toString n = n.repr from rfl, Nat.toList_repr]
  induction n using Nat.strongRecOn with
  | _ n ih =>
    rw [decimal, Nat.toDigits_eq_if (by decide)]
    split
    · next h => rw [hd n h]
    · next h => rw [ih (n / 10) (by omega), hd _ (Nat.mod_lt _ (by decide))]

private theorem nat_text (n : Nat) : (encNat n).text = (toString n).toList := by
  rw [← decimal_text]
  rfl

private theorem int_text (i : Int) : (encInt i).text = (toString i).toList := by
  cases i with
  | ofNat n =>
    rw [show toString (Int.ofNat n) = toString n from rfl, ← decimal_text]
    rfl
  | negSucc n =>
    rw [show toString (Int.negSucc n) = "-" ++ toString (n + 1) from rfl, String.toList_append, ← decimal_text]
    rfl

private theorem commas_cons (x : String) (xs : List String) :
    (commas (x :: xs)).toList = x.toList ++ (xs.flatMap (fun y => ',' :: y.toList)) := by
  induction xs generalizing x with
  | nil => simp [commas]
  | cons y ys ih => simp [commas, ih]

private theorem elems_text {α : Type} (enc : α → Json) (item : α → String) (h : ∀ a, (enc a).text = (item a).toList) (l : List α) :
    Json.textElems (l.map enc) = (l.map item).flatMap (fun y => ',' :: y.toList) ++ [']'] := by
  induction l with
  | nil => rfl
  | cons x xs ih => simp [Json.textElems, ih, h]

private theorem list_text {α : Type} {enc : α → Json} {item : α → String} (h : ∀ a, (enc a).text = (item a).toList) (l : List α) :
    (encVec enc l).text = (listText item l).toList := by
  cases l with
  | nil => rfl
  | cons x xs => simp [encVec, listText, Json.text, commas_cons, elems_text enc item h, h]

private theorem option_text {α : Type} {enc : α → Json} {item : α → String} (h : ∀ a, (enc a).text = (item a).toList) (o : Option α) :
    (encOption enc o).text = (optionText item o).toList := by
  cases o with
  | none => rfl
  | some a => exact h a

private theorem bool_text (b : Bool) : (Json.bool b).text = (boolText b).toList := by cases b <;> rfl

private theorem struct_text (k : String) (v : Json) (l : List (String × Json)) (pre : String) (h : "{\"" ++ k ++ "\":" = pre) :
    (encStruct ((k, v) :: l)).text = pre.toList ++ (v.text ++ Json.textMembers (l.map (fun p => (p.1.toList, p.2)))) := by
  subst h
  show '{' :: (Json.strText k.toList ++ _) = _
  simp [Json.strText]

private theorem more_text (k : String) (v : Json) (l : List (String × Json)) (pre : String) (h : ",\"" ++ k ++ "\":" = pre) :
    Json.textMembers (((k, v) :: l).map (fun p => (p.1.toList, p.2))) =
      pre.toList ++ (v.text ++ Json.textMembers (l.map (fun p => (p.1.toList, p.2)))) := by
  subst h
  show ',' :: (Json.strText k.toList ++ _) = _
  simp [Json.strText]

private theorem end_text : Json.textMembers (([] : List (String × Json)).map (fun p => (p.1.toList, p.2))) = "}".toList := rfl

private theorem str_text {l : List Char} {s : String} (h : l = s.toList) : (Json.str l).text = (quoted s).toList := by
  subst h
  simp [quoted, Json.text, Json.strText]

attribute [local irreducible] Json.text Json.textMembers

private theorem cat1 (x0 x1 x2 : String) : (x0 ++ x1 ++ x2).toList =
    x0.toList ++ (x1.toList ++ (x2.toList)) := by
  simp only [String.toList_append, List.append_assoc]

private theorem cat2 (x0 x1 x2 x3 x4 : String) : (x0 ++ x1 ++ x2 ++ x3 ++ x4).toList =
    x0.toList ++ (x1.toList ++ (x2.toList ++ (x3.toList ++ (x4.toList)))) := by
  simp only [String.toList_append, List.append_assoc]

private theorem cat3 (x0 x1 x2 x3 x4 x5 x6 : String) : (x0 ++ x1 ++ x2 ++ x3 ++ x4 ++ x5 ++ x6).toList =
    x0.toList ++ (x1.toList ++ (x2.toList ++ (x3.toList ++ (x4.toList ++ (x5.toList ++ (x6.toList)))))) := by
  simp only [String.toList_append, List.append_assoc]

private theorem cat4 (x0 x1 x2 x3 x4 x5 x6 x7 x8 : String) : (x0 ++ x1 ++ x2 ++ x3 ++ x4 ++ x5 ++ x6 ++ x7 ++ x8).toList =
    x0.toList ++ (x1.toList ++ (x2.toList ++ (x3.toList ++ (x4.toList ++ (x5.toList ++ (x6.toList ++ (x7.toList ++ (x8.toList)))))))) := by
  simp only [String.toList_append, List.append_assoc]

private theorem cat5 (x0 x1 x2 x3 x4 x5 x6 x7 x8 x9 x10 : String) : (x0 ++ x1 ++ x2 ++ x3 ++ x4 ++ x5 ++ x6 ++ x7 ++ x8 ++ x9 ++ x10).toList =
    x0.toList ++ (x1.toList ++ (x2.toList ++ (x3.toList ++ (x4.toList ++ (x5.toList ++ (x6.toList ++ (x7.toList ++ (x8.toList ++ (x9.toList ++ (x10.toList)))))))))) := by
  simp only [String.toList_append, List.append_assoc]

private theorem cat10 (x0 x1 x2 x3 x4 x5 x6 x7 x8 x9 x10 x11 x12 x13 x14 x15 x16 x17 x18 x19 x20 : String) : (x0 ++ x1 ++ x2 ++ x3 ++ x4 ++ x5 ++ x6 ++ x7 ++ x8 ++ x9 ++ x10 ++ x11 ++ x12 ++ x13 ++ x14 ++ x15 ++ x16 ++ x17 ++ x18 ++ x19 ++ x20).toList =
    x0.toList ++ (x1.toList ++ (x2.toList ++ (x3.toList ++ (x4.toList ++ (x5.toList ++ (x6.toList ++ (x7.toList ++ (x8.toList ++ (x9.toList ++ (x10.toList ++ (x11.toList ++ (x12.toList ++ (x13.toList ++ (x14.toList ++ (x15.toList ++ (x16.toList ++ (x17.toList ++ (x18.toList ++ (x19.toList ++ (x20.toList)))))))))))))))))))) := by
  simp only [String.toList_append, List.append_assoc]

private theorem pitch_text (p : Pitch) : p.enc.text = (pitchText p).toList := by
  have h1 : p.solfa.name = (solfaText p.solfa).toList := by cases p.solfa <;> rfl
  have h2 : p.octave.name = (octaveText p.octave).toList := by cases p.octave <;> rfl
  have h3 : p.sharpFlat.name = (sharpFlatText p.sharpFlat).toList := by cases p.sharpFlat <;> rfl
  rw [Pitch.enc, struct_text "solfa" _ _ "{\"solfa\":" rfl, more_text "octave" _ _ ",\"octave\":" rfl, more_text "sharp_flat" _ _ ",\"sharp_flat\":" rfl, end_text]
  simp only [str_text h1, str_text h2, str_text h3]
  exact (cat3 _ _ _ _ _ _ _).symm

private theorem duration_text (d : Duration) : d.enc.text = (durationText d).toList := by
  have h1 : d.numerator.name = (noteValueText d.numerator).toList := by cases d.numerator <;> rfl
  rw [Duration.enc, struct_text "numerator" _ _ "{\"numerator\":" rfl, more_text "denominator" _ _ ",\"denominator\":" rfl, more_text "dots" _ _ ",\"dots\":" rfl, end_text]
  simp only [str_text h1, nat_text]
  exact (cat3 _ _ _ _ _ _ _).symm

private theorem trimmer_text (t : Trimmer) : t.enc.text = (trimmerText t).toList := by
  have hl := list_text (enc := encInt) (item := fun i : Int => toString i) int_text [t.v0, t.v1, t.v2, t.v3]
  simp only [encVec, List.map_cons, List.map_nil] at hl
  rw [Trimmer.enc, struct_text "values" _ _ "{\"values\":" rfl, end_text]
  simp only [hl]
  exact (cat1 _ _ _).symm

private theorem percent_text (p : Percent) : p.enc.text = ("{\"value\":" ++ toString p.value ++ "}").toList := by
  rw [Percent.enc, struct_text "value" _ _ "{\"value\":" rfl, end_text]
  simp only [nat_text]
  exact (cat1 _ _ _).symm

private theorem rate_text (t : RateTrimmer) : t.enc.text = (rateText t).toList := by
  have hl := list_text percent_text [t.v0, t.v1, t.v2, t.v3]
  simp only [encVec, List.map_cons, List.map_nil] at hl
  rw [RateTrimmer.enc, struct_text "values" _ _ "{\"values\":" rfl, end_text]
  simp only [hl]
  exact (cat1 _ _ _).symm

private theorem note_text (n : Note) : n.enc.text = (noteText n).toList := by
  rw [Note.enc, struct_text "base_start_tick" _ _ "{\"base_start_tick\":" rfl, more_text "pitch" _ _ ",\"pitch\":" rfl, more_text "duration" _ _ ",\"duration\":" rfl, more_text "tie" _ _ ",\"tie\":" rfl, more_text "tied" _ _ ",\"tied\":" rfl, more_text "base_velocity" _ _ ",\"base_velocity\":" rfl, more_text "start_tick_trimmer" _ _ ",\"start_tick_trimmer\":" rfl, more_text "duration_trimmer" _ _ ",\"duration_trimmer\":" rfl, more_text "velocity_trimmer" _ _ ",\"velocity_trimmer\":" rfl, more_text "channel" _ _ ",\"channel\":" rfl, end_text]
  simp only [nat_text, bool_text, pitch_text, duration_text, trimmer_text, rate_text]
  exact (cat10 _ _ _ _ _ _ _ _ _ _ _ _ _ _ _ _ _ _ _ _ _).symm

private theorem rhythm_text (r : Rhythm) : r.enc.text = (rhythmText r).toList := by
  have h1 : r.denominator.name = (barUnitText r.denominator).toList := by cases r.denominator <;> rfl
  rw [Rhythm.enc, struct_text "numerator" _ _ "{\"numerator\":" rfl, more_text "denominator" _ _ ",\"denominator\":" rfl, end_text]
  simp only [str_text h1, nat_text]
  exact (cat2 _ _ _ _ _).symm

private theorem marks_text (s : RepeatSet) : s.enc.text = (marksText s).toList := by
  have h : s.bits = (([.Start, .End, .Dc, .Fine, .Ds, .Segno, .Coda, .Var1, .Var2, .Var3, .Var4].filter
      (fun m => s.contains m)).map weight).sum := by
    obtain ⟨a, b, c, d, e, f, g, h, i, j, k⟩ := s
    revert a b c d e f g h i j k
    decide +kernel
  rw [RepeatSet.enc, struct_text "value" _ _ "{\"value\":" rfl, end_text]
  simp only [nat_text, h]
  exact (cat1 _ _ _).symm

private theorem bar_text (b : Bar) : b.enc.text = (barText b).toList := by
  have hk := option_text (enc := Key.enc) (item := fun k : Key => toString k.offset) (fun k => int_text k.offset)
  rw [Bar.enc, struct_text "start_tick" _ _ "{\"start_tick\":" rfl, more_text "rhythm" _ _ ",\"rhythm\":" rfl, more_text "key" _ _ ",\"key\":" rfl, more_text "repeats" _ _ ",\"repeats\":" rfl, end_text]
  simp only [nat_text, option_text rhythm_text, marks_text, hk]
  exact (cat4 _ _ _ _ _ _ _ _ _).symm

private theorem tempo_text (t : Tempo) : t.enc.text = (tempoText t).toList := by
  rw [Tempo.enc, struct_text "start_tick" _ _ "{\"start_tick\":" rfl, more_text "value" _ _ ",\"value\":" rfl, end_text]
  simp only [nat_text]
  exact (cat2 _ _ _ _ _).symm

private theorem pedal_text (c : CtrlChg) : c.enc.text = (pedalText c).toList := by
  rw [CtrlChg.enc, struct_text "start_tick" _ _ "{\"start_tick\":" rfl, more_text "velocity" _ _ ",\"velocity\":" rfl, more_text "channel" _ _ ",\"channel\":" rfl, end_text]
  simp only [nat_text]
  exact (cat3 _ _ _ _ _ _ _).symm

/-- The text that is copied, character by character. -/
theorem C67_text (m : Models) : m.toClipboardText = ("1" ++ selectionText m).toList := by
  rw [Models.toClipboardText, Models.enc, struct_text "notes" _ _ "{\"notes\":" rfl, more_text "bars" _ _ ",\"bars\":" rfl, more_text "tempos" _ _ ",\"tempos\":" rfl, more_text "dumpers" _ _ ",\"dumpers\":" rfl, more_text "softs" _ _ ",\"softs\":" rfl, end_text]
  simp only [list_text note_text, list_text bar_text, list_text tempo_text, list_text pedal_text]
  rw [String.toList_append, show "1".toList = ['1'] from rfl, List.singleton_append]
  exact congrArg (List.cons '1') (cat5 _ _ _ _ _ _ _ _ _ _ _).symm

local macro "members" : tactic =>
  `(tactic| (
    refine De.anObject (fun j => rfl) rfl (by decide) ?_ ?_ ?_
    · intro ms ms' h
      simp only [List.forall_mem_cons, List.not_mem_nil, false_implies, implies_true, and_true] at h
      simp only [De.get, De.getOption, h]
    · simp only [List.forall_mem_cons, List.not_mem_nil, false_implies, implies_true, and_true]
      repeat' apply And.intro
      all_goals (
        intro ho ms a h hg
        simp only [De.bind_eq_ok, get_iff] at hg
        first | (simp only [h, reduceCtorEq, false_and, and_false, exists_false] at hg; done) | (simp at ho; done))
    · simp only [List.forall_mem_cons, List.not_mem_nil, false_implies, implies_true, and_true]
      repeat' apply And.intro
      all_goals first
        | (intro he; first | rfl | (simp [De.field] at he; done))
        | (intro ms h; simp (disch := decide) only [get_skip, getOption_skip, getOption_null h])
        | trivial))

/-! A bar with a Segno and a D.C., and a tempo. -/

example : Models.toClipboardText { bars := [⟨960, some ⟨3, .D4⟩, some ⟨-2⟩, { segno := true, dc := true }⟩], tempos := [⟨0, ⟨120⟩⟩] } =
    ("1{\"notes\":[],\"bars\":[{\"start_tick\":960,\"rhythm\":{\"numerator\":3,\"denominator\":\"D4\"},\"key\":-2," ++
      "\"repeats\":{\"value\":36}}],\"tempos\":[{\"start_tick\":0,\"value\":120}],\"dumpers\":[],\"softs\":[]}").toList := by
  decide +kernel

/-- White space may follow the text, anything else makes it unreadable. -/
theorem C67_trailing (over : List Char → Bool) (m : Models) (h : SafeModels m) (rest : List Char) :
    ((∀ c ∈ rest, IsBlank c) → Models.fromClipboardText over (m.toClipboardText ++ rest) = .ok (.ok m)) ∧
    ((¬ ∀ c ∈ rest, IsBlank c) →
      Models.fromClipboardText over (m.toClipboardText ++ rest) = .ok (.error (.cannotParse (m.toClipboardText ++ rest)))) := by
  obtain ⟨k, v, ms, e⟩ : ∃ k v ms, m.enc = Json.obj ((k, v) :: ms) := ⟨_, _, _, rfl⟩
  have hv : BeginsWithVersion (m.toClipboardText ++ rest) 1 (m.enc.text ++ rest) := by
    refine ⟨[], ['1'], rfl, by simp, ⟨⟨by simp, by simp [IsDigit]⟩, by decide, by simp⟩, .inr ?_⟩
    exact ⟨'{', _, by rw [e, Json.text, List.cons_append], by simp⟩
  have hw : Writable 128 (.obj ((k, v) :: ms)) := e ▸ Models.writable h.typed (by decide)
  have hd : Models.de (.obj ((k, v) :: ms)) = .ok m := e ▸ Models.de_enc h
  have key := fromClipboard_version over Models.de hv (by decide)
  rw [if_pos rfl, e, fromSlice_rest over hw hd] at key
  unfold Models.fromClipboardText
  rw [key]
  constructor
  · intro hb
    rw [Json.skipWs_nil.2 hb]
    rfl
  · intro hb
    cases e' : Json.skipWs rest with
    | nil => exact absurd (Json.skipWs_nil.1 e') hb
    | cons c r => rfl

/-- The objects on the clipboard: which members they have, and that only time signature
and key may be left out. -/
theorem C67_members :
    AnObject Models.de ["notes", "bars", "tempos", "dumpers", "softs"] [] ∧
    AnObject ClipProject.de ["key", "rhythm", "notes", "bars", "tempos", "dumpers", "softs"] ["key", "rhythm"] ∧
    AnObject Note.de ["base_start_tick", "pitch", "duration", "tie", "tied", "base_velocity", "start_tick_trimmer",
      "duration_trimmer", "velocity_trimmer", "channel"] [] ∧
    AnObject Pitch.de ["solfa", "octave", "sharp_flat"] [] ∧
    AnObject Duration.de ["numerator", "denominator", "dots"] [] ∧
    AnObject Trimmer.de ["values"] [] ∧
    AnObject RateTrimmer.de ["values"] [] ∧
    AnObject Percent.de ["value"] [] ∧
    AnObject Bar.de ["start_tick", "rhythm", "key", "repeats"] ["rhythm", "key"] ∧
    AnObject Rhythm.de ["numerator", "denominator"] [] ∧
    AnObject RepeatSet.de ["value"] [] ∧
    AnObject Tempo.de ["start_tick", "value"] [] ∧
    AnObject CtrlChg.de ["start_tick", "velocity", "channel"] [] := by
  refine ⟨?_, ?_, ?_, ?_, ?_, ?_, ?_, ?_, ?_, ?_, ?_, ?_, ?_⟩ <;> members

/-! Members in another order, with an unknown one; one of them twice; without time
signature and key; as an array. -/

example : Tempo.de (.obj [("value".toList, .num (.nat 120)), ("colour".toList, .str "red".toList),
    ("start_tick".toList, .num (.nat 5))]) = .ok ⟨5, ⟨120⟩⟩ := rfl

example : Tempo.de (.obj [("value".toList, .num (.nat 120)), ("start_tick".toList, .num (.nat 5)),
    ("value".toList, .num (.nat 120))]) = .error .invalid := rfl

example : Bar.de (.obj [("start_tick".toList, .num (.nat 5)), ("repeats".toList, .obj [("value".toList, .num (.nat 0))])]) =
    .ok ⟨5, none, none, {}⟩ := rfl

example : CtrlChg.de (.arr [.num (.nat 5), .num (.nat 100), .num (.nat 3)]) = .ok ⟨5, ⟨100⟩, 3⟩ := rfl

example (over : List Char → Bool) : Models.fromClipboardText over (Models.toClipboardText {} ++ "\n".toList) = .ok (.ok {}) ∧
    Models.fromClipboardText over (Models.toClipboardText {} ++ "x".toList) =
      .ok (.error (.cannotParse (Models.toClipboardText {} ++ "x".toList))) := by
  have h : SafeModels {} := ⟨by simp, by simp, by simp, by simp, by simp⟩
  exact ⟨(C67_trailing over {} h _).1 (by simp [IsBlank]), (C67_trailing over {} h _).2 (by simp [IsBlank])⟩

end Klavier
