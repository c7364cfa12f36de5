import Verif.Lemmas.Pasted

/-!
# C40, C51: copy and paste as text

`over` (which numerals are too large for a float) is arbitrary throughout.
-/
set_option autoImplicit false
namespace Klavier
open Spec

/-! ## C40 -/

/-- Paste reads exactly the tree that copy wrote. -/
theorem paste_text (over : List Char → Bool) (m : Models) (h : TypedModels m) :
    Models.fromClipboardText over m.toClipboardText =
      match Models.de m.enc with
      | .ok a => .ok (.ok a)
      | .error .invalid => .ok (.error (.cannotParse m.toClipboardText))
      | .error (.panic p) => .error p := by
  have hp := Json.parseValue_text over (m := .typed) (by decide) m.enc 128 (2 * m.enc.text.length + 2) [] (Models.writable h (by decide)) (by omega) (by intro c hc; cases hc)
  rw [List.append_nil] at hp
  have hp' : Json.parse over .typed m.enc.text = (m.enc, some []) := hp
  have hv := fromClipboard_version over Models.de (v := 1) m.text_version (by decide)
  unfold Models.fromClipboardText
  rw [hv, if_pos rfl]
  simp only [fromSlice, hp']
  match Models.de m.enc with
  | .ok a => simp [clipResult, Json.skipWs]
  | .error .invalid => rfl
  | .error (.panic p) => rfl

private def nt (trim : Trimmer) (rate : RateTrimmer) : Note :=
  ⟨100, ⟨.C, .Oct4, .Null, 72, 42⟩, ⟨.Quarter, 2, 1⟩, false, true, ⟨64⟩, trim, rate, .ZERO, 0⟩

/-- A selection with one of everything -/
private def sel : Models where
  notes := [nt (.new 10 (-5) 0 0) .ONE]
  bars := [⟨480, some ⟨3, .D4⟩, some ⟨-2⟩, .EMPTY⟩]
  tempos := [⟨0, ⟨120⟩⟩]
  dumpers := [⟨7, ⟨127⟩, 3⟩]
  softs := [⟨9, ⟨0⟩, 0⟩]

private theorem sel_safe : SafeModels sel := by
  constructor <;> simp only [sel, List.mem_singleton] <;> rintro _ rfl
  · constructor <;> first | decide +kernel | (constructor <;> decide +kernel)
  · constructor <;> simp [SafeRhythm, SafeKey]
  · constructor <;> simp
  · constructor <;> simp
  · constructor <;> simp

/-- C40: copying and pasting gives back the same selection, exactly for the
selections that fit their types (tempo at least 1, trimmers whose running totals
fit 16 bits, length rates whose total is the one computed from the four rates). -/
theorem C40_roundtrip_partial (over : List Char → Bool) (m : Models) :
    Models.fromClipboardText over m.toClipboardText = .ok (.ok m) ↔ SafeModels m := by
  constructor
  · intro h
    unfold Models.fromClipboardText at h
    rw [fromClipboard_version over Models.de (v := 1) m.text_version (by decide), if_pos rfl] at h
    obtain ⟨_, h⟩ := clipResult_ok h
    exact Models.de_ok h
  · intro h
    rw [paste_text over m h.typed, Models.de_enc h]

example : SafeModels sel ∧ Models.fromClipboardText (fun _ => false) sel.toClipboardText = .ok (.ok sel) :=
  ⟨sel_safe, (C40_roundtrip_partial _ _).2 sel_safe⟩

/-- the text that is written -/
example : String.ofList (Models.toClipboardText { tempos := [⟨0, ⟨120⟩⟩] }) =
    "1{\"notes\":[],\"bars\":[],\"tempos\":[{\"start_tick\":0,\"value\":120}],\"dumpers\":[],\"softs\":[]}" := by
  decide +kernel

/-- C40: the importer of projects reads the text of a copied selection as well, and
finds neither key nor rhythm in it. -/
theorem C40_project (over : List Char → Bool) (m : Models) (h : SafeModels m) :
    ClipProject.fromClipboardText over m.toClipboardText = .ok (.ok { key := none, rhythm := none, models := m }) := by
  unfold ClipProject.fromClipboardText
  rw [fromClipboard_version over ClipProject.de (v := 1) m.text_version (by decide), if_pos rfl]
  have := fromSlice_text over (Models.writable h.typed (d := 128) (by decide)) (ClipProject.de_models h)
  rw [show Json.text _ = m.enc.text from rfl, this]
  rfl

example : ∃ p, ClipProject.fromClipboardText (fun _ => false) sel.toClipboardText = .ok (.ok p) ∧ p.key = none ∧ p.models = sel :=
  ⟨_, C40_project _ sel sel_safe, rfl, rfl⟩

/-- C40: the text of a project with a key and a rhythm (version number and JSON) is
read back. -/
theorem C40_project_roundtrip (over : List Char → Bool) (p : ClipProject) (h : SafeModels p.models)
    (hk : ∀ k, p.key = some k → SafeKey k) (hr : ∀ r, p.rhythm = some r → SafeRhythm r) :
    ClipProject.fromClipboardText over ('1' :: p.enc.text) = .ok (.ok p) := by
  unfold ClipProject.fromClipboardText
  rw [fromClipboard_version over ClipProject.de (v := 1) p.text_version (by decide), if_pos rfl]
  have := fromSlice_text over (ClipProject.writable h.typed hk hr (d := 128) (by decide)) (ClipProject.de_enc h hk hr)
  rw [show Json.text _ = p.enc.text from rfl, this]
  rfl

example : ClipProject.fromClipboardText (fun _ => false)
      ('1' :: (ClipProject.enc { key := some ⟨-2⟩, rhythm := some ⟨3, .D4⟩, models := sel }).text) =
    .ok (.ok { key := some ⟨-2⟩, rhythm := some ⟨3, .D4⟩, models := sel }) :=
  C40_project_roundtrip _ _ sel_safe (by rintro k ⟨⟩; simp [SafeKey]) (by rintro r ⟨⟩; simp [SafeRhythm])

/-- C40: a text is refused for its version, naming the number `n`, exactly if it
begins (after white space) with the number `n`, which is not 1. -/
theorem C40_version (over : List Char → Bool) (text : List Char) (n : Nat) :
    Models.fromClipboardText over text = .ok (.error (.versionErr n)) ↔
      n ≠ 1 ∧ n ≤ 18446744073709551615 ∧ ∃ rest, BeginsWithVersion text n rest := by
  unfold Models.fromClipboardText
  constructor
  · intro h
    rcases fromClipboard_cases over Models.de text with ⟨v, rest, hb, hv⟩ | h' | h' | h'
    · rw [fromClipboard_version over Models.de hb hv] at h
      split at h
      · unfold clipResult at h
        split at h <;> cases h
      · cases h
        exact ⟨by assumption, hv, rest, hb⟩
    · rw [h'.1] at h; cases h
    · rw [h'] at h; cases h
    · rw [h'] at h; cases h
  · rintro ⟨h1, h2, rest, hb⟩
    rw [fromClipboard_version over Models.de hb h2, if_neg h1]

/-- texts of other versions -/
example : Models.fromClipboardText (fun _ => true) " 27{}".toList = .ok (.error (.versionErr 27)) :=
  (C40_version _ _ _).2 ⟨by decide, by decide, "{}".toList, " ".toList, "27".toList, by decide,
    by unfold IsBlank; decide, ⟨⟨by decide, by unfold IsDigit; decide⟩, by decide, by decide⟩,
    .inr ⟨'{', ['}'], by decide, by simp⟩⟩

/-- C40: a text is reported as empty exactly if it is nothing but white space. -/
theorem C40_empty (over : List Char → Bool) (text : List Char) :
    Models.fromClipboardText over text = .ok (.error .emptyString) ↔ ∀ c ∈ text, IsBlank c := by
  unfold Models.fromClipboardText
  constructor
  · intro h
    rcases fromClipboard_cases over Models.de text with ⟨v, rest, hb, hv⟩ | h' | h' | h'
    · rw [fromClipboard_version over Models.de hb hv] at h
      split at h
      · unfold clipResult at h
        split at h <;> cases h
      · cases h
    · exact h'.2
    · rw [h'] at h; cases h
    · rw [h'] at h; cases h
  · intro h
    simp only [fromClipboard, (Json.streamNext_none over text).2 h]

example : Models.fromClipboardText (fun _ => true) " \n".toList = .ok (.error .emptyString) :=
  (C40_empty _ _).2 (by unfold IsBlank; decide)

/-- C40: whatever is accepted begins with the version number 1, and only such a
text can make paste panic. -/
theorem C40_accepted (over : List Char → Bool) (text : List Char)
    (h : (∃ m, Models.fromClipboardText over text = .ok (.ok m)) ∨ ∃ p, Models.fromClipboardText over text = .error p) :
    ∃ rest, BeginsWithVersion text 1 rest := by
  unfold Models.fromClipboardText at h
  rcases fromClipboard_cases over Models.de text with ⟨v, rest, hb, hv⟩ | h' | h' | h'
  · rw [fromClipboard_version over Models.de hb hv] at h
    split at h
    · next e => exact ⟨rest, e ▸ hb⟩
    · rcases h with ⟨_, h⟩ | ⟨_, h⟩ <;> cases h
  · rw [h'.1] at h; rcases h with ⟨_, h⟩ | ⟨_, h⟩ <;> cases h
  · rw [h'] at h; rcases h with ⟨_, h⟩ | ⟨_, h⟩ <;> cases h
  · rw [h'] at h; rcases h with ⟨_, h⟩ | ⟨_, h⟩ <;> cases h

example : ∃ rest, BeginsWithVersion sel.toClipboardText 1 rest :=
  C40_accepted (fun _ => false) _ (.inl ⟨sel, (C40_roundtrip_partial _ _).2 sel_safe⟩)

/-- C40: a text that begins with a JSON value other than a natural number (say `-1`,
`[0]` or `"1"`), whatever follows, is refused as having no version number. -/
theorem C40_no_number (over : List Char → Bool) (ws rest : List Char) (j : Json) (hw : ∀ c ∈ ws, IsBlank c)
    (hj : Writable 128 j) (hn : ∀ n, j ≠ .num (.nat n)) (hr : Delimited rest) :
    Models.fromClipboardText over (ws ++ j.text ++ rest) = .ok (.error (.versionNotU64 (ws ++ j.text ++ rest))) := by
  have hp : Json.parse over .full (ws ++ j.text ++ rest) = (j, some rest) := by
    unfold Json.parse
    rw [List.append_assoc, Json.parseValue_ws over _ hw]
    exact Json.parseValue_text over (by decide) j 128 _ rest hj (by simp; omega) (Json.delimited_stops hr)
  have hs : Json.streamNext over (ws ++ j.text ++ rest) = some (some (j, rest)) := by
    obtain ⟨c, t, e, hb⟩ := Json.text_begins hj
    unfold Json.streamNext
    have : Json.skipWs (ws ++ j.text ++ rest) = c :: (t ++ rest) := by
      rw [List.append_assoc, Json.skipWs_blank hw, e, List.cons_append, Json.skipWs_stop hb.1]
    rw [this]
    simp only [hp]
    rw [if_pos]
    simp [(Json.delimited_iff rest).2 hr]
  unfold Models.fromClipboardText fromClipboard
  rw [hs]
  match j, hn with
  | .num (.nat n), hn => exact absurd rfl (hn n)
  | .num (.neg n), _ => rfl
  | .num .float, _ => rfl
  | .null, _ => rfl
  | .bool _, _ => rfl
  | .str _, _ => rfl
  | .arr _, _ => rfl
  | .obj _, _ => rfl
  | .bad, _ => rfl
  | .skip _, _ => rfl

/-- an array instead of a version number -/
example : Models.fromClipboardText (fun _ => true) "[0] 1".toList = .ok (.error (.versionNotU64 "[0] 1".toList)) := by
  rw [show "[0] 1".toList = [] ++ (Json.arr [.num (.nat 0)]).text ++ [' ', '1'] by decide +kernel]
  exact C40_no_number _ [] [' ', '1'] (.arr [.num (.nat 0)]) (by simp) (by simp [Writable, WritableElems]) (by simp)
    (by unfold Delimited; simp [IsBlank])

/-- C40: what is false: a tempo of 0 (which `Tempo::new` accepts) comes back as 1. -/
theorem C40_tempo_false (over : List Char → Bool) :
    ∃ m m' : Models, m.tempos = [⟨5, ⟨0⟩⟩] ∧ Models.fromClipboardText over m.toClipboardText = .ok (.ok m') ∧
      m'.tempos = [⟨5, ⟨1⟩⟩] := by
  refine ⟨{ tempos := [⟨5, ⟨0⟩⟩] }, { tempos := [⟨5, ⟨1⟩⟩] }, rfl, ?_, rfl⟩
  rw [paste_text]
  · rfl
  · unfold TypedModels TypedTempo; simp

/-- C40: what is false: pasting a note whose trimmer adds up to more than 16 bits
panics, although the note is legal and its text is what copy wrote. -/
theorem C40_trimmer_false (over : List Char → Bool) :
    ∃ (m : Models) (n : Note), m.notes = [n] ∧ ValidTrimmer n.startTickTrimmer ∧
      Models.fromClipboardText over m.toClipboardText = .error .overflow := by
  refine ⟨{ notes := [nt (.new 32767 1 0 0) .ONE] }, nt (.new 32767 1 0 0) .ONE, rfl,
    ⟨by decide, by decide, by decide, by decide, by decide⟩, ?_⟩
  rw [paste_text]
  · rfl
  · unfold TypedModels TypedNote TypedTrimmer TypedRate
    simp
    decide

/-- C40: what is false: a length rate built from fractions finer than a thousandth
comes back with another total, so that the note has another length. -/
theorem C40_rate_false (over : List Char → Bool) :
    ∃ (m m' : Models) (n n' : Note), m.notes = [n] ∧
      n.durationTrimmer = ⟨⟨555⟩, ⟨2000⟩, ⟨1000⟩, ⟨1000⟩, ⟨1111⟩⟩ ∧
      Models.fromClipboardText over m.toClipboardText = .ok (.ok m') ∧ m'.notes = [n'] ∧
      n'.durationTrimmer ≠ n.durationTrimmer := by
  refine ⟨{ notes := [nt .ZERO ⟨⟨555⟩, ⟨2000⟩, ⟨1000⟩, ⟨1000⟩, ⟨1111⟩⟩] },
    { notes := [nt .ZERO (.fromArray ⟨555⟩ ⟨2000⟩ ⟨1000⟩ ⟨1000⟩)] }, _, _, rfl, rfl, ?_, rfl, by decide +kernel⟩
  rw [paste_text]
  · rfl
  · unfold TypedModels TypedNote TypedTrimmer TypedRate
    simp
    decide

/-- C40: what is false: not every text is refused or accepted; one that names a pitch
out of range (C flat of the lowest octave) makes paste panic. -/
theorem C40_pitch_false (over : List Char → Bool) :
    ∃ text : List Char, Models.fromClipboardText over text = .error .explicit := by
  refine ⟨Models.toClipboardText { notes := [{ nt .ZERO .ONE with pitch := ⟨.C, .OctM2, .Flat, 0, 0⟩ }] }, ?_⟩
  rw [paste_text]
  · rfl
  · unfold TypedModels TypedNote TypedTrimmer TypedRate
    simp
    decide

/-! ## C51 -/

/-- C51: whatever paste accepts fits its types: valid pitches, loudness at most 127,
tempos from 1 to 999, trimmers whose running totals fit 16 bits, and so on. -/
theorem C51_accepted_partial (over : List Char → Bool) (text : List Char) (m : Models)
    (h : Models.fromClipboardText over text = .ok (.ok m)) : SafeModels m := by
  obtain ⟨rest, hb⟩ := C40_accepted over text (.inl ⟨m, h⟩)
  unfold Models.fromClipboardText at h
  rw [fromClipboard_version over Models.de hb (by decide), if_pos rfl] at h
  obtain ⟨_, h⟩ := clipResult_ok h
  exact Models.de_ok h

example : ∃ text m, Models.fromClipboardText (fun _ => false) text = .ok (.ok m) ∧ m.notes ≠ [] :=
  ⟨_, sel, (C40_roundtrip_partial _ _).2 sel_safe, by simp [sel]⟩

/-- C51: so pasting, copying what was pasted, and pasting again changes nothing. -/
theorem C51_stable (over over' : List Char → Bool) (text : List Char) (m : Models)
    (h : Models.fromClipboardText over text = .ok (.ok m)) :
    Models.fromClipboardText over' m.toClipboardText = .ok (.ok m) :=
  (C40_roundtrip_partial over' m).2 (C51_accepted_partial over text m h)

/-- A tempo of 1000 in the text is pasted as 999, and then stays. -/
example : ∃ m, Models.fromClipboardText (fun _ => false)
      "1{\"notes\":[],\"bars\":[],\"tempos\":[{\"start_tick\":0,\"value\":1000}],\"dumpers\":[],\"softs\":[]}".toList = .ok (.ok m) ∧
    Models.fromClipboardText (fun _ => true) m.toClipboardText = .ok (.ok m) := by
  refine ⟨{ tempos := [⟨0, ⟨999⟩⟩] }, by decide +kernel, ?_⟩
  exact C51_stable (fun _ => false) _
    "1{\"notes\":[],\"bars\":[],\"tempos\":[{\"start_tick\":0,\"value\":1000}],\"dumpers\":[],\"softs\":[]}".toList _ (by decide +kernel)

/-- C51: the same for a pasted project. -/
theorem C51_project (over : List Char → Bool) (text : List Char) (p : ClipProject)
    (h : ClipProject.fromClipboardText over text = .ok (.ok p)) :
    SafeModels p.models ∧ (∀ k, p.key = some k → SafeKey k) ∧ ∀ r, p.rhythm = some r → SafeRhythm r := by
  unfold ClipProject.fromClipboardText at h
  rcases fromClipboard_cases over ClipProject.de text with ⟨v, rest, hb, hv⟩ | h' | h' | h'
  · rw [fromClipboard_version over ClipProject.de hb hv] at h
    split at h
    · obtain ⟨_, h⟩ := clipResult_ok h
      exact ClipProject.de_ok h
    · cases h
  · rw [h'.1] at h; cases h
  · rw [h'] at h; cases h
  · rw [h'] at h; cases h

example : ∃ text p, ClipProject.fromClipboardText (fun _ => false) text = .ok (.ok p) ∧ p.models.notes ≠ [] :=
  ⟨_, _, C40_project _ sel sel_safe, by simp [sel]⟩

/-- A selection that the program itself never builds -/
private def wild : Models where
  notes := [{ nt .ZERO .ONE with channel := 200, duration := ⟨.Quarter, 2, 40⟩ }]
  bars := [⟨0, some ⟨0, .D4⟩, some ⟨100⟩, .EMPTY⟩]

/-- C51: what is false: the smaller ranges of the program (16 channels, 7 dots,
numerator at least 1, keys from -7 to 7) are not checked. -/
theorem C51_ranges_false (over : List Char → Bool) :
    ∃ (text : List Char) (m : Models) (n : Note) (b : Bar),
      Models.fromClipboardText over text = .ok (.ok m) ∧ m.notes = [n] ∧ m.bars = [b] ∧
      n.channel = 200 ∧ n.duration.dots = 40 ∧ b.rhythm = some ⟨0, .D4⟩ ∧ b.key = some ⟨100⟩ := by
  refine ⟨Models.toClipboardText wild, wild, _, _, ?_, rfl, rfl, rfl, rfl, rfl, rfl⟩
  refine (C40_roundtrip_partial over wild).2 ⟨?_, ?_, ?_, ?_, ?_⟩ <;> simp only [wild, List.mem_singleton]
  · rintro _ rfl
    constructor <;> first | decide +kernel | (constructor <;> decide +kernel)
  · rintro _ rfl
    constructor <;> simp [SafeRhythm, SafeKey]
  · simp
  · simp
  · simp

end Klavier
