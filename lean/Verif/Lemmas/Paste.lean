import Verif.Lemmas.Serde

/-! # Lemmas about copy and paste -/
set_option autoImplicit false
namespace Klavier
open Spec

/-! ## What is encoded can be written -/

def Plain (s : List Char) : Prop := ∀ c ∈ s, PlainChar c

instance (c : Char) : Decidable (PlainChar c) := by unfold PlainChar; infer_instance
instance (s : List Char) : Decidable (Plain s) := by unfold Plain; infer_instance

theorem writable_nat {d n : Nat} (h : n ≤ 18446744073709551615) : Writable d (encNat n) := by
  simpa [encNat, Writable] using h

theorem writable_int {d : Nat} {i : Int} (h : -9223372036854775808 ≤ i ∧ i ≤ 9223372036854775807) : Writable d (encInt i) := by
  unfold encInt
  split
  · simp only [Writable]; omega
  · simp only [Writable]; omega

theorem writable_elems {d : Nat} {l : List Json} (h : ∀ j ∈ l, Writable d j) : WritableElems d l := by
  induction l with
  | nil => simp [WritableElems]
  | cons a l ih => exact ⟨h a (by simp), ih (fun b hb => h b (by simp [hb]))⟩

theorem writable_vec {α : Type} {d : Nat} {enc : α → Json} {l : List α} (hd : 1 < d) (h : ∀ a ∈ l, Writable (d - 1) (enc a)) :
    Writable d (encVec enc l) := by
  simp only [encVec, Writable]
  refine ⟨hd, writable_elems fun j hj => ?_⟩
  obtain ⟨a, ha, rfl⟩ := List.mem_map.1 hj
  exact h a ha

theorem writable_option {α : Type} {d : Nat} {enc : α → Json} {o : Option α} (h : ∀ a, o = some a → Writable d (enc a)) :
    Writable d (encOption enc o) := by
  match o with
  | none => simp [encOption, Writable]
  | some a => exact h a rfl

theorem writable_struct {d : Nat} {l : List (String × Json)} (hd : 1 < d)
    (h : ∀ p ∈ l, Plain p.1.toList ∧ Writable (d - 1) p.2) : Writable d (encStruct l) := by
  simp only [encStruct, Writable]
  refine ⟨hd, ?_⟩
  clear hd
  induction l with
  | nil => simp [WritableMembers]
  | cons p l ih =>
    simp only [List.map_cons, WritableMembers]
    exact ⟨(h p (by simp)).1, (h p (by simp)).2, ih (fun q hq => h q (by simp [hq]))⟩

theorem Pitch.writable (p : Pitch) {d : Nat} (hd : 1 < d) : Writable d p.enc := by
  refine writable_struct hd ?_
  simp only [List.forall_mem_cons, List.not_mem_nil, false_imp_iff, implies_true, and_true]
  refine ⟨⟨by decide, ?_⟩, ⟨by decide, ?_⟩, ⟨by decide, ?_⟩⟩
  · have : ∀ s : Solfa, Plain s.name := by intro s; cases s <;> decide
    exact this _
  · have : ∀ s : Octave, Plain s.name := by intro s; cases s <;> decide
    exact this _
  · have : ∀ s : SharpFlat, Plain s.name := by intro s; cases s <;> decide
    exact this _

theorem Duration.writable {x : Duration} (h1 : x.denominator ≤ 255) (h2 : x.dots ≤ 255) {d : Nat} (hd : 1 < d) :
    Writable d x.enc := by
  refine writable_struct hd ?_
  simp only [List.forall_mem_cons, List.not_mem_nil, false_imp_iff, implies_true, and_true]
  refine ⟨⟨by decide, ?_⟩, ⟨by decide, writable_nat (by omega)⟩, ⟨by decide, writable_nat (by omega)⟩⟩
  have : ∀ s : NoteValue, Plain s.name := by intro s; cases s <;> decide
  exact this _

theorem Trimmer.writable {t : Trimmer} (h : TypedTrimmer t) {d : Nat} (hd : 2 < d) : Writable d t.enc := by
  refine writable_struct (by omega) ?_
  simp only [List.forall_mem_cons, List.not_mem_nil, false_imp_iff, implies_true, and_true]
  refine ⟨by decide, ?_⟩
  obtain ⟨_, _, _, _⟩ := h
  simp only [Writable, WritableElems]
  exact ⟨by omega, writable_int (by omega), writable_int (by omega), writable_int (by omega), writable_int (by omega), trivial⟩

theorem Percent.writable {p : Percent} (h : p.value ≤ 65535) {d : Nat} (hd : 1 < d) : Writable d p.enc := by
  refine writable_struct hd ?_
  simp only [List.forall_mem_cons, List.not_mem_nil, false_imp_iff, implies_true, and_true]
  exact ⟨by decide, writable_nat (by omega)⟩

theorem RateTrimmer.writable {t : RateTrimmer} (h : TypedRate t) {d : Nat} (hd : 3 < d) : Writable d t.enc := by
  refine writable_struct (by omega) ?_
  simp only [List.forall_mem_cons, List.not_mem_nil, false_imp_iff, implies_true, and_true]
  refine ⟨by decide, ?_⟩
  simp only [Writable, WritableElems]
  exact ⟨by omega, Percent.writable h.1 (by omega), Percent.writable h.2.1 (by omega), Percent.writable h.2.2.1 (by omega),
    Percent.writable h.2.2.2 (by omega), trivial⟩

theorem Note.writable {n : Note} (h : TypedNote n) {d : Nat} (hd : 4 < d) : Writable d n.enc := by
  refine writable_struct (by omega) ?_
  simp only [List.forall_mem_cons, List.not_mem_nil, false_imp_iff, implies_true, and_true]
  obtain ⟨h1, h2, h3, h4, h5, h6, h7, h8⟩ := h
  refine ⟨⟨by decide, writable_nat (by omega)⟩, ⟨by decide, Pitch.writable _ (by omega)⟩,
    ⟨by decide, Duration.writable h2 h3 (by omega)⟩, ⟨by decide, trivial⟩, ⟨by decide, trivial⟩,
    ⟨by decide, writable_nat (by omega)⟩, ⟨by decide, Trimmer.writable h5 (by omega)⟩,
    ⟨by decide, RateTrimmer.writable h6 (by omega)⟩, ⟨by decide, Trimmer.writable h7 (by omega)⟩,
    ⟨by decide, writable_nat (Nat.le_trans h8 (by decide))⟩⟩

theorem Rhythm.writable {r : Rhythm} (h : SafeRhythm r) {d : Nat} (hd : 1 < d) : Writable d r.enc := by
  refine writable_struct hd ?_
  simp only [List.forall_mem_cons, List.not_mem_nil, false_imp_iff, implies_true, and_true]
  unfold SafeRhythm at h
  refine ⟨⟨by decide, writable_nat (by omega)⟩, ⟨by decide, ?_⟩⟩
  have : ∀ s : BarUnit, Plain s.name := by intro s; cases s <;> decide
  exact this _

theorem Key.writable {k : Key} (h : SafeKey k) {d : Nat} : Writable d k.enc :=
  writable_int (by unfold SafeKey at h; omega)

theorem Bar.writable {b : Bar} (h : TypedBar b) {d : Nat} (hd : 2 < d) : Writable d b.enc := by
  refine writable_struct (by omega) ?_
  simp only [List.forall_mem_cons, List.not_mem_nil, false_imp_iff, implies_true, and_true]
  obtain ⟨h1, h2, h3⟩ := h
  have := b.repeats.bits_lt
  refine ⟨⟨by decide, writable_nat (by omega)⟩,
    ⟨by decide, writable_option fun r e => Rhythm.writable (h2 r e) (by omega)⟩,
    ⟨by decide, writable_option fun k e => Key.writable (h3 k e)⟩, ⟨by decide, writable_struct (by omega) ?_⟩⟩
  simp only [List.forall_mem_cons, List.not_mem_nil, false_imp_iff, implies_true, and_true]
  exact ⟨by decide, writable_nat (by omega)⟩

theorem Tempo.writable {t : Tempo} (h : TypedTempo t) {d : Nat} (hd : 1 < d) : Writable d t.enc := by
  refine writable_struct hd ?_
  simp only [List.forall_mem_cons, List.not_mem_nil, false_imp_iff, implies_true, and_true]
  obtain ⟨h1, h2⟩ := h
  exact ⟨⟨by decide, writable_nat (by omega)⟩, ⟨by decide, writable_nat (by omega)⟩⟩

theorem CtrlChg.writable {c : CtrlChg} (h : TypedCtrl c) {d : Nat} (hd : 1 < d) : Writable d c.enc := by
  refine writable_struct hd ?_
  simp only [List.forall_mem_cons, List.not_mem_nil, false_imp_iff, implies_true, and_true]
  obtain ⟨h1, h2, h3⟩ := h
  exact ⟨⟨by decide, writable_nat (by omega)⟩, ⟨by decide, writable_nat (by omega)⟩, ⟨by decide, writable_nat (Nat.le_trans h3 (by decide))⟩⟩

theorem Models.writable {m : Models} (h : TypedModels m) {d : Nat} (hd : 6 < d) : Writable d m.enc := by
  refine writable_struct (by omega) ?_
  simp only [List.forall_mem_cons, List.not_mem_nil, false_imp_iff, implies_true, and_true]
  exact ⟨⟨by decide, writable_vec (by omega) fun n hn => Note.writable (h.1 n hn) (by omega)⟩,
    ⟨by decide, writable_vec (by omega) fun n hn => Bar.writable (h.2.1 n hn) (by omega)⟩,
    ⟨by decide, writable_vec (by omega) fun n hn => Tempo.writable (h.2.2.1 n hn) (by omega)⟩,
    ⟨by decide, writable_vec (by omega) fun n hn => CtrlChg.writable (h.2.2.2.1 n hn) (by omega)⟩,
    ⟨by decide, writable_vec (by omega) fun n hn => CtrlChg.writable (h.2.2.2.2 n hn) (by omega)⟩⟩

theorem ClipProject.writable {p : ClipProject} (h : TypedModels p.models) (hk : ∀ k, p.key = some k → SafeKey k)
    (hr : ∀ r, p.rhythm = some r → SafeRhythm r) {d : Nat} (hd : 6 < d) : Writable d p.enc := by
  refine writable_struct (by omega) ?_
  simp only [List.forall_mem_cons, List.not_mem_nil, false_imp_iff, implies_true, and_true]
  exact ⟨⟨by decide, writable_option fun k e => Key.writable (hk k e)⟩,
    ⟨by decide, writable_option fun r e => Rhythm.writable (hr r e) (by omega)⟩,
    ⟨by decide, writable_vec (by omega) fun n hn => Note.writable (h.1 n hn) (by omega)⟩,
    ⟨by decide, writable_vec (by omega) fun n hn => Bar.writable (h.2.1 n hn) (by omega)⟩,
    ⟨by decide, writable_vec (by omega) fun n hn => Tempo.writable (h.2.2.1 n hn) (by omega)⟩,
    ⟨by decide, writable_vec (by omega) fun n hn => CtrlChg.writable (h.2.2.2.1 n hn) (by omega)⟩,
    ⟨by decide, writable_vec (by omega) fun n hn => CtrlChg.writable (h.2.2.2.2 n hn) (by omega)⟩⟩

/-! ## Data that are safe are of the right types -/

theorem SafeTrimmer.typed {t : Trimmer} (h : SafeTrimmer t) : TypedTrimmer t := ⟨h.v0, h.v1, h.v2, h.v3⟩

theorem SafeNote.typed {n : Note} (h : SafeNote n) : TypedNote n :=
  ⟨h.tick, h.denominator.2, h.dots, Nat.le_trans h.velocity (by decide), h.start.typed,
    ⟨h.length.v0, h.length.v1, h.length.v2, h.length.v3⟩, h.loudness.typed, h.channel⟩

theorem SafeModels.typed {m : Models} (h : SafeModels m) : TypedModels m :=
  ⟨fun n hn => (h.notes n hn).typed, fun b hb => ⟨(h.bars b hb).tick, (h.bars b hb).rhythm, (h.bars b hb).key⟩,
    fun t ht => ⟨(h.tempos t ht).tick, Nat.le_trans (h.tempos t ht).value.2 (by decide)⟩,
    fun c hc => ⟨(h.dumpers c hc).tick, Nat.le_trans (h.dumpers c hc).velocity (by decide), (h.dumpers c hc).channel⟩,
    fun c hc => ⟨(h.softs c hc).tick, Nat.le_trans (h.softs c hc).velocity (by decide), (h.softs c hc).channel⟩⟩

/-! ## The version number -/

namespace Json

theorem delimited_iff (r : List Char) : endsValue r = true ↔ Delimited r := by
  match r with
  | [] => simp [endsValue, Delimited]
  | c :: r =>
    simp only [endsValue, Bool.or_eq_true, isWs_iff, Delimited, reduceCtorEq, List.cons.injEq, false_or]
    constructor
    · intro h
      refine ⟨c, r, ⟨rfl, rfl⟩, ?_⟩
      simpa using h
    · rintro ⟨_, _, ⟨rfl, rfl⟩, h⟩
      simpa using h

theorem delimited_stops {r : List Char} (h : Delimited r) : Stops r := by
  rcases h with rfl | ⟨c, t, rfl, h⟩
  · intro c hc; cases hc
  · intro c' hc
    cases hc
    unfold IsBlank at h
    rcases h with (rfl | rfl | rfl | rfl) | rfl | rfl | rfl | rfl | rfl | rfl | rfl <;>
      (unfold IsDigit; decide)

theorem parseValue_ws (over : List Char → Bool) (m : JsonMode) {ws s : List Char} (h : ∀ c ∈ ws, IsBlank c) (fuel d : Nat) :
    parseValue over m fuel d (ws ++ s) = parseValue over m fuel d s := by
  match fuel with
  | 0 => rfl
  | fuel + 1 => rw [parseValue, parseValue, skipWs_blank h]

/-- A value that is read as a natural number is a number written in full. -/
theorem parseValue_nat_inv {over : List Char → Bool} {fuel d n : Nat} {s r : List Char}
    (h : parseValue over .full fuel d s = (.num (.nat n), some r)) :
    ∃ ws ds, s = ws ++ ds ++ r ∧ (∀ c ∈ ws, IsBlank c) ∧ WritesJsonNat ds n ∧ n ≤ U64_MAX := by
  match fuel with
  | 0 => simp [parseValue] at h
  | fuel + 1 =>
    rw [parseValue] at h
    obtain ⟨ws, e, hw⟩ := skipWs_split s
    have hid : ∀ (v : Json) (a t : List Char), v ≠ .num (.nat n) → parseIdent v a t ≠ (.num (.nat n), some r) := by
      intro v a
      induction a with
      | nil => intro t hv e; simp [parseIdent] at e; exact hv e.1
      | cons c a ih =>
        intro t hv e
        match t with
        | [] => simp [parseIdent] at e
        | x :: t =>
          simp only [parseIdent] at e
          split at e
          · exact ih t hv e
          · simp at e
    split at h
    · simp at h
    next c t e1 =>
    rw [e1] at e
    split at h
    · exact absurd h (hid _ _ _ (by simp))
    split at h
    · exact absurd h (hid _ _ _ (by simp))
    split at h
    · exact absurd h (hid _ _ _ (by simp))
    split at h
    · split at h <;> simp at h
    split at h
    · split at h <;> simp at h
    split at h
    · split at h <;> simp at h
    split at h
    · next e2 =>
      simp only [Prod.mk.injEq, num.injEq, Option.some.injEq] at h
      obtain ⟨rfl, rfl⟩ := h
      obtain ⟨ds, e3, h1, h2⟩ := parseNumber_nat_inv e2
      exact ⟨ws, ds, by rw [e, e3, List.append_assoc], hw, h1, h2⟩
    · simp at h

theorem streamNext_version (over : List Char → Bool) (s r : List Char) (v : Nat) :
    streamNext over s = some (some (.num (.nat v), r)) ↔ BeginsWithVersion s v r ∧ v ≤ U64_MAX := by
  constructor
  · intro h
    unfold streamNext at h
    split at h
    · simp at h
    next c t e =>
    split at h
    · simp at h
    next j r' hp =>
    split at h
    · next hc =>
      simp only [Option.some.injEq, Prod.mk.injEq] at h
      obtain ⟨rfl, rfl⟩ := h
      obtain ⟨ws, ds, h1, h2, h3, h4⟩ := parseValue_nat_inv hp
      refine ⟨⟨ws, ds, h1, h2, h3, ?_⟩, h4⟩
      have hc1 : c ∉ ['[', '"', '{'] := by
        have e' := e
        rw [h1, List.append_assoc, skipWs_blank h2] at e'
        match ds, h3 with
        | [], h3 => exact absurd rfl h3.1.1
        | x :: ds, h3 =>
          obtain ⟨b1, b2, b3, b4, b5, b6, b7⟩ := digit_begins (h3.1.2 x (by simp))
          rw [List.cons_append, skipWs_stop b1.1] at e'
          cases e'
          simp only [List.mem_cons, List.not_mem_nil, or_false]
          rintro (h | h | h)
          · exact b6 h
          · exact b5 h
          · exact b7 h
      simp only [hc1, decide_false, Bool.false_or] at hc
      exact (delimited_iff _).1 hc
    · simp at h
  · rintro ⟨⟨ws, ds, rfl, h2, h3, h4⟩, h5⟩
    have hp : parse over .full (ws ++ ds ++ r) = (.num (.nat v), some r) := by
      unfold parse
      rw [List.append_assoc, parseValue_ws over _ h2]
      generalize 2 * (ws ++ (ds ++ r)).length + 1 = fuel
      match ds, h3 with
      | [], h3 => exact absurd rfl h3.1.1
      | x :: ds, h3 =>
        obtain ⟨b1, b2, b3, b4, b5, b6, b7⟩ := digit_begins (h3.1.2 x (by simp))
        have := parseNumber_nat (tooLarge over .full) h3 h5 (delimited_stops h4)
        rw [List.cons_append] at this ⊢
        rw [parseValue, skipWs_stop b1.1]
        simp only [if_neg b2, if_neg b3, if_neg b4, if_neg b5, if_neg b6, if_neg b7, this]
    have hs : ∃ c t, skipWs (ws ++ ds ++ r) = c :: t := by
      rw [List.append_assoc, skipWs_blank h2]
      match ds, h3 with
      | [], h3 => exact absurd rfl h3.1.1
      | x :: ds, h3 =>
        exact ⟨x, ds ++ r, skipWs_stop (digit_begins (h3.1.2 x (by simp))).1.1⟩
    obtain ⟨c, t, hs⟩ := hs
    unfold streamNext
    rw [hs]
    simp only [hp]
    rw [if_pos]
    simp [(delimited_iff r).2 h4]

theorem streamNext_none (over : List Char → Bool) (s : List Char) : streamNext over s = none ↔ ∀ c ∈ s, IsBlank c := by
  rw [← skipWs_nil]
  unfold streamNext
  split
  · next e => simp [e]
  · next e =>
    constructor
    · intro h
      split at h
      · simp at h
      · split at h <;> simp at h
    · intro h; rw [h] at e; cases e

end Json

/-! ## Paste -/

theorem fromClipboard_version {α : Type} (over : List Char → Bool) (de : Json → De α) {text rest : List Char} {v : Nat}
    (h : BeginsWithVersion text v rest) (hv : v ≤ 18446744073709551615) :
    fromClipboard over de text =
      if v = 1 then clipResult text (fromSlice over de rest) else .ok (.error (.versionErr v)) := by
  unfold fromClipboard
  rw [(Json.streamNext_version over text rest v).2 ⟨h, hv⟩]

/-- If nothing else is said, the text begins with the version number 1. -/
theorem fromClipboard_cases {α : Type} (over : List Char → Bool) (de : Json → De α) (text : List Char) :
    (∃ v rest, BeginsWithVersion text v rest ∧ v ≤ 18446744073709551615) ∨
    (fromClipboard over de text = .ok (.error .emptyString) ∧ ∀ c ∈ text, IsBlank c) ∨
    fromClipboard over de text = .ok (.error (.cannotParse text)) ∨
    fromClipboard over de text = .ok (.error (.versionNotU64 text)) := by
  match h : Json.streamNext over text with
  | none => exact .inr (.inl ⟨by simp [fromClipboard, h], (Json.streamNext_none over text).1 h⟩)
  | some none => exact .inr (.inr (.inl (by simp [fromClipboard, h])))
  | some (some (.num (.nat v), rest)) => exact .inl ⟨v, rest, (Json.streamNext_version over text rest v).1 h⟩
  | some (some (.num (.neg n), r)) => exact .inr (.inr (.inr (by simp [fromClipboard, h])))
  | some (some (.num .float, r)) => exact .inr (.inr (.inr (by simp [fromClipboard, h])))
  | some (some (.null, r)) => exact .inr (.inr (.inr (by simp [fromClipboard, h])))
  | some (some (.bool b, r)) => exact .inr (.inr (.inr (by simp [fromClipboard, h])))
  | some (some (.str b, r)) => exact .inr (.inr (.inr (by simp [fromClipboard, h])))
  | some (some (.arr b, r)) => exact .inr (.inr (.inr (by simp [fromClipboard, h])))
  | some (some (.obj b, r)) => exact .inr (.inr (.inr (by simp [fromClipboard, h])))
  | some (some (.bad, r)) => exact .inr (.inr (.inr (by simp [fromClipboard, h])))
  | some (some (.skip _, r)) => exact .inr (.inr (.inr (by simp [fromClipboard, h])))

theorem fromSlice_text {α : Type} (over : List Char → Bool) {de : Json → De α} {j : Json} {a : α}
    (hw : Writable 128 j) (hd : de j = .ok a) : fromSlice over de j.text = .ok a := by
  have := Json.parseValue_text over (m := .typed) (by decide) j 128 (2 * j.text.length + 2) [] hw (by omega) (by intro c hc; cases hc)
  rw [List.append_nil] at this
  have hp : Json.parse over .typed j.text = (j, some []) := this
  simp [fromSlice, hp, hd, Json.skipWs]

/-- What is accepted was decoded from some tree. -/
theorem clipResult_ok {α : Type} {over : List Char → Bool} {de : Json → De α} {text rest : List Char} {a : α}
    (h : clipResult text (fromSlice over de rest) = .ok (.ok a)) : ∃ j, de j = .ok a := by
  unfold clipResult at h
  split at h
  · next e =>
    cases h
    simp only [fromSlice, De.bind_eq_ok] at e
    obtain ⟨b, h1, h2⟩ := e
    split at h2
    · split at h2
      · cases h2; exact ⟨_, h1⟩
      · cases h2
    · cases h2
  · cases h
  · cases h

theorem struct_version (l : List (String × Json)) : BeginsWithVersion ('1' :: (encStruct l).text) 1 (encStruct l).text := by
  refine ⟨[], ['1'], rfl, by simp, ⟨⟨by simp, by simp [IsDigit]⟩, by decide, by simp⟩, .inr ?_⟩
  match l with
  | [] => exact ⟨'{', ['}'], rfl, by simp⟩
  | p :: l => exact ⟨'{', _, by simp only [encStruct, List.map_cons]; rw [Json.text], by simp⟩

theorem Models.text_version (m : Models) : BeginsWithVersion m.toClipboardText 1 m.enc.text :=
  struct_version _

theorem ClipProject.text_version (p : ClipProject) : BeginsWithVersion ('1' :: p.enc.text) 1 p.enc.text :=
  struct_version _

end Klavier
