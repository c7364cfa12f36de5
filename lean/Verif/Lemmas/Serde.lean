import Verif.Spec.Serde
import Verif.Lemmas.JsonFuel
import Verif.Lemmas.Values

/-! # What is encoded is decoded again -/
set_option autoImplicit false
namespace Klavier
open Spec

@[simp] theorem De_bind_ok {α β : Type} (a : α) (f : α → De β) : (Except.ok a >>= f : De β) = f a := rfl
@[simp] theorem De_bind_error {α β : Type} (e : DeErr) (f : α → De β) : (Except.error e >>= f : De β) = .error e := rfl
@[simp] theorem De_pure {α : Type} (a : α) : (pure a : De α) = .ok a := rfl

namespace De

theorem bind_eq_ok {α β : Type} {x : De α} {f : α → De β} {b : β} :
    (x >>= f) = .ok b ↔ ∃ a, x = .ok a ∧ f a = .ok b := by
  cases x <;> simp

theorem enum_name {α : Type} {name : α → List Char} {all : List α} {a : α} (h : a ∈ all)
    (inj : ∀ b ∈ all, name b = name a → b = a) : enum name all (.str (name a)) = .ok a := by
  simp only [enum, variant, De_bind_ok]
  match e : all.find? (fun b => decide (name b = name a)) with
  | none =>
    have := List.find?_eq_none.1 e a h
    simp at this
  | some b =>
    have h1 := List.find?_some e
    have h2 := List.mem_of_find?_eq_some e
    simp only [decide_eq_true_eq] at h1
    rw [inj b h2 h1]
    rfl

theorem elems_map {α : Type} {enc : α → Json} {de : Json → De α} {l : List α} (h : ∀ a ∈ l, de (enc a) = .ok a) :
    elems de (l.map enc) = .ok l := by
  induction l with
  | nil => rfl
  | cons a l ih =>
    simp [elems, h a (by simp), ih (fun b hb => h b (by simp [hb]))]

theorem vec_enc {α : Type} {enc : α → Json} {de : Json → De α} {l : List α} (h : ∀ a ∈ l, de (enc a) = .ok a) :
    vec de (encVec enc l) = .ok l := elems_map h

theorem option_enc {α : Type} {enc : α → Json} {de : Json → De α} {o : Option α}
    (h : ∀ a, o = some a → de (enc a) = .ok a) (hn : ∀ a, enc a ≠ .null) :
    option de (encOption enc o) = .ok o := by
  match o with
  | none => rfl
  | some a =>
    have := h a rfl
    simp only [encOption]
    unfold option
    split
    · next e => exact absurd e (hn a)
    · rw [this]; rfl

theorem uint_enc {n max : Nat} (h : n ≤ max) : uint max (encNat n) = .ok n := by simp [uint, encNat, h]

theorem sint_enc {i : Int} {max : Nat} (h : -(max : Int) - 1 ≤ i ∧ i ≤ max) : sint max (encInt i) = .ok i := by
  unfold encInt
  split
  · simp only [sint]; rw [if_pos (by omega)]; congr 1; omega
  · simp only [sint]; rw [if_pos (by omega)]; congr 1; omega

/-! What is encoded is never just skipped. -/

section
variable (f : Json → De Unit)
@[simp] theorem knownField_str (s : List Char) : knownField f (.str s) = f (.str s) := rfl
@[simp] theorem knownField_bool (b : Bool) : knownField f (.bool b) = f (.bool b) := rfl
@[simp] theorem knownField_arr (l : List Json) : knownField f (.arr l) = f (.arr l) := rfl
@[simp] theorem knownField_nat (n : Nat) : knownField f (encNat n) = f (encNat n) := rfl
@[simp] theorem knownField_vec {α : Type} (enc : α → Json) (l : List α) : knownField f (encVec enc l) = f (encVec enc l) := rfl
@[simp] theorem knownField_pitch (p : Pitch) : knownField f p.enc = f p.enc := rfl
@[simp] theorem knownField_duration (d : Duration) : knownField f d.enc = f d.enc := rfl
@[simp] theorem knownField_trimmer (t : Trimmer) : knownField f t.enc = f t.enc := rfl
@[simp] theorem knownField_rate (t : RateTrimmer) : knownField f t.enc = f t.enc := rfl
@[simp] theorem knownField_marks (s : RepeatSet) : knownField f s.enc = f s.enc := rfl
@[simp] theorem knownField_rhythm (o : Option Rhythm) : knownField f (encOption Rhythm.enc o) = f (encOption Rhythm.enc o) := by
  cases o <;> rfl
@[simp] theorem knownField_key (o : Option Key) : knownField f (encOption Key.enc o) = f (encOption Key.enc o) := by
  cases o with
  | none => rfl
  | some k =>
    show knownField f (encInt k.offset) = f (encInt k.offset)
    unfold encInt
    split <;> rfl
end

end De

theorem Solfa.de_name (s : Solfa) : De.enum Solfa.name Solfa.ALL (.str s.name) = .ok s :=
  De.enum_name (by cases s <;> decide) (by cases s <;> decide)
theorem Octave.de_name (s : Octave) : De.enum Octave.name Octave.ALL (.str s.name) = .ok s :=
  De.enum_name (by cases s <;> decide) (by cases s <;> decide)
theorem SharpFlat.de_name (s : SharpFlat) : De.enum SharpFlat.name SharpFlat.ALL (.str s.name) = .ok s :=
  De.enum_name (by cases s <;> decide) (by cases s <;> decide)
theorem NoteValue.de_name (s : NoteValue) : De.enum NoteValue.name NoteValue.ALL (.str s.name) = .ok s :=
  De.enum_name (by cases s <;> decide) (by cases s <;> decide)
theorem BarUnit.de_name (s : BarUnit) : De.enum BarUnit.name BarUnit.ALL (.str s.name) = .ok s :=
  De.enum_name (by cases s <;> decide) (by cases s <;> decide)

theorem Pitch.de_enc {p : Pitch} (h : Pitch.valueOf p.solfa p.octave p.sharpFlat = .ok p) : Pitch.de p.enc = .ok p := by
  simp [Pitch.de, Pitch.enc, encStruct, De.struct, De.members, De.field, De.get, List.lookup_cons, Solfa.de_name, Octave.de_name,
    SharpFlat.de_name, Pitch.new, h, De.lift]

theorem Duration.de_enc {d : Duration} (h : 2 ≤ d.denominator ∧ d.denominator ≤ 255) (hd : d.dots ≤ 255) :
    Duration.de d.enc = .ok d := by
  have e : Denominator.de (encNat d.denominator) = .ok d.denominator := by
    simp [Denominator.de, De.uint_enc h.2, Denominator.ofSerialized, Denominator.fromValue, show ¬ d.denominator < 2 by omega]
  simp [Duration.de, Duration.enc, encStruct, De.struct, De.members, De.field, De.get, List.lookup_cons, NoteValue.de_name, e, De.uint_enc hd]

theorem Trimmer.de_enc {t : Trimmer} (h : SafeTrimmer t) : Trimmer.de t.enc = .ok t := by
  have e : De.four (De.sint 32767) (.arr [encInt t.v0, encInt t.v1, encInt t.v2, encInt t.v3]) =
      .ok (t.v0, t.v1, t.v2, t.v3) := by
    simp [De.four, De.sint_enc (max := 32767) h.v0, De.sint_enc (max := 32767) h.v1, De.sint_enc (max := 32767) h.v2,
      De.sint_enc (max := 32767) h.v3]
  have e2 : Trimmer.fromArray t.v0 t.v1 t.v2 t.v3 = .ok t := by
    have hs := h.sum
    have hf := h.four
    simp only [Trimmer.fromArray, chkI16, I16_MIN, I16_MAX]
    rw [if_pos h.two]
    simp only [R_bind_ok]
    rw [if_pos h.three]
    simp only [R_bind_ok]
    rw [if_pos (by rw [← hs]; exact hf)]
    simp only [R_bind_ok, R_pure, ← hs]
  simp [Trimmer.de, Trimmer.enc, encStruct, De.struct, De.members, De.field, De.get, e, e2, De.lift]

theorem Percent.de_enc {p : Percent} (h : p.value ≤ 65535) : Percent.de p.enc = .ok p := by
  simp [Percent.de, Percent.enc, encStruct, De.struct, De.members, De.field, De.get, De.uint_enc h]

theorem RateTrimmer.de_enc {t : RateTrimmer} (h : SafeRate t) : RateTrimmer.de t.enc = .ok t := by
  have e : De.four Percent.de (.arr [t.v0.enc, t.v1.enc, t.v2.enc, t.v3.enc]) = .ok (t.v0, t.v1, t.v2, t.v3) := by
    simp [De.four, Percent.de_enc h.v0, Percent.de_enc h.v1, Percent.de_enc h.v2, Percent.de_enc h.v3]
  have := h.sum
  simp [RateTrimmer.de, RateTrimmer.enc, encStruct, De.struct, De.members, De.field, De.get, e]
  exact this.symm

theorem Velocity.de_enc {v : Velocity} (h : v.value ≤ 127) : Velocity.de (encNat v.value) = .ok v := by
  simp [Velocity.de, De.uint_enc (show v.value ≤ 255 by omega), Velocity.new, show ¬ 127 < v.value by omega]

theorem Note.de_enc {n : Note} (h : SafeNote n) : Note.de n.enc = .ok n := by
  have hd := Duration.de_enc h.denominator h.dots
  simp [Note.de, Note.enc, encStruct, De.struct, De.members, De.field, De.get, List.lookup_cons, De.uint_enc (max := U32) h.tick,
    Pitch.de_enc h.pitch, hd, De.bool, Velocity.de_enc h.velocity, Trimmer.de_enc h.start, RateTrimmer.de_enc h.length,
    Trimmer.de_enc h.loudness, De.uint_enc (max := U8) h.channel]

theorem Rhythm.de_enc {r : Rhythm} (h : SafeRhythm r) : Rhythm.de r.enc = .ok r := by
  simp [Rhythm.de, Rhythm.enc, encStruct, De.struct, De.members, De.field, De.get, List.lookup_cons, De.uint_enc (max := U8) h, BarUnit.de_name]

theorem Key.de_enc {k : Key} (h : SafeKey k) : Key.de k.enc = .ok k := by
  simp [Key.de, Key.enc, De.sint_enc (max := 127) h]

theorem RepeatSet.ofBits_bits (s : RepeatSet) : RepeatSet.ofBits s.bits = s := by
  obtain ⟨a, b, c, d, e, f, g, h, i, j, k⟩ := s
  revert a b c d e f g h i j k
  decide +kernel

theorem RepeatSet.bits_lt (s : RepeatSet) : s.bits ≤ 2047 := by
  have h : ∀ b : Bool, b.toNat ≤ 1 := by decide
  unfold RepeatSet.bits
  have := h s.start; have := h s.end_; have := h s.dc; have := h s.fine; have := h s.ds; have := h s.segno
  have := h s.coda; have := h s.var1; have := h s.var2; have := h s.var3; have := h s.var4
  omega

theorem RepeatSet.de_enc (s : RepeatSet) : RepeatSet.de s.enc = .ok s := by
  have := s.bits_lt
  simp [RepeatSet.de, RepeatSet.enc, encStruct, De.struct, De.members, De.field, De.get,
    De.uint_enc (show s.bits ≤ 65535 by omega), RepeatSet.ofBits_bits]

theorem Rhythm.enc_ne (r : Rhythm) : r.enc ≠ .null := by simp [Rhythm.enc, encStruct]
theorem Key.enc_ne (k : Key) : k.enc ≠ .null := by unfold Key.enc encInt; split <;> simp

theorem Bar.de_enc {b : Bar} (h : SafeBar b) : Bar.de b.enc = .ok b := by
  have h1 := De.option_enc (fun r e => Rhythm.de_enc (h.rhythm r e)) Rhythm.enc_ne
  have h2 := De.option_enc (fun r e => Key.de_enc (h.key r e)) Key.enc_ne
  simp [Bar.de, Bar.enc, encStruct, De.struct, De.members, De.field, De.get, List.lookup_cons, De.getOption,
    De.uint_enc (max := U32) h.tick, h1, h2, RepeatSet.de_enc]

theorem Tempo.de_enc {t : Tempo} (h : SafeTempo t) : Tempo.de t.enc = .ok t := by
  have e : TempoValue.de (encNat t.value.value) = .ok t.value := by
    have := h.value
    simp [TempoValue.de, De.uint_enc (show t.value.value ≤ 65535 by omega), TempoValue.ofSerialized,
      show ¬ 999 < t.value.value by omega, show ¬ t.value.value = 0 by omega]
  simp [Tempo.de, Tempo.enc, encStruct, De.struct, De.members, De.field, De.get, List.lookup_cons, De.uint_enc (max := U32) h.tick, e]

theorem CtrlChg.de_enc {c : CtrlChg} (h : SafeCtrl c) : CtrlChg.de c.enc = .ok c := by
  simp [CtrlChg.de, CtrlChg.enc, encStruct, De.struct, De.members, De.field, De.get, List.lookup_cons, De.uint_enc (max := U32) h.tick,
    Velocity.de_enc h.velocity, De.uint_enc (max := U8) h.channel]

theorem Models.de_enc {m : Models} (h : SafeModels m) : Models.de m.enc = .ok m := by
  simp [Models.de, Models.enc, encStruct, De.struct, De.members, De.field, De.get, List.lookup_cons,
    De.vec_enc (fun n hn => Note.de_enc (h.notes n hn)), De.vec_enc (fun n hn => Bar.de_enc (h.bars n hn)),
    De.vec_enc (fun n hn => Tempo.de_enc (h.tempos n hn)), De.vec_enc (fun n hn => CtrlChg.de_enc (h.dumpers n hn)),
    De.vec_enc (fun n hn => CtrlChg.de_enc (h.softs n hn))]

/-- The text of a selection is read by the importer of projects, too. -/
theorem ClipProject.de_models {m : Models} (h : SafeModels m) : ClipProject.de m.enc = .ok { models := m } := by
  simp [ClipProject.de, Models.enc, encStruct, De.struct, De.members, De.field, De.get, List.lookup_cons, De.getOption,
    De.vec_enc (fun n hn => Note.de_enc (h.notes n hn)), De.vec_enc (fun n hn => Bar.de_enc (h.bars n hn)),
    De.vec_enc (fun n hn => Tempo.de_enc (h.tempos n hn)), De.vec_enc (fun n hn => CtrlChg.de_enc (h.dumpers n hn)),
    De.vec_enc (fun n hn => CtrlChg.de_enc (h.softs n hn))]

theorem ClipProject.de_enc {p : ClipProject} (h : SafeModels p.models) (hk : ∀ k, p.key = some k → SafeKey k)
    (hr : ∀ r, p.rhythm = some r → SafeRhythm r) : ClipProject.de p.enc = .ok p := by
  have h1 := De.option_enc (fun r e => Rhythm.de_enc (hr r e)) Rhythm.enc_ne
  have h2 := De.option_enc (fun r e => Key.de_enc (hk r e)) Key.enc_ne
  simp [ClipProject.de, ClipProject.enc, encStruct, De.struct, De.members, De.field, De.get, List.lookup_cons, De.getOption, h1, h2,
    De.vec_enc (fun n hn => Note.de_enc (h.notes n hn)), De.vec_enc (fun n hn => Bar.de_enc (h.bars n hn)),
    De.vec_enc (fun n hn => Tempo.de_enc (h.tempos n hn)), De.vec_enc (fun n hn => CtrlChg.de_enc (h.dumpers n hn)),
    De.vec_enc (fun n hn => CtrlChg.de_enc (h.softs n hn))]

end Klavier
