import Verif.Lemmas.Paste

/-! # What is decoded fits its types -/
set_option autoImplicit false
namespace Klavier
open Spec
namespace De

theorem get_ok {α : Type} {ms : List (List Char × Json)} {name : String} {de : Json → De α} {a : α}
    (h : get ms name de = .ok a) : ∃ v, de v = .ok a := by
  unfold get at h
  split at h
  · exact ⟨_, h⟩
  · cases h

theorem option_ok {α : Type} {de : Json → De α} {j : Json} {o : Option α}
    (h : option de j = .ok o) : ∀ a, o = some a → ∃ v, de v = .ok a := by
  intro a e
  subst e
  unfold option at h
  split at h
  · cases h
  · rw [bind_eq_ok] at h
    obtain ⟨b, h1, h2⟩ := h
    simp only [De_pure, Except.ok.injEq, Option.some.injEq] at h2
    exact ⟨j, h2 ▸ h1⟩

theorem getOption_ok {α : Type} {ms : List (List Char × Json)} {name : String} {de : Json → De α} {o : Option α}
    (h : getOption ms name de = .ok o) : ∀ a, o = some a → ∃ v, de v = .ok a := by
  unfold getOption at h
  split at h
  · exact option_ok h
  · cases h; intro a e; cases e

theorem elems_ok {α : Type} {de : Json → De α} : ∀ {l : List Json} {as : List α}, elems de l = .ok as →
    ∀ a ∈ as, ∃ v, de v = .ok a
  | [], as, h => by cases h; simp
  | x :: l, as, h => by
    simp only [elems, bind_eq_ok] at h
    obtain ⟨b, h1, bs, h2, h3⟩ := h
    cases h3
    intro a ha
    rcases List.mem_cons.1 ha with rfl | ha
    · exact ⟨x, h1⟩
    · exact elems_ok h2 a ha

theorem vec_ok {α : Type} {de : Json → De α} {j : Json} {as : List α} (h : vec de j = .ok as) :
    ∀ a ∈ as, ∃ v, de v = .ok a := by
  unfold vec at h
  split at h
  · exact elems_ok h
  · cases h

theorem four_ok {α : Type} {de : Json → De α} {j : Json} {a b c d : α} (h : four de j = .ok (a, b, c, d)) :
    (∃ v, de v = .ok a) ∧ (∃ v, de v = .ok b) ∧ (∃ v, de v = .ok c) ∧ ∃ v, de v = .ok d := by
  unfold four at h
  split at h
  · simp only [bind_eq_ok] at h
    obtain ⟨_, h1, _, h2, _, h3, _, h4, h5⟩ := h
    split at h5
    · cases h5; exact ⟨⟨_, h1⟩, ⟨_, h2⟩, ⟨_, h3⟩, ⟨_, h4⟩⟩
    · cases h5
  · simp only [bind_eq_ok] at h
    obtain ⟨_, _, h⟩ := h
    cases h
  · cases h

theorem uint_ok {max n : Nat} {j : Json} (h : uint max j = .ok n) : n ≤ max := by
  unfold uint at h
  split at h
  · split at h
    · cases h; assumption
    · cases h
  · cases h

theorem sint_ok {max : Nat} {i : Int} {j : Json} (h : sint max j = .ok i) : -(max : Int) - 1 ≤ i ∧ i ≤ max := by
  unfold sint at h
  split at h
  · split at h
    · cases h; omega
    · cases h
  · split at h
    · cases h; omega
    · cases h
  · cases h

theorem lift_ok {α : Type} {r : R α} {a : α} (h : lift r = .ok a) : r = .ok a := by
  unfold lift at h
  split at h <;> cases h
  rfl

end De

theorem Pitch.new_ok {s : Solfa} {o : Octave} {a : SharpFlat} {p : Pitch} (h : Pitch.new s o a = .ok p) :
    Pitch.valueOf p.solfa p.octave p.sharpFlat = .ok p := by
  unfold Pitch.new at h
  split at h
  · cases h
  · next e =>
    cases h
    have e' := e
    unfold Pitch.valueOf at e'
    simp only at e'
    split at e'
    · cases e'
    · split at e'
      · cases e'
      · cases e'; exact e

theorem Pitch.de_ok {j : Json} {p : Pitch} (h : Pitch.de j = .ok p) :
    Pitch.valueOf p.solfa p.octave p.sharpFlat = .ok p := by
  simp only [Pitch.de, De.bind_eq_ok] at h
  obtain ⟨_, _, _, _, _, _, _, _, h⟩ := h
  exact Pitch.new_ok (De.lift_ok h)

theorem Denominator.de_ok {j : Json} {n : Nat} (h : Denominator.de j = .ok n) : 2 ≤ n ∧ n ≤ 255 := by
  simp only [Denominator.de, De.bind_eq_ok] at h
  obtain ⟨v, h1, h2⟩ := h
  have := De.uint_ok h1
  simp only [Denominator.ofSerialized, Denominator.fromValue, De_pure, Except.ok.injEq] at h2
  split at h2
  · simp at h2; omega
  · simp at h2; simp only [U8] at this; omega

theorem Duration.de_ok {j : Json} {d : Duration} (h : Duration.de j = .ok d) :
    (2 ≤ d.denominator ∧ d.denominator ≤ 255) ∧ d.dots ≤ 255 := by
  simp only [Duration.de, De.bind_eq_ok] at h
  obtain ⟨_, _, _, _, _, h2, _, h3, h⟩ := h
  cases h
  obtain ⟨_, h2⟩ := De.get_ok h2
  obtain ⟨_, h3⟩ := De.get_ok h3
  exact ⟨Denominator.de_ok h2, De.uint_ok h3⟩

theorem Trimmer.fromArray_ok {a b c d : Int} {t : Trimmer} (h : Trimmer.fromArray a b c d = .ok t)
    (ha : -32768 ≤ a ∧ a ≤ 32767) (hb : -32768 ≤ b ∧ b ≤ 32767) (hc : -32768 ≤ c ∧ c ≤ 32767)
    (hd : -32768 ≤ d ∧ d ≤ 32767) : SafeTrimmer t := by
  simp only [Trimmer.fromArray, R_bind_eq_ok, chkI16, I16_MIN, I16_MAX] at h
  obtain ⟨s1, h1, s2, h2, s3, h3, h⟩ := h
  cases h
  split at h1 <;> cases h1
  split at h2 <;> cases h2
  split at h3 <;> cases h3
  exact ⟨ha, hb, hc, hd, by assumption, by assumption, by assumption, rfl⟩

theorem Trimmer.de_ok {j : Json} {t : Trimmer} (h : Trimmer.de j = .ok t) : SafeTrimmer t := by
  simp only [Trimmer.de, De.bind_eq_ok] at h
  obtain ⟨_, _, ⟨a, b, c, d⟩, h1, h⟩ := h
  obtain ⟨_, h1⟩ := De.get_ok h1
  obtain ⟨⟨_, h2⟩, ⟨_, h3⟩, ⟨_, h4⟩, ⟨_, h5⟩⟩ := De.four_ok h1
  have h2 := De.sint_ok h2; have h3 := De.sint_ok h3; have h4 := De.sint_ok h4; have h5 := De.sint_ok h5
  exact Trimmer.fromArray_ok (a := a) (b := b) (c := c) (d := d) (De.lift_ok h) (by omega) (by omega) (by omega) (by omega)

theorem Percent.de_ok {j : Json} {p : Percent} (h : Percent.de j = .ok p) : p.value ≤ 65535 := by
  simp only [Percent.de, De.bind_eq_ok] at h
  obtain ⟨_, _, v, h1, h⟩ := h
  cases h
  obtain ⟨_, h1⟩ := De.get_ok h1
  exact De.uint_ok h1

theorem RateTrimmer.de_ok {j : Json} {t : RateTrimmer} (h : RateTrimmer.de j = .ok t) : SafeRate t := by
  simp only [RateTrimmer.de, De.bind_eq_ok] at h
  obtain ⟨_, _, ⟨a, b, c, d⟩, h1, h⟩ := h
  cases h
  obtain ⟨_, h1⟩ := De.get_ok h1
  obtain ⟨⟨_, h2⟩, ⟨_, h3⟩, ⟨_, h4⟩, ⟨_, h5⟩⟩ := De.four_ok h1
  exact ⟨Percent.de_ok h2, Percent.de_ok h3, Percent.de_ok h4, Percent.de_ok h5, rfl⟩

theorem Velocity.de_ok {j : Json} {v : Velocity} (h : Velocity.de j = .ok v) : v.value ≤ 127 := by
  simp only [Velocity.de, De.bind_eq_ok] at h
  obtain ⟨n, h1, h⟩ := h
  cases h
  unfold Velocity.new
  split
  · exact Nat.le_refl _
  · simp only; omega

theorem Note.de_ok {j : Json} {n : Note} (h : Note.de j = .ok n) : SafeNote n := by
  simp only [Note.de, De.bind_eq_ok] at h
  obtain ⟨_, _, _, h1, _, h2, _, h3, _, _, _, _, _, h4, _, h5, _, h6, _, h7, _, h8, h⟩ := h
  cases h
  obtain ⟨_, h1⟩ := De.get_ok h1
  obtain ⟨_, h2⟩ := De.get_ok h2
  obtain ⟨_, h3⟩ := De.get_ok h3
  obtain ⟨_, h4⟩ := De.get_ok h4
  obtain ⟨_, h5⟩ := De.get_ok h5
  obtain ⟨_, h6⟩ := De.get_ok h6
  obtain ⟨_, h7⟩ := De.get_ok h7
  obtain ⟨_, h8⟩ := De.get_ok h8
  exact ⟨De.uint_ok h1, Pitch.de_ok h2, (Duration.de_ok h3).1, (Duration.de_ok h3).2, Velocity.de_ok h4,
    Trimmer.de_ok h5, RateTrimmer.de_ok h6, Trimmer.de_ok h7, De.uint_ok h8⟩

theorem Rhythm.de_ok {j : Json} {r : Rhythm} (h : Rhythm.de j = .ok r) : SafeRhythm r := by
  simp only [Rhythm.de, De.bind_eq_ok] at h
  obtain ⟨_, _, _, h1, _, _, h⟩ := h
  cases h
  obtain ⟨_, h1⟩ := De.get_ok h1
  exact De.uint_ok h1

theorem Key.de_ok {j : Json} {k : Key} (h : Key.de j = .ok k) : SafeKey k := by
  simp only [Key.de, De.bind_eq_ok] at h
  obtain ⟨_, h1, h⟩ := h
  cases h
  exact De.sint_ok h1

theorem Bar.de_ok {j : Json} {b : Bar} (h : Bar.de j = .ok b) : SafeBar b := by
  simp only [Bar.de, De.bind_eq_ok] at h
  obtain ⟨_, _, _, h1, _, h2, _, h3, _, _, h⟩ := h
  cases h
  obtain ⟨_, h1⟩ := De.get_ok h1
  refine ⟨De.uint_ok h1, fun r e => ?_, fun k e => ?_⟩
  · obtain ⟨_, h⟩ := De.getOption_ok h2 r e; exact Rhythm.de_ok h
  · obtain ⟨_, h⟩ := De.getOption_ok h3 k e; exact Key.de_ok h

theorem Tempo.de_ok {j : Json} {t : Tempo} (h : Tempo.de j = .ok t) : SafeTempo t := by
  simp only [Tempo.de, De.bind_eq_ok] at h
  obtain ⟨_, _, _, h1, _, h2, h⟩ := h
  cases h
  obtain ⟨_, h1⟩ := De.get_ok h1
  obtain ⟨_, h2⟩ := De.get_ok h2
  simp only [TempoValue.de, De.bind_eq_ok] at h2
  obtain ⟨_, _, h2⟩ := h2
  cases h2
  refine ⟨De.uint_ok h1, ?_⟩
  unfold TempoValue.ofSerialized
  split
  · simp
  · split
    · simp
    · simp only; omega

theorem CtrlChg.de_ok {j : Json} {c : CtrlChg} (h : CtrlChg.de j = .ok c) : SafeCtrl c := by
  simp only [CtrlChg.de, De.bind_eq_ok] at h
  obtain ⟨_, _, _, h1, _, h2, _, h3, h⟩ := h
  cases h
  obtain ⟨_, h1⟩ := De.get_ok h1
  obtain ⟨_, h2⟩ := De.get_ok h2
  obtain ⟨_, h3⟩ := De.get_ok h3
  exact ⟨De.uint_ok h1, Velocity.de_ok h2, De.uint_ok h3⟩

theorem safe_vec {α : Type} {P : α → Prop} {de : Json → De α} {ms : List (List Char × Json)} {name : String} {l : List α}
    (h : De.get ms name (De.vec de) = .ok l) (hp : ∀ {j a}, de j = .ok a → P a) : ∀ a ∈ l, P a := by
  obtain ⟨_, h⟩ := De.get_ok h
  intro a ha
  obtain ⟨_, h⟩ := De.vec_ok h a ha
  exact hp h

theorem Models.de_ok {j : Json} {m : Models} (h : Models.de j = .ok m) : SafeModels m := by
  simp only [Models.de, De.bind_eq_ok] at h
  obtain ⟨_, _, _, h1, _, h2, _, h3, _, h4, _, h5, h⟩ := h
  cases h
  exact ⟨safe_vec h1 Note.de_ok, safe_vec h2 Bar.de_ok, safe_vec h3 Tempo.de_ok, safe_vec h4 CtrlChg.de_ok,
    safe_vec h5 CtrlChg.de_ok⟩

theorem ClipProject.de_ok {j : Json} {p : ClipProject} (h : ClipProject.de j = .ok p) : SafeModels p.models ∧
    (∀ k, p.key = some k → SafeKey k) ∧ ∀ r, p.rhythm = some r → SafeRhythm r := by
  simp only [ClipProject.de, De.bind_eq_ok] at h
  obtain ⟨_, _, _, h6, _, h7, _, h1, _, h2, _, h3, _, h4, _, h5, h⟩ := h
  cases h
  refine ⟨⟨safe_vec h1 Note.de_ok, safe_vec h2 Bar.de_ok, safe_vec h3 Tempo.de_ok, safe_vec h4 CtrlChg.de_ok,
    safe_vec h5 CtrlChg.de_ok⟩, fun k e => ?_, fun r e => ?_⟩
  · obtain ⟨_, h⟩ := De.getOption_ok h6 k e; exact Key.de_ok h
  · obtain ⟨_, h⟩ := De.getOption_ok h7 r e; exact Rhythm.de_ok h

end Klavier
