import Verif.Spec.Pitch

/-! # Helper lemmas for pitches: the enums are finite, so statements about all
names, octaves and accidentals are decided exhaustively by the kernel. -/
set_option autoImplicit false
namespace Klavier

instance Solfa.decForall (p : Solfa → Prop) [DecidablePred p] : Decidable (∀ s, p s) :=
  decidable_of_iff (∀ s ∈ Solfa.ALL, p s)
    ⟨fun h s => h s (by cases s <;> decide), fun h s _ => h s⟩

instance Octave.decForall (p : Octave → Prop) [DecidablePred p] : Decidable (∀ s, p s) :=
  decidable_of_iff (∀ s ∈ Octave.ALL, p s)
    ⟨fun h s => h s (by cases s <;> decide), fun h s _ => h s⟩

instance SharpFlat.decForall (p : SharpFlat → Prop) [DecidablePred p] : Decidable (∀ s, p s) :=
  decidable_of_iff (∀ s ∈ [SharpFlat.Sharp, .DoubleSharp, .Flat, .DoubleFlat, .Natural, .Null], p s)
    ⟨fun h s => h s (by cases s <;> decide), fun h s _ => h s⟩

theorem midi_eq : ∀ (s : Solfa) (o : Octave) (a : SharpFlat),
    Pitch.toValue s o a = Spec.midi s o a := by decide +kernel

theorem staff_eq : ∀ (s : Solfa) (o : Octave),
    s.scoreOffset + 7 * o.offset = Spec.staff s o := by decide +kernel

theorem staff_lt : ∀ (s : Solfa) (o : Octave), Spec.staff s o < 77 := by decide +kernel

theorem staff_inj : ∀ (s : Solfa) (o : Octave) (s' : Solfa) (o' : Octave),
    Spec.staff s o = Spec.staff s' o' → s = s' ∧ o = o' := by decide +kernel

/-- Boolean test of the value of a computation that must not panic. -/
def okAnd {α : Type} (x : R α) (f : α → Bool) : Bool :=
  match x with
  | .ok a => f a
  | .error _ => false

theorem okAnd_iff {α : Type} {x : R α} {f : α → Bool} :
    okAnd x f = true ↔ ∃ a, x = .ok a ∧ f a = true := by
  cases x <;> simp [okAnd]

theorem staff_surj : ∀ n : Fin 77,
    ∃ so, Pitch.scoreOffsetToSolfaOctave (n.val : Int) = .ok so ∧ Spec.staff so.1 so.2 = n.val := by
  intro n
  have h : ∀ n : Fin 77, okAnd (Pitch.scoreOffsetToSolfaOctave (n.val : Int))
      (fun so => Spec.staff so.1 so.2 == n.val) = true := by decide +kernel
  obtain ⟨so, h1, h2⟩ := okAnd_iff.1 (h n)
  exact ⟨so, h1, by simpa using h2⟩

/-- Decision logic of the constructor. -/
theorem valueOf_spec (s : Solfa) (o : Octave) (a : SharpFlat) :
    Pitch.valueOf s o a =
      if Spec.midi s o a < 0 then .error (.tooLow s o a (Spec.midi s o a))
      else if 127 < Spec.midi s o a then .error (.tooHigh s o a (Spec.midi s o a))
      else .ok ⟨s, o, a, (Spec.midi s o a).toNat, Spec.staff s o⟩ := by
  simp only [Pitch.valueOf, midi_eq, staff_eq, Pitch.MIN_VALUE, Pitch.MAX_VALUE]

theorem valueOf_ok_iff (s : Solfa) (o : Octave) (a : SharpFlat) (p : Pitch) :
    Pitch.valueOf s o a = .ok p ↔
      (Spec.ValidPitch p ∧ p.solfa = s ∧ p.octave = o ∧ p.sharpFlat = a) := by
  rw [valueOf_spec]
  constructor
  · intro h
    split at h
    · cases h
    · split at h
      · cases h
      · next h1 h2 =>
        cases h
        exact ⟨⟨by simp; omega, rfl, by simpa using h1, by simpa using h2⟩, rfl, rfl, rfl⟩
  · rintro ⟨⟨h1, h2, h3, h4⟩, rfl, rfl, rfl⟩
    rw [if_neg (by omega), if_neg (by omega)]
    congr 1
    cases p
    simp only at *
    subst h2
    congr 1
    omega

theorem valid_valueOf {p : Pitch} (h : Spec.ValidPitch p) :
    Pitch.valueOf p.solfa p.octave p.sharpFlat = .ok p :=
  (valueOf_ok_iff ..).2 ⟨h, rfl, rfl, rfl⟩

theorem valid_ext {p q : Pitch} (hp : Spec.ValidPitch p) (hq : Spec.ValidPitch q)
    (h1 : p.solfa = q.solfa) (h2 : p.octave = q.octave) (h3 : p.sharpFlat = q.sharpFlat) : p = q := by
  have a := valid_valueOf hp
  have b := valid_valueOf hq
  rw [h1, h2, h3, b] at a
  exact (Except.ok.inj a).symm

theorem up_spec (p : Pitch) : ∀ (_ : ¬ (p.solfa = .B ∧ p.octave = .Oct8)),
    ∃ s o, Spec.staff s o = Spec.staff p.solfa p.octave + 1 ∧
      p.up = .ok (Pitch.valueOf s o p.sharpFlat) := by
  obtain ⟨s, o, a, v, so⟩ := p
  have h : ∀ (s : Solfa) (o : Octave), ¬ (s = .B ∧ o = .Oct8) →
      okAnd (if s = .B then (o.addAssign 1).map (fun o => (Solfa.C, o))
        else (s.addAssign 1).map (fun s => (s, o)) : R (Solfa × Octave))
        (fun so => Spec.staff so.1 so.2 == Spec.staff s o + 1) = true := by decide +kernel
  intro hne
  have h := h s o hne
  simp only [Pitch.up]
  obtain ⟨so, hso, h⟩ := okAnd_iff.1 h
  refine ⟨so.1, so.2, by simpa using h, ?_⟩
  split at hso
  · next hB =>
    rw [if_pos hB, if_pos (by intro hc; exact hne ⟨hB, hc⟩)]
    cases ho : o.addAssign 1 with
    | error e => rw [ho] at hso; cases hso
    | ok o' => rw [ho] at hso; cases hso; rfl
  · next hB =>
    rw [if_neg hB]
    cases ho : s.addAssign 1 with
    | error e => rw [ho] at hso; cases hso
    | ok o' => rw [ho] at hso; cases hso; rfl

theorem down_spec (p : Pitch) : ∀ (_ : ¬ (p.solfa = .C ∧ p.octave = .OctM2)),
    ∃ s o, Spec.staff s o + 1 = Spec.staff p.solfa p.octave ∧
      p.down = .ok (Pitch.valueOf s o p.sharpFlat) := by
  obtain ⟨s, o, a, v, so⟩ := p
  have h : ∀ (s : Solfa) (o : Octave), ¬ (s = .C ∧ o = .OctM2) →
      okAnd (if s = .C then (o.subAssign 1).map (fun o => (Solfa.B, o))
        else (s.subAssign 1).map (fun s => (s, o)) : R (Solfa × Octave))
        (fun so => Spec.staff so.1 so.2 + 1 == Spec.staff s o) = true := by decide +kernel
  intro hne
  have h := h s o hne
  simp only [Pitch.down]
  obtain ⟨so, hso, h⟩ := okAnd_iff.1 h
  refine ⟨so.1, so.2, by simpa using h, ?_⟩
  split at hso
  · next hB =>
    rw [if_pos hB, if_pos (by intro hc; exact hne ⟨hB, hc⟩)]
    cases ho : o.subAssign 1 with
    | error e => rw [ho] at hso; cases hso
    | ok o' => rw [ho] at hso; cases hso; rfl
  · next hB =>
    rw [if_neg hB]
    cases ho : s.subAssign 1 with
    | error e => rw [ho] at hso; cases hso
    | ok o' => rw [ho] at hso; cases hso; rfl

theorem naturalMidi_step (n : Nat) :
    Spec.naturalMidi n < Spec.naturalMidi (n + 1) ∧ Spec.naturalMidi (n + 1) ≤ Spec.naturalMidi n + 2 := by
  simp only [Spec.naturalMidi]
  split <;> omega

/-- B of octave 8 is not a MIDI note with any accidental. -/
theorem B8_not_valid {p : Pitch} (h : Spec.ValidPitch p) : ¬ (p.solfa = .B ∧ p.octave = .Oct8) := by
  rintro ⟨h1, h2⟩
  have := h.high
  rw [h1, h2] at this
  have hk : ∀ a : SharpFlat, ¬ (Spec.midi .B .Oct8 a ≤ 127) := by decide +kernel
  exact hk _ this

end Klavier
