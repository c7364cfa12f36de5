import Verif.Props.Parts

/-! # C77 counting letters and octaves -/
set_option autoImplicit false
namespace Klavier
open Spec

/-- C77: `octave += n` and `octave -= n` give the octave `n` further up or down if there
is one, and panic otherwise, for every `n`. -/
theorem C77_octave (o : Octave) (n : Int) :
    (∀ c : Octave, o.addAssign n = .ok c ↔ c.value = o.value + n) ∧
    (∀ c : Octave, o.subAssign n = .ok c ↔ c.value = o.value - n) ∧
    ((∃ p, o.addAssign n = .error p) ↔ ¬ (-2 ≤ o.value + n ∧ o.value + n ≤ 8)) ∧
    ((∃ p, o.subAssign n = .error p) ↔ ¬ (-2 ≤ o.value - n ∧ o.value - n ≤ 8)) := by
  have key : ∀ v : Int, ∀ c : Octave,
      ((do let s ← chkI32 v; let r ← Octave.valueOf s; unwrapR r : R Octave) = .ok c ↔ c.value = v) := by
    intro v c
    have hb : -2 ≤ c.value ∧ c.value ≤ 8 := by cases c <;> decide
    have hv := (C60_octaves .Oct0 .Oct0 c v).1
    constructor
    · intro h
      obtain ⟨s, hs, h⟩ := R_bind_eq_ok.1 h
      obtain ⟨r, hr, h⟩ := R_bind_eq_ok.1 h
      have e : s = v := by
        unfold chkI32 at hs
        split at hs
        · exact (Except.ok.inj hs).symm
        · cases hs
      subst e
      cases r with
      | error _ => cases h
      | ok c' =>
        have : c' = c := Except.ok.inj h
        subst this
        exact hv.1 hr
    · intro h
      have hc : chkI32 v = .ok v := by
        unfold chkI32
        rw [if_pos]
        simp only [I32_MIN, I32_MAX]
        omega
      rw [hc, R_bind_ok, hv.2 h]
      rfl
  have ex : ∀ v : Int, -2 ≤ v ∧ v ≤ 8 → ∃ c : Octave, c.value = v := by
    intro v h
    have hm : v = -2 ∨ v = -1 ∨ v = 0 ∨ v = 1 ∨ v = 2 ∨ v = 3 ∨ v = 4 ∨ v = 5 ∨ v = 6 ∨ v = 7 ∨ v = 8 := by omega
    rcases hm with h | h | h | h | h | h | h | h | h | h | h <;> subst h
    · exact ⟨.OctM2, rfl⟩
    · exact ⟨.OctM1, rfl⟩
    · exact ⟨.Oct0, rfl⟩
    · exact ⟨.Oct1, rfl⟩
    · exact ⟨.Oct2, rfl⟩
    · exact ⟨.Oct3, rfl⟩
    · exact ⟨.Oct4, rfl⟩
    · exact ⟨.Oct5, rfl⟩
    · exact ⟨.Oct6, rfl⟩
    · exact ⟨.Oct7, rfl⟩
    · exact ⟨.Oct8, rfl⟩
  have err : ∀ (x : R Octave) (v : Int), (∀ c : Octave, x = .ok c ↔ c.value = v) →
      ((∃ p, x = .error p) ↔ ¬ (-2 ≤ v ∧ v ≤ 8)) := by
    intro x v hx
    constructor
    · rintro ⟨p, hp⟩ h
      obtain ⟨c, hc⟩ := ex v h
      rw [(hx c).2 hc] at hp
      cases hp
    · intro h
      cases x with
      | error p => exact ⟨p, rfl⟩
      | ok c =>
        exfalso
        have hc := (hx c).1 rfl
        have hb : -2 ≤ c.value ∧ c.value ≤ 8 := by cases c <;> decide
        omega
  exact ⟨key _, key _, err _ _ (key _), err _ _ (key _)⟩

example : Octave.addAssign .Oct1 (-3) = .ok .OctM2 ∧ ∃ p, Octave.subAssign .Oct1 4 = .error p :=
  ⟨((C77_octave .Oct1 (-3)).1 .OctM2).2 rfl, (C77_octave .Oct1 4).2.2.2.2 (by decide)⟩

/-- C77 is false for letters: the letter below `C` does not exist, yet `C += -1` leaves a
`C` where it should panic (as `C -= 1` does); likewise `B -= -1` leaves a `B`. -/
theorem C77_letter_false :
    (Solfa.addAssign .C (-1) = .ok .C ∧ ∃ p, Solfa.subAssign .C 1 = .error p) ∧
    (Solfa.subAssign .B (-1) = .ok .B ∧ ∃ p, Solfa.addAssign .B 1 = .error p) :=
  ⟨⟨rfl, .explicit, rfl⟩, ⟨rfl, .explicit, rfl⟩⟩

private theorem letter_of (v : Int) (t : Solfa) :
    Solfa.fromScoreOffset v = .ok t ↔ scale[(min 6 (max 0 v)).toNat]? = some t := by
  by_cases h1 : v < 0
  · have e : Solfa.fromScoreOffset v = .ok .C := by
      unfold Solfa.fromScoreOffset
      rw [if_pos (show v < Solfa.C.scoreOffset from h1)]
    have e2 : (min 6 (max 0 v)).toNat = 0 := by omega
    rw [e, e2]
    cases t <;> decide
  · by_cases h2 : 6 < v
    · have e : Solfa.fromScoreOffset v = .ok .B := by
        unfold Solfa.fromScoreOffset
        rw [if_neg (show ¬ v < Solfa.C.scoreOffset from h1), if_pos (show v > Solfa.B.scoreOffset from h2)]
      have e2 : (min 6 (max 0 v)).toNat = 6 := by omega
      rw [e, e2]
      cases t <;> decide
    · have hm : v = 0 ∨ v = 1 ∨ v = 2 ∨ v = 3 ∨ v = 4 ∨ v = 5 ∨ v = 6 := by omega
      rcases hm with h | h | h | h | h | h | h <;> subst h <;> cases t <;> decide

/-- C77 for letters, exactly, for every 32-bit `n` and the letter at place `i` of the scale.
`+= n` panics beyond the end of the scale, otherwise it gives the letter `n` places on,
stopping at the first one.  `-= n` panics before the beginning of the scale (or when the
difference is no 32-bit number), otherwise it gives the letter `n` places back, stopping at
the last one. -/
theorem C77_letter_partial (s t : Solfa) (i : Nat) (n : Int) (hs : scale[i]? = some s)
    (hn : I32_MIN ≤ n ∧ n ≤ I32_MAX) :
    (s.addAssign n = .ok t ↔ i + n ≤ 6 ∧ scale[(i + n).toNat]? = some t) ∧
    ((∃ p, s.addAssign n = .error p) ↔ 6 < i + n) ∧
    (s.subAssign n = .ok t ↔ 0 ≤ i - n ∧ i - n ≤ I32_MAX ∧ scale[(min 6 (i - n)).toNat]? = some t) ∧
    ((∃ p, s.subAssign n = .error p) ↔ i - n < 0 ∨ I32_MAX < i - n) := by
  have hi : s.scoreOffset = i ∧ i ≤ 6 := by
    rcases i with _ | _ | _ | _ | _ | _ | _ | i
    all_goals first
      | (cases hs; exact ⟨rfl, by omega⟩)
      | (simp [scale] at hs)
  obtain ⟨hi, h6⟩ := hi
  simp only [I32_MIN, I32_MAX] at hn ⊢
  have total : ∀ v : Int, ∃ u, Solfa.fromScoreOffset v = .ok u := by
    intro v
    have : (min 6 (max 0 v)).toNat < 7 := by omega
    have hl : (min 6 (max 0 v)).toNat < scale.length := this
    exact ⟨scale[(min 6 (max 0 v)).toNat], (letter_of v _).2 (List.getElem?_eq_getElem hl)⟩
  -- adding
  have hadd : (6 < (i : Int) + n → ∃ p, s.addAssign n = .error p) ∧
      ((i : Int) + n ≤ 6 → s.addAssign n = Solfa.fromScoreOffset (i + n)) := by
    unfold Solfa.addAssign
    rw [hi]
    constructor
    · intro h
      unfold chkI32
      split
      · exact ⟨.explicit, by rw [R_bind_ok, if_pos (show Solfa.B.scoreOffset < _ from h)]⟩
      · exact ⟨_, rfl⟩
    · intro h
      have hc : chkI32 ((i : Int) + n) = .ok (i + n) := by
        unfold chkI32
        rw [if_pos]
        simp only [I32_MIN, I32_MAX]
        omega
      rw [hc, R_bind_ok, if_neg (show ¬ Solfa.B.scoreOffset < _ from by
        show ¬ (6 : Int) < _
        omega)]
  have hsub : ((i : Int) - n < 0 ∨ 2147483647 < (i : Int) - n → ∃ p, s.subAssign n = .error p) ∧
      (0 ≤ (i : Int) - n ∧ (i : Int) - n ≤ 2147483647 → s.subAssign n = Solfa.fromScoreOffset (i - n)) := by
    unfold Solfa.subAssign
    rw [hi]
    constructor
    · intro h
      unfold chkI32
      split
      · rename_i hc
        simp only [I32_MIN, I32_MAX] at hc
        exact ⟨.explicit, by
          rw [R_bind_ok, if_pos (show _ < Solfa.C.scoreOffset from by
            show _ < (0 : Int)
            omega)]⟩
      · exact ⟨_, rfl⟩
    · intro h
      have hc : chkI32 ((i : Int) - n) = .ok (i - n) := by
        unfold chkI32
        rw [if_pos]
        simp only [I32_MIN, I32_MAX]
        omega
      rw [hc, R_bind_ok, if_neg (show ¬ _ < Solfa.C.scoreOffset from by
        show ¬ _ < (0 : Int)
        omega)]
  refine ⟨?_, ?_, ?_, ?_⟩
  · by_cases h : 6 < (i : Int) + n
    · obtain ⟨p, hp⟩ := hadd.1 h
      rw [hp]
      exact ⟨fun h' => (by cases h'), fun h' => (by omega)⟩
    · rw [hadd.2 (by omega), letter_of]
      have e : (min 6 (max 0 ((i : Int) + n))).toNat = ((i : Int) + n).toNat := by omega
      rw [e]
      exact ⟨fun h' => ⟨by omega, h'⟩, fun h' => h'.2⟩
  · refine ⟨?_, hadd.1⟩
    rintro ⟨p, hp⟩
    by_cases h : 6 < (i : Int) + n
    · exact h
    · obtain ⟨u, hu⟩ := total (i + n)
      rw [hadd.2 (by omega), hu] at hp
      cases hp
  · by_cases h : (i : Int) - n < 0 ∨ 2147483647 < (i : Int) - n
    · obtain ⟨p, hp⟩ := hsub.1 h
      rw [hp]
      exact ⟨fun h' => (by cases h'), fun h' => (by omega)⟩
    · rw [hsub.2 (by omega), letter_of]
      have e : (min 6 (max 0 ((i : Int) - n))).toNat = (min 6 ((i : Int) - n)).toNat := by omega
      rw [e]
      exact ⟨fun h' => ⟨by omega, by omega, h'⟩, fun h' => h'.2.2⟩
  · refine ⟨?_, hsub.1⟩
    rintro ⟨p, hp⟩
    by_cases h : (i : Int) - n < 0 ∨ 2147483647 < (i : Int) - n
    · exact h
    · obtain ⟨u, hu⟩ := total (i - n)
      rw [hsub.2 (by omega), hu] at hp
      cases hp

example : Solfa.addAssign .D 4 = .ok .A ∧ Solfa.addAssign .D (-1000) = .ok .C ∧
    (∃ p, Solfa.subAssign .E 3 = .error p) ∧ ∃ p, Solfa.subAssign .E I32_MIN = .error p :=
  ⟨(C77_letter_partial .D .A 1 4 rfl (by decide)).1.2 (by decide),
    (C77_letter_partial .D .C 1 (-1000) rfl (by decide)).1.2 (by decide),
    (C77_letter_partial .E .A 2 3 rfl (by decide)).2.2.2.2 (by decide),
    (C77_letter_partial .E .A 2 I32_MIN rfl (by decide)).2.2.2.2 (by decide)⟩

end Klavier
