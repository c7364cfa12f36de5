import Verif.Lemmas.TupleAgain
import Verif.Props.Tuple

/-! # C89: tuplets made again, elsewhere, or of a selection in another order -/
set_option autoImplicit false
namespace Klavier
open Spec Tuple

/-- C89: of notes none of which start together, a tuplet is made but once: if they still start at
different times, making a tuplet of them again changes nothing. -/
theorem C89_again (notes out : List Note) (ha : NoChord notes) (h : tuplize notes = .ok out) (ho : NoChord out) :
    tuplize out = .ok out :=
  tuplize_again notes out ha h ho

/-- C89: a tuplet is the same wherever it is made, and whatever else the notes are: moving the
notes, and changing anything but their lengths, before or after making the tuplet comes to the
same.  It panics alike; in addition it panics if a note of the moved tuplet would come too late. -/
theorem C89_moved (k : Nat) (f : Note → Note) (hf : Rigidly k f) (notes : List Note)
    (hfit : ∀ n ∈ notes, n.baseStartTick + k ≤ U32_MAX) :
    (∀ p, tuplize notes = .error p → tuplize (notes.map f) = .error p) ∧
    (∀ out, tuplize notes = .ok out → (∀ n ∈ out, n.baseStartTick + k ≤ U32_MAX) → tuplize (notes.map f) = .ok (out.map f)) ∧
    (∀ out, tuplize notes = .ok out → (∃ n ∈ out, U32_MAX < n.baseStartTick + k) → tuplize (notes.map f) = .error .overflow) :=
  tuplize_carried hf notes hfit

private theorem tuplize_of_sort {notes notes' : List Note} (h : sort notes = sort notes') :
    tuplize notes = tuplize notes' ∨ (tuplize notes = .ok notes ∧ tuplize notes' = .ok notes') := by
  simp only [tuplize, ← h]
  cases sort notes with
  | nil => exact .inl rfl
  | cons first more =>
    simp only
    cases group (first :: more) none with
    | error p => exact .inl rfl
    | ok es =>
      simp only [R_bind_ok]
      cases gcdUnits (first :: more) with
      | error p => exact .inl rfl
      | ok mu =>
        simp only [R_bind_ok]
        cases mu with
        | none => exact .inl rfl
        | some mu =>
          simp only
          cases totalTickUnit es (0, 0) with
          | error p => exact .inl rfl
          | ok tt =>
            obtain ⟨T, U⟩ := tt
            simp only [R_bind_ok]
            by_cases h1 : mu = 0
            · rw [if_pos h1, if_pos h1]; exact .inl rfl
            rw [if_neg h1, if_neg h1]
            by_cases h2 : U / mu < 2
            · rw [if_pos h2, if_pos h2]; exact .inr ⟨rfl, rfl⟩
            rw [if_neg h2, if_neg h2]
            exact .inl rfl

private theorem kept_sorted {n m : Note} {l : List Note} (ha : NoChord (n :: m :: l))
    (h : tuplize (n :: m :: l) = .ok (n :: m :: l)) : sort (n :: m :: l) = n :: m :: l := by
  rcases C37_keeps_partial _ _ (by simp) h with ⟨_, hall⟩ | ⟨_, _, _, _, _, _, _, hso, _⟩
  · exact absurd (hall n (by simp) m (by simp)) (List.rel_of_pairwise_cons ha (List.mem_cons_self ..))
  · exact strict_unique (sort_strict ha) (strict_of_apart hso ha) (sort_perm _)

/-- C89: the order of the selection does not matter if no two notes start together. -/
theorem C89_order (notes notes' : List Note) (hp : notes.Perm notes') (ha : NoChord notes) : tuplize notes = tuplize notes' := by
  have ha' := (apart_perm hp).1 ha
  have hs : sort notes = sort notes' :=
    strict_unique (sort_strict ha) (sort_strict ha') ((sort_perm notes).trans (hp.trans (sort_perm notes').symm))
  rcases tuplize_of_sort hs with h | ⟨h1, h2⟩
  · exact h
  have hl := hp.length_eq
  match notes, notes' with
  | [], [] => rfl
  | [n], [n'] => rw [List.singleton_perm.1 hp]
  | n :: m :: l, n' :: m' :: l' =>
    rw [kept_sorted ha h1, kept_sorted ha' h2] at hs
    rw [hs]
  | [], _ :: _ => cases hl
  | _ :: _, [] => cases hl
  | [_], _ :: _ :: _ => simp at hl
  | _ :: _ :: _, [_] => simp at hl

private def note89 (tick value : Nat) (v : NoteValue) : Note :=
  { exampleNote with baseStartTick := tick, pitch := ⟨.C, .Oct3, .Null, value, 35⟩, duration := ⟨v, 2, 0⟩ }

/-- The proviso is needed for chords: made again, the tuplet of four quarters, two of which start
together, changes; and the order of the two in the selection decides which of them comes first. -/
theorem C89_chord_proviso : let notes := [note89 0 60 .Quarter, note89 0 62 .Quarter, note89 240 60 .Quarter, note89 480 60 .Quarter]
    let notes' := [note89 0 62 .Quarter, note89 0 60 .Quarter, note89 240 60 .Quarter, note89 480 60 .Quarter]
    let shown := fun (r : R (List Note)) => r.map (List.map fun n => (n.baseStartTick, n.pitch.value, n.duration.denominator))
    notes.Perm notes' ∧
    shown (tuplize notes) = .ok [(0, 60, 3), (160, 62, 3), (320, 60, 3), (480, 60, 3)] ∧
    shown (tuplize notes') = .ok [(0, 62, 3), (160, 60, 3), (320, 60, 3), (480, 60, 3)] ∧
    shown ((tuplize notes).bind tuplize) = .ok [(0, 60, 4), (120, 62, 4), (240, 60, 4), (360, 60, 4)] := by
  refine ⟨List.Perm.swap .., ?_⟩
  decide +kernel

/-- So is that for notes so short that they come to start together in the tuplet. -/
theorem C89_short_proviso : let notes := (List.range 15).map (fun i => note89 (7 * i) 60 .N128th)
    let dens := fun (r : R (List Note)) => r.map (List.map fun n => n.duration.denominator)
    NoChord notes ∧ dens (tuplize notes) = .ok (List.replicate 15 15) ∧
    dens ((tuplize notes).bind tuplize) = .ok (List.replicate 15 14) := by
  unfold NoChord
  decide +kernel

/-- A triplet: made again; and of the same notes selected in another order. -/
example : ∃ notes out, NoChord notes ∧ notes.length = 3 ∧ tuplize notes = .ok out ∧ out ≠ notes ∧ tuplize out = .ok out ∧
    tuplize notes.reverse = .ok out := by
  refine ⟨[note89 0 60 .Quarter, note89 240 62 .Quarter, note89 480 64 .Quarter], _, by unfold NoChord; decide, rfl, rfl, by decide,
    C89_again [note89 0 60 .Quarter, note89 240 62 .Quarter, note89 480 64 .Quarter] _ (by unfold NoChord; decide) rfl
      (by unfold NoChord; decide), ?_⟩
  rw [← C89_order _ _ (List.reverse_perm _).symm (by unfold NoChord; decide)]
  rfl

/-- The same 28800 ticks later, with ties. -/
example : let later := fun n : Note => { n with baseStartTick := n.baseStartTick + 28800, tie := true }
    Rigidly 28800 later ∧ ∃ notes out, tuplize notes = .ok out ∧ notes.length = 3 ∧ tuplize (notes.map later) = .ok (out.map later) ∧
      out.map later ≠ notes.map later := by
  intro later
  have hc : Rigidly 28800 later := fun n t d => rfl
  exact ⟨hc, [note89 0 60 .Quarter, note89 240 62 .Quarter, note89 480 64 .Quarter], _, rfl, rfl,
    (C89_moved 28800 later hc [note89 0 60 .Quarter, note89 240 62 .Quarter, note89 480 64 .Quarter] (by decide)).2.1 _ rfl (by decide), by decide⟩

end Klavier
