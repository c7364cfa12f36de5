import Verif.Lemmas.Tuple
import Verif.Spec.TupleAgain

/-! # Tuplets of changed notes -/
set_option autoImplicit false
namespace Klavier
open Spec Tuple

theorem place_cons (start T total d : Nat) (n : Note) (l : List Note) (u : Nat) (out : List Note) :
    place start T total d (n :: l) u = .ok out ↔
      T * u ≤ U32_MAX ∧ total ≠ 0 ∧ start + T * u / total ≤ U32_MAX ∧ n.duration.dots < 32 ∧ u + units n.duration ≤ U32_MAX ∧
      ∃ rest, place start T total d l (u + units n.duration) = .ok rest ∧
        out = { n with baseStartTick := start + T * u / total, duration := { n.duration with denominator := d } } :: rest := by
  constructor
  · intro h
    simp only [place, mulU32, addU32, R_bind_eq_ok] at h
    obtain ⟨x, hx, h⟩ := h
    split at hx
    · next h1 =>
      cases hx
      split at h
      · cases h
      · next h2 =>
        simp only [R_bind_eq_ok] at h
        obtain ⟨y, hy, w, hw, u', hu', rest, hr, h⟩ := h
        split at hy
        · next h3 =>
          cases hy
          obtain ⟨h4, rfl⟩ := numeratorUnit_ok hw
          split at hu'
          · next h5 =>
            cases hu'
            cases h
            exact ⟨h1, h2, h3, h4, h5, rest, hr, rfl⟩
          · cases hu'
        · cases hy
    · cases hx
  · rintro ⟨h1, h2, h3, h4, h5, rest, hr, rfl⟩
    have hn : numeratorUnit (n.duration.withDenominator d) = .ok (units n.duration) :=
      numeratorUnit_eq (n.duration.withDenominator d) h4
    simp only [place, mulU32, addU32, hn, if_pos h1, if_neg h2, if_pos h3, if_pos h5, R_bind_ok, hr]
    rfl

theorem place_err {start T total d : Nat} {l : List Note} {u : Nat} {p : Panic} (ht : total ≠ 0)
    (h : place start T total d l u = .error p) : p = .overflow := by
  induction l generalizing u with
  | nil => cases h
  | cons n l ih =>
    simp only [place, mulU32, addU32] at h
    by_cases h1 : T * u ≤ U32_MAX
    · rw [if_pos h1, R_bind_ok, if_neg ht] at h
      by_cases h2 : start + T * u / total ≤ U32_MAX
      · rw [if_pos h2, R_bind_ok] at h
        by_cases h3 : n.duration.dots < 32
        · rw [numeratorUnit_eq (n.duration.withDenominator d) h3, R_bind_ok] at h
          by_cases h4 : u + units (n.duration.withDenominator d) ≤ U32_MAX
          · rw [if_pos h4, R_bind_ok] at h
            cases h5 : place start T total d l (u + units (n.duration.withDenominator d)) with
            | error q => rw [h5] at h; cases h; exact ih h5
            | ok rest => rw [h5] at h; cases h
          · rw [if_neg h4] at h; cases h; rfl
        · rw [show numeratorUnit (n.duration.withDenominator d) = .error .overflow from if_pos (Nat.le_of_not_lt h3)] at h
          cases h; rfl
      · rw [if_neg h2] at h; cases h; rfl
    · rw [if_neg h1] at h; cases h; rfl

section moved
variable {k : Nat} {f : Note → Note} (hf : Rigidly k f)
include hf

theorem Spec.Rigidly.start (n : Note) : (f n).baseStartTick = n.baseStartTick + k := by
  have := congrArg Note.baseStartTick (hf n n.baseStartTick n.duration)
  exact this

theorem Spec.Rigidly.length (n : Note) : (f n).duration = n.duration := by
  have := congrArg Note.duration (hf n n.baseStartTick n.duration)
  exact this

theorem insert_carried (n : Note) (l : List Note) : insert (f n) (l.map f) = (insert n l).map f := by
  induction l with
  | nil => rfl
  | cons m ms ih =>
    simp only [List.map_cons, Tuple.insert, hf.start, ih]
    by_cases h : n.baseStartTick ≤ m.baseStartTick
    · rw [if_pos h, if_pos (by omega)]; rfl
    · rw [if_neg h, if_neg (by omega)]; rfl

theorem sort_carried (l : List Note) : sort (l.map f) = (sort l).map f := by
  induction l with
  | nil => rfl
  | cons n l ih =>
    show insert (f n) (sort (l.map f)) = (insert n (sort l)).map f
    rw [ih, insert_carried hf]

private def carryElem (k : Nat) (f : Note → Note) (e : Elem) : Elem := ⟨e.startTick + k, e.notes.map f, e.minDuration⟩

theorem group_carried (l : List Note) (cur : Option Elem) :
    group (l.map f) (cur.map (carryElem k f)) = (group l cur).map (List.map (carryElem k f)) := by
  induction l generalizing cur with
  | nil => cases cur <;> rfl
  | cons n l ih =>
    simp only [List.map_cons, group, hf.length]
    cases numeratorUnit n.duration with
    | error p => rfl
    | ok u =>
      simp only [R_bind_ok]
      have key : add (cur.map (carryElem k f)) (f n) =
          (add cur n).map (fun p => (p.1.map (carryElem k f), carryElem k f p.2)) := by
        cases cur with
        | none => simp only [add, Option.map_none, hf.start, hf.length]; rfl
        | some e =>
          simp only [add, Option.map_some, hf.start, hf.length, carryElem]
          by_cases h : e.startTick = n.baseStartTick
          · rw [if_neg (by omega), if_neg (by omega)]
            cases e.minDuration.min (n.duration.withDenominator 2) with
            | error p => rfl
            | ok m => simp [R_bind_ok, Except.map, pure, Except.pure]
          · rw [if_pos (by omega), if_pos (by omega)]
            rfl
      rw [key]
      cases add cur n with
      | error p => rfl
      | ok r =>
        obtain ⟨done, cur'⟩ := r
        have ih' := ih (some cur')
        simp only [Option.map_some] at ih'
        simp only [Except.map, R_bind_ok]
        rw [ih']
        cases group l (some cur') with
        | error p => rfl
        | ok rest =>
          simp only [Except.map, R_bind_ok]
          cases done <;> rfl

theorem gcdUnits_carried (l : List Note) : gcdUnits (l.map f) = gcdUnits l := by
  induction l with
  | nil => rfl
  | cons n l ih => simp only [List.map_cons, gcdUnits, hf.length, ih]

omit hf in
theorem total_carried (es : List Elem) (acc : Nat × Nat) : totalTickUnit (es.map (carryElem k f)) acc = totalTickUnit es acc := by
  induction es generalizing acc with
  | nil => rfl
  | cons e es ih => simp only [List.map_cons, totalTickUnit, carryElem, ih]

omit hf in
theorem notes_carried (es : List Elem) : (es.map (carryElem k f)).flatMap (·.notes) = (es.flatMap (·.notes)).map f := by
  induction es with
  | nil => rfl
  | cons e es ih => rw [List.map_cons, List.flatMap_cons, List.flatMap_cons, List.map_append, ih]; rfl

theorem place_carried (start T total d : Nat) (l : List Note) (u : Nat) (out' : List Note) :
    place (start + k) T total d (l.map f) u = .ok out' ↔
      ∃ out, place start T total d l u = .ok out ∧ out' = out.map f ∧ ∀ n ∈ out, n.baseStartTick + k ≤ U32_MAX := by
  induction l generalizing u out' with
  | nil =>
    constructor
    · intro h; cases h; exact ⟨[], rfl, rfl, by simp⟩
    · rintro ⟨out, h, rfl, _⟩; cases h; rfl
  | cons n l ih =>
    simp only [List.map_cons, place_cons, hf.length, ih]
    have e : ∀ (n : Note) t den, ({ f n with baseStartTick := t + k, duration := { n.duration with denominator := den } } : Note) =
        f { n with baseStartTick := t, duration := { n.duration with denominator := den } } := fun n t den =>
      (hf n t _).symm
    constructor
    · rintro ⟨h1, h2, h3, h4, h5, rest', ⟨rest, r1, rfl, r3⟩, rfl⟩
      refine ⟨_, ⟨h1, h2, by omega, h4, h5, rest, r1, rfl⟩, ?_, ?_⟩
      · rw [List.map_cons, show start + k + T * u / total = start + T * u / total + k by omega, e n]
      · intro m hm
        rcases List.mem_cons.1 hm with rfl | hm
        · show start + T * u / total + k ≤ U32_MAX
          omega
        · exact r3 m hm
    · rintro ⟨out, ⟨h1, h2, h3, h4, h5, rest, r1, rfl⟩, rfl, r3⟩
      have := r3 _ (List.mem_cons_self ..)
      have : start + T * u / total + k ≤ U32_MAX := this
      refine ⟨h1, h2, by omega, h4, h5, rest.map f, ⟨rest, r1, rfl, fun m hm => r3 m (by simp [hm])⟩, ?_⟩
      rw [List.map_cons, show start + k + T * u / total = start + T * u / total + k by omega, e n]

/-- Making a tuplet of moved notes. -/
theorem tuplize_carried (notes : List Note) (hfit : ∀ n ∈ notes, n.baseStartTick + k ≤ U32_MAX) :
    (∀ p, tuplize notes = .error p → tuplize (notes.map f) = .error p) ∧
    (∀ out, tuplize notes = .ok out → (∀ n ∈ out, n.baseStartTick + k ≤ U32_MAX) → tuplize (notes.map f) = .ok (out.map f)) ∧
    (∀ out, tuplize notes = .ok out → (∃ n ∈ out, U32_MAX < n.baseStartTick + k) → tuplize (notes.map f) = .error .overflow) := by
  have hg := group_carried hf (sort notes) none
  have hsort := sort_carried hf notes
  have hgcd := gcdUnits_carried hf (sort notes)
  cases h0 : sort notes with
  | nil =>
    rw [h0] at hsort
    have a1 : tuplize notes = .ok [] := by simp only [tuplize, h0]
    have a2 : tuplize (notes.map f) = .ok [] := by simp only [tuplize, hsort, List.map_nil]
    rw [a1, a2]
    refine ⟨fun p h => (nomatch h), fun out h _ => ?_, fun out h => ?_⟩
    · cases h; rfl
    · cases h; simp
  | cons first more =>
    rw [h0] at hsort hg hgcd
    rw [List.map_cons] at hsort hg hgcd
    simp only [tuplize, h0, hsort, hf.start]
    rw [Option.map_none] at hg
    rw [hg, hgcd]
    cases group (first :: more) none with
    | error p => exact ⟨fun p h => by cases h; rfl, fun out h => (nomatch h), fun out h => (nomatch h)⟩
    | ok es =>
      simp only [Except.map, R_bind_ok]
      cases gcdUnits (first :: more) with
      | error p => exact ⟨fun p h => by cases h; rfl, fun out h => (nomatch h), fun out h => (nomatch h)⟩
      | ok mu =>
        simp only [R_bind_ok]
        cases mu with
        | none =>
          refine ⟨fun p h => (nomatch h), fun out h _ => ?_, fun out h => ?_⟩
          · cases h; rfl
          · cases h; simp
        | some mu =>
          simp only [total_carried, notes_carried]
          cases totalTickUnit es (0, 0) with
          | error p => exact ⟨fun p h => by cases h; rfl, fun out h => (nomatch h), fun out h => (nomatch h)⟩
          | ok tt =>
            obtain ⟨T, U⟩ := tt
            simp only [R_bind_ok]
            by_cases h1 : mu = 0
            · rw [if_pos h1, if_pos h1]
              exact ⟨fun p h => h, fun out h => (nomatch h), fun out h => (nomatch h)⟩
            rw [if_neg h1, if_neg h1]
            by_cases h2 : U / mu < 2
            · rw [if_pos h2, if_pos h2]
              refine ⟨fun p h => (nomatch h), fun out h _ => ?_, fun out h => ?_⟩
              · cases h; rfl
              · cases h
                rintro ⟨n, hn, h⟩
                have := hfit n hn
                omega
            rw [if_neg h2, if_neg h2]
            cases mulU32 (T / (U / mu)) 2 with
            | error p => exact ⟨fun p h => h, fun out h => (nomatch h), fun out h => (nomatch h)⟩
            | ok T2 =>
              simp only [R_bind_ok]
              cases unwrapO (Denominator.fromValue (asU8 ((U / mu : Nat) : Int))) with
              | error p => exact ⟨fun p h => h, fun out h => (nomatch h), fun out h => (nomatch h)⟩
              | ok d =>
                simp only [R_bind_ok]
                have hU : U ≠ 0 := by
                  rintro rfl
                  rw [Nat.zero_div] at h2
                  omega
                have key := place_carried hf first.baseStartTick T2 U d (es.flatMap (·.notes)) 0
                refine ⟨fun p h => ?_, fun out h hk => (key _).2 ⟨out, h, rfl, hk⟩, fun out h ⟨n, hn, hk⟩ => ?_⟩
                · cases h' : place (first.baseStartTick + k) T2 U d ((es.flatMap (·.notes)).map f) 0 with
                  | error q => rw [place_err hU h, place_err hU h']
                  | ok out' =>
                    obtain ⟨out, e, _⟩ := (key out').1 h'
                    rw [e] at h
                    cases h
                · cases h' : place (first.baseStartTick + k) T2 U d ((es.flatMap (·.notes)).map f) 0 with
                  | error q => rw [place_err hU h']
                  | ok out' =>
                    obtain ⟨out2, e, _, e2⟩ := (key out').1 h'
                    rw [h] at e
                    cases e
                    have := e2 n hn
                    omega

end moved

/-! ## Notes that start at different times -/

theorem strict_of_apart {l : List Note} (h : l.Pairwise (fun a b => a.baseStartTick ≤ b.baseStartTick)) (ha : NoChord l) :
    l.Pairwise (fun a b => a.baseStartTick < b.baseStartTick) :=
  (h.and ha).imp fun ⟨h1, h2⟩ => by omega

theorem apart_perm {l m : List Note} (h : l.Perm m) : NoChord l ↔ NoChord m :=
  List.Perm.pairwise_iff (fun h => Ne.symm h) h

theorem sort_strict {l : List Note} (ha : NoChord l) : (sort l).Pairwise (fun a b => a.baseStartTick < b.baseStartTick) :=
  strict_of_apart (sort_inOrder l).sorted ((apart_perm (sort_perm l)).2 ha)

theorem strict_unique {l m : List Note} (hl : l.Pairwise (fun a b => a.baseStartTick < b.baseStartTick))
    (hm : m.Pairwise (fun a b => a.baseStartTick < b.baseStartTick)) (h : l.Perm m) : l = m :=
  List.Perm.eq_of_pairwise (fun a b _ _ h1 h2 => by omega) hl hm h

private def single (n : Note) : Elem := ⟨n.baseStartTick, [n], n.duration.withDenominator 2⟩

private theorem group_single (l : List Note) (m : Note) (hd : ∀ n ∈ l, n.duration.dots < 32)
    (hs : (m :: l).Pairwise (fun a b => a.baseStartTick < b.baseStartTick)) :
    group l (some (single m)) = .ok ((m :: l).map single) := by
  induction l generalizing m with
  | nil => rfl
  | cons n l ih =>
    have h1 := List.rel_of_pairwise_cons hs (List.mem_cons_self ..)
    have hadd : add (some (single m)) n = .ok (some (single m), single n) := by
      rw [add, if_pos (show (single m).startTick ≠ n.baseStartTick from Nat.ne_of_lt h1)]
      rfl
    simp only [group, numeratorUnit_eq _ (hd n (by simp)), R_bind_ok, hadd,
      ih n (fun x hx => hd x (by simp [hx])) (List.pairwise_cons.1 hs).2]
    rfl

private theorem group_strict (n : Note) (l : List Note) (hd : ∀ m ∈ n :: l, m.duration.dots < 32)
    (hs : (n :: l).Pairwise (fun a b => a.baseStartTick < b.baseStartTick)) :
    group (n :: l) none = .ok ((n :: l).map single) := by
  have := group_single l n (fun m hm => hd m (by simp [hm])) hs
  simp only [group, numeratorUnit_eq _ (hd n (by simp)), R_bind_ok, add]
  rw [show (⟨n.baseStartTick, [n], n.duration.withDenominator 2⟩ : Elem) = single n from rfl, this]
  rfl

private theorem group_dots {l : List Note} {cur : Option Elem} {es : List Elem} (h : group l cur = .ok es) :
    ∀ n ∈ l, n.duration.dots < 32 := by
  induction l generalizing cur es with
  | nil => simp
  | cons n ns ih =>
    simp only [group, R_bind_eq_ok] at h
    obtain ⟨u, hu, ⟨d, c⟩, -, rest, hr, -⟩ := h
    intro m hm
    rcases List.mem_cons.1 hm with rfl | hm
    · exact (numeratorUnit_ok hu).1
    · exact ih hr m hm

/-- The lengths without the denominators. -/
private def lengths (l : List Note) : List Duration := l.map (fun n => n.duration.withDenominator 2)

private theorem gcd_lengths (l m : List Note) (h : lengths l = lengths m) : gcdUnits l = gcdUnits m := by
  induction l generalizing m with
  | nil => cases m with
    | nil => rfl
    | cons _ _ => cases h
  | cons n l ih => cases m with
    | nil => cases h
    | cons m ms =>
      obtain ⟨h1, h2⟩ := List.cons.inj h
      simp only at h1
      have : numeratorUnit n.duration = numeratorUnit m.duration :=
        show numeratorUnit (n.duration.withDenominator 2) = numeratorUnit (m.duration.withDenominator 2) by rw [h1]
      simp only [gcdUnits, this, ih ms h2]

private theorem total_lengths (l m : List Note) (h : lengths l = lengths m) (acc : Nat × Nat) :
    totalTickUnit (l.map single) acc = totalTickUnit (m.map single) acc := by
  induction l generalizing m acc with
  | nil => cases m with
    | nil => rfl
    | cons _ _ => cases h
  | cons n l ih => cases m with
    | nil => cases h
    | cons m ms =>
      obtain ⟨h1, h2⟩ := List.cons.inj h
      have e : (single n).minDuration = (single m).minDuration := h1
      simp only [List.map_cons, totalTickUnit, e, ih ms h2]

private theorem notes_single (l : List Note) : (l.map single).flatMap (·.notes) = l := by
  induction l with
  | nil => rfl
  | cons n l ih => rw [List.map_cons, List.flatMap_cons, ih]; rfl

private theorem place_again {start T total d : Nat} {l out : List Note} {u : Nat} (h : place start T total d l u = .ok out) :
    lengths out = lengths l ∧ place start T total d out u = .ok out := by
  induction l generalizing u out with
  | nil => cases h; exact ⟨rfl, rfl⟩
  | cons n l ih =>
    obtain ⟨h1, h2, h3, h4, h5, rest, hr, rfl⟩ := (place_cons ..).1 h
    obtain ⟨a, b⟩ := ih hr
    refine ⟨?_, (place_cons ..).2 ⟨h1, h2, h3, h4, h5, rest, b, rfl⟩⟩
    show _ :: lengths rest = _ :: lengths l
    rw [a]
    rfl

/-- What is done when no two notes start together. -/
private theorem tuplize_strict {notes : List Note} {first : Note} {more : List Note} (h0 : sort notes = first :: more)
    (hs : (first :: more).Pairwise (fun a b => a.baseStartTick < b.baseStartTick))
    (hd : ∀ n ∈ first :: more, n.duration.dots < 32) :
    tuplize notes = (do
      let minUnit ← gcdUnits (first :: more)
      match minUnit with
      | none => pure []
      | some minUnit => do
        let (totalTick, totalUnit) ← totalTickUnit ((first :: more).map single) (0, 0)
        if minUnit = 0 then .error .divZero else do
        let denominator := totalUnit / minUnit
        if denominator < 2 then pure notes else do
        let totalTick ← Tuple.mulU32 (totalTick / denominator) 2
        let d ← unwrapO (Denominator.fromValue (asU8 denominator))
        place first.baseStartTick totalTick totalUnit d (first :: more) 0) := by
  simp only [tuplize, h0, group_strict _ _ hd hs, R_bind_ok, notes_single]
  rfl

/-- Making a tuplet of a tuplet. -/
theorem tuplize_again (notes out : List Note) (ha : NoChord notes) (h : tuplize notes = .ok out) (ho : NoChord out) :
    tuplize out = .ok out := by
  cases h0 : sort notes with
  | nil =>
    simp only [tuplize, h0] at h
    cases h
    rfl
  | cons first more =>
    have hs := sort_strict ha
    rw [h0] at hs
    have hd : ∀ n ∈ first :: more, n.duration.dots < 32 := by
      cases hg : group (first :: more) none with
      | error p => simp only [tuplize, h0, hg, R_bind_error] at h; cases h
      | ok es => exact group_dots hg
    have h' := h
    rw [tuplize_strict h0 hs hd] at h'
    simp only [R_bind_eq_ok] at h'
    obtain ⟨mu, hmu, h'⟩ := h'
    cases mu with
    | none => cases h'; rfl
    | some mu =>
      simp only [R_bind_eq_ok] at h'
      obtain ⟨⟨T, U⟩, htt, h'⟩ := h'
      simp only at h'
      by_cases h1 : mu = 0
      · rw [if_pos h1] at h'; cases h'
      rw [if_neg h1] at h'
      by_cases h2 : U / mu < 2
      · rw [if_pos h2] at h'
        cases h'
        exact h
      rw [if_neg h2] at h'
      simp only [R_bind_eq_ok] at h'
      obtain ⟨T2, hT2, d, hden, h'⟩ := h'
      obtain ⟨p1, p2⟩ := place_again h'
      have hso := placed_sorted first.baseStartTick T2 U d (first :: more) 0
      rw [← place_ok h'] at hso
      have hstrict := strict_of_apart hso ho
      obtain ⟨-, -, -, -, -, rest, -, hout⟩ := (place_cons ..).1 h'
      have hsort : sort out = out := strict_unique (sort_strict ho) hstrict (sort_perm out)
      have hdo : ∀ n ∈ out, n.duration.dots < 32 := by
        intro n hn
        have : n.duration.withDenominator 2 ∈ lengths out := List.mem_map.2 ⟨n, hn, rfl⟩
        rw [p1] at this
        obtain ⟨m, hm, e⟩ := List.mem_map.1 this
        have e' : m.duration.dots = n.duration.dots :=
          show (m.duration.withDenominator 2).dots = (n.duration.withDenominator 2).dots by rw [e]
        rw [← e']
        exact hd m hm
      have hh : ∀ x xs, out = x :: xs → x.baseStartTick = first.baseStartTick := by
        intro x xs e
        rw [hout] at e
        obtain ⟨e, -⟩ := List.cons.inj e
        rw [← e]
        show first.baseStartTick + T2 * 0 / U = _
        rw [Nat.mul_zero, Nat.zero_div, Nat.add_zero]
      cases out with
      | nil => cases hout
      | cons x xs =>
        rw [tuplize_strict hsort hstrict hdo, gcd_lengths _ _ p1, hmu, R_bind_ok]
        simp only
        rw [total_lengths _ _ p1, htt, R_bind_ok]
        simp only
        rw [if_neg h1, if_neg h2, hT2, R_bind_ok, hden, R_bind_ok, hh x xs rfl]
        exact p2

end Klavier
