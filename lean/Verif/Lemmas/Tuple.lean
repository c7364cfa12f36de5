import Verif.Spec.Tuple
import Verif.Lemmas.Basic

/-! # Helper lemmas about tuple.rs -/
set_option autoImplicit false
namespace Klavier
namespace Tuple
open Spec

/-! ## The sort -/

theorem insert_perm (n : Note) (l : List Note) : (insert n l).Perm (n :: l) := by
  induction l with
  | nil => exact List.Perm.refl _
  | cons m ms ih =>
    simp only [insert]
    split
    · exact List.Perm.refl _
    · exact (List.Perm.cons m ih).trans (List.Perm.swap _ _ _)

theorem insert_sorted {n : Note} {l : List Note} (h : l.Pairwise (fun a b => a.baseStartTick ≤ b.baseStartTick)) :
    (insert n l).Pairwise (fun a b => a.baseStartTick ≤ b.baseStartTick) := by
  induction l with
  | nil => simp [insert]
  | cons m ms ih =>
    have h0 := h
    rw [List.pairwise_cons] at h
    simp only [insert]
    split
    · next hle =>
      refine List.Pairwise.cons ?_ h0
      intro x hx
      rcases List.mem_cons.1 hx with rfl | hx
      · exact hle
      · exact Nat.le_trans hle (h.1 x hx)
    · next hle =>
      refine List.Pairwise.cons ?_ (ih h.2)
      intro x hx
      rcases List.mem_cons.1 ((insert_perm n ms).mem_iff.1 hx) with rfl | hx
      · omega
      · exact h.1 x hx

theorem insert_chord (n : Note) (l : List Note) (h : l.Pairwise (fun a b => a.baseStartTick ≤ b.baseStartTick)) (t : Nat) :
    chordAt (insert n l) t = chordAt (n :: l) t := by
  induction l with
  | nil => rfl
  | cons m ms ih =>
    rw [List.pairwise_cons] at h
    simp only [insert]
    split
    · rfl
    · next hle =>
      have := ih h.2
      simp only [chordAt, List.filter_cons] at this ⊢
      rw [this]
      by_cases h1 : n.baseStartTick = t <;> by_cases h2 : m.baseStartTick = t
      · omega
      · simp [h1, h2]
      · simp [h1, h2]
      · simp [h1, h2]

theorem sort_perm (l : List Note) : (sort l).Perm l := by
  induction l with
  | nil => exact List.Perm.refl _
  | cons n l ih => exact (insert_perm n _).trans (List.Perm.cons n ih)

theorem sort_inOrder (l : List Note) : InOrder l (sort l) := by
  induction l with
  | nil => exact ⟨List.Pairwise.nil, fun _ => rfl⟩
  | cons n l ih =>
    refine ⟨insert_sorted ih.sorted, fun t => ?_⟩
    have := ih.chords t
    change chordAt (insert n (sort l)) t = _
    rw [insert_chord n _ ih.sorted t]
    simp only [chordAt, List.filter_cons] at this ⊢
    rw [this]

/-! ## Units and ticks -/

theorem numeratorUnit_eq (d : Duration) (h : d.dots < 32) : numeratorUnit d = .ok (units d) := by
  simp only [numeratorUnit, if_neg (show ¬ 32 ≤ d.dots by omega), Except.ok.injEq, units]
  have hw : 1 <<< (8 - d.numerator.ord) = 256 / 2 ^ ([.Whole, .Half, .Quarter, .N8th, .N16th, .N32nd, .N64th, .N128th] : List NoteValue).idxOf d.numerator := by
    cases d.numerator <;> decide
  rw [hw, Nat.shiftRight_eq_div_pow]
  generalize 256 / 2 ^ _ = w
  have : w / 2 ^ d.dots ≤ w := Nat.div_le_self _ _
  omega

theorem numeratorUnit_ok {d : Duration} {u : Nat} (h : numeratorUnit d = .ok u) : d.dots < 32 ∧ u = units d := by
  have h0 : d.dots < 32 := by
    simp only [numeratorUnit] at h
    split at h
    · cases h
    · omega
  rw [numeratorUnit_eq d h0] at h
  cases h
  exact ⟨h0, rfl⟩

theorem tickLength_plain (d : Duration) (h : d.dots < 32) (h2 : d.denominator = 2) :
    d.tickLength = .ok (plainTicks d) := by
  have hw : Duration.baseLen d.numerator = writtenTicks d.numerator := by
    cases d.numerator <;> decide
  simp only [Duration.tickLength, h2, and_true, hw, plainTicks]
  generalize writtenTicks d.numerator = w
  split
  · next h0 => rw [h0]; simp only [Nat.pow_zero, Nat.div_one, Except.ok.injEq]; omega
  · rw [if_neg (by omega), if_neg (by omega), Nat.shiftRight_eq_div_pow, Except.ok.injEq]
    have : w / 2 ^ d.dots ≤ w := Nat.div_le_self _ _
    omega

theorem units_pos (d : Duration) : 0 < units d := by
  simp only [units]
  have hw : 0 < 256 / 2 ^ ([.Whole, .Half, .Quarter, .N8th, .N16th, .N32nd, .N64th, .N128th] : List NoteValue).idxOf d.numerator := by
    cases d.numerator <;> decide
  generalize 256 / 2 ^ _ = w at *
  have : w / 2 ^ d.dots ≤ w := Nat.div_le_self _ _
  omega

theorem units_le (d : Duration) : units d ≤ 512 := by
  simp only [units]
  have hw : 256 / 2 ^ ([.Whole, .Half, .Quarter, .N8th, .N16th, .N32nd, .N64th, .N128th] : List NoteValue).idxOf d.numerator ≤ 256 :=
    Nat.div_le_self _ _
  exact Nat.le_trans (Nat.sub_le _ _) (by omega)

/-- All durations with up to 31 dots, as far as lengths go. -/
private theorem mono_fin : ∀ (a b : NoteValue) (i j : Fin 11),
    let u := fun (a : NoteValue) (i : Nat) => units ⟨a, 2, i⟩
    let t := fun (a : NoteValue) (i : Nat) => plainTicks ⟨a, 2, i⟩
    (t a i ≤ t b j → u a i ≤ u b j) ∧ t a i ≤ 4 * u a i := by
  intro a b
  cases a <;> cases b <;> decide +kernel

private theorem many_dots (a : NoteValue) (den i : Nat) (h : 10 ≤ i) :
    units ⟨a, den, i⟩ = units ⟨a, 2, 10⟩ ∧ plainTicks ⟨a, den, i⟩ = plainTicks ⟨a, 2, 10⟩ := by
  have hp : 2 ^ 10 ≤ 2 ^ i := Nat.pow_le_pow_right (by omega) h
  have hz : ∀ w, w < 1024 → w / 2 ^ i = 0 := fun w hw => Nat.div_eq_of_lt (by omega)
  have e1 := units_le ⟨a, den, i⟩
  constructor
  · simp only [units]
    have hw : 256 / 2 ^ ([.Whole, .Half, .Quarter, .N8th, .N16th, .N32nd, .N64th, .N128th] : List NoteValue).idxOf a ≤ 256 :=
      Nat.div_le_self _ _
    rw [hz _ (by omega), Nat.div_eq_of_lt (show _ < 2 ^ 10 by omega)]
  · simp only [plainTicks]
    have hw : writtenTicks a ≤ 960 := Nat.div_le_self _ _
    rw [hz _ (by omega), Nat.div_eq_of_lt (show _ < 2 ^ 10 by omega)]

private theorem few_dots (d : Duration) : ∃ i : Fin 11, units d = units ⟨d.numerator, 2, i⟩ ∧ plainTicks d = plainTicks ⟨d.numerator, 2, i⟩ := by
  by_cases h : d.dots < 11
  · exact ⟨⟨d.dots, h⟩, rfl, rfl⟩
  · exact ⟨10, many_dots d.numerator d.denominator d.dots (by omega)⟩

/-- A shorter note in ticks is not longer in units. -/
theorem units_mono (d e : Duration) (h : plainTicks d ≤ plainTicks e) : units d ≤ units e := by
  obtain ⟨i, h1, h2⟩ := few_dots d
  obtain ⟨j, h3, h4⟩ := few_dots e
  rw [h1, h3]
  rw [h2, h4] at h
  exact (mono_fin d.numerator e.numerator i j).1 h

theorem plainTicks_le (d : Duration) : plainTicks d ≤ 4 * units d := by
  obtain ⟨i, h1, h2⟩ := few_dots d
  rw [h1, h2]
  exact (mono_fin d.numerator d.numerator i i).2

/-! ## The grouping -/

/-- What the grouping says about one chord. -/
structure ElemOk (e : Elem) : Prop where
  ne : e.notes ≠ []
  start : ∀ n ∈ e.notes, n.baseStartTick = e.startTick
  den : e.minDuration.denominator = 2
  from_note : ∃ n ∈ e.notes, e.minDuration = { n.duration with denominator := 2 }
  shortest : ∀ n ∈ e.notes, plainTicks e.minDuration ≤ plainTicks n.duration

theorem plainTicks_den (d : Duration) (k : Nat) : plainTicks { d with denominator := k } = plainTicks d := rfl
theorem units_den (d : Duration) (k : Nat) : units { d with denominator := k } = units d := rfl

theorem group_spec (l : List Note) (hd : ∀ n ∈ l, n.duration.dots < 32)
    (hs : l.Pairwise (fun a b => a.baseStartTick ≤ b.baseStartTick)) (cur : Option Elem)
    (hc : ∀ e ∈ cur, ElemOk e ∧ (∀ n ∈ e.notes, n.duration.dots < 32) ∧ ∀ n ∈ l, e.startTick ≤ n.baseStartTick) :
    ∃ es, group l cur = .ok es ∧ (∀ e ∈ es, ElemOk e) ∧
      es.flatMap (·.notes) = (cur.map (·.notes)).getD [] ++ l ∧
      es.Pairwise (fun a b => a.startTick < b.startTick) ∧
      ∀ c ∈ cur, ∀ e ∈ es, c.startTick ≤ e.startTick := by
  induction l generalizing cur with
  | nil =>
    cases cur with
    | none => exact ⟨[], rfl, by simp, rfl, List.Pairwise.nil, by simp⟩
    | some e =>
      refine ⟨[e], rfl, ?_, by simp, by simp, by simp⟩
      simpa using (hc e rfl).1
  | cons n ns ih =>
    rw [List.pairwise_cons] at hs
    have hdn := hd n (by simp)
    simp only [group, numeratorUnit_eq _ hdn, R_bind_ok]
    have hfresh : ElemOk ⟨n.baseStartTick, [n], n.duration.withDenominator 2⟩ :=
      ⟨by simp, by simp, rfl, ⟨n, by simp, rfl⟩,
        fun m hm => by rw [List.mem_singleton.1 hm]; exact Nat.le_refl _⟩
    cases cur with
    | none =>
      obtain ⟨es, h1, h2, h3, h4, h5⟩ := ih (fun m hm => hd m (by simp [hm])) hs.2
        (some ⟨n.baseStartTick, [n], n.duration.withDenominator 2⟩)
        (by
          intro e he; cases he
          exact ⟨hfresh, by simpa using hdn, hs.1⟩)
      refine ⟨es, ?_, h2, by simpa using h3, h4, by simp⟩
      simp only [add, R_bind_ok, h1, R_pure]
    | some c =>
      obtain ⟨c1, c2, c3⟩ := hc c rfl
      by_cases hne : c.startTick ≠ n.baseStartTick
      · obtain ⟨es, h1, h2, h3, h4, h5⟩ := ih (fun m hm => hd m (by simp [hm])) hs.2
          (some ⟨n.baseStartTick, [n], n.duration.withDenominator 2⟩)
          (by
            intro e he; cases he
            exact ⟨hfresh, by simpa using hdn, hs.1⟩)
        refine ⟨c :: es, ?_, ?_, by simpa using h3, ?_, ?_⟩
        · simp only [add, if_pos hne, R_bind_ok, h1, R_pure]
        · intro e he
          rcases List.mem_cons.1 he with rfl | he
          · exact c1
          · exact h2 e he
        · refine List.Pairwise.cons ?_ h4
          intro e he
          have := h5 _ rfl e he
          have := c3 n (by simp)
          simp only at *
          omega
        · intro c' hc' e he
          cases hc'
          rcases List.mem_cons.1 he with rfl | he
          · omega
          · have := h5 _ rfl e he
            have := c3 n (by simp)
            simp only at *
            omega
      · obtain ⟨w, hw1, hw2⟩ := c1.from_note
        have hdots : c.minDuration.dots < 32 := by rw [hw2]; exact c2 w hw1
        have heq : c.startTick = n.baseStartTick := by omega
        have hmin : c.minDuration.min (n.duration.withDenominator 2) =
            .ok (if plainTicks c.minDuration < plainTicks n.duration then c.minDuration else n.duration.withDenominator 2) := by
          have e2 : (n.duration.withDenominator 2).tickLength = .ok (plainTicks n.duration) :=
            tickLength_plain (n.duration.withDenominator 2) hdn rfl
          simp only [Duration.min, tickLength_plain _ hdots c1.den, e2, R_bind_ok, R_pure]
        obtain ⟨es, h1, h2, h3, h4, h5⟩ := ih (fun m hm => hd m (by simp [hm])) hs.2
          (some ⟨c.startTick, c.notes ++ [n], if plainTicks c.minDuration < plainTicks n.duration then c.minDuration else n.duration.withDenominator 2⟩)
          (by
            intro e he; cases he
            refine ⟨⟨by simp, ?_, ?_, ?_, ?_⟩, ?_, ?_⟩
            · intro m hm
              simp only [List.mem_append, List.mem_singleton] at hm
              rcases hm with hm | rfl
              · exact c1.start m hm
              · exact heq.symm
            · simp only; split
              · exact c1.den
              · rfl
            · simp only; split
              · exact ⟨w, by simp [hw1], hw2⟩
              · exact ⟨n, by simp, rfl⟩
            · intro m hm
              simp only [List.mem_append, List.mem_singleton] at hm
              simp only
              split
              · next hlt =>
                rcases hm with hm | rfl
                · exact c1.shortest m hm
                · omega
              · next hlt =>
                simp only [Duration.withDenominator, plainTicks_den]
                rcases hm with hm | rfl
                · have := c1.shortest m hm
                  omega
                · exact Nat.le_refl _
            · intro m hm
              simp only [List.mem_append, List.mem_singleton] at hm
              rcases hm with hm | rfl
              · exact c2 m hm
              · exact hdn
            · intro m hm
              exact c3 m (by simp [hm]))
        refine ⟨es, ?_, h2, by simpa using h3, h4, ?_⟩
        · simp only [add, if_neg hne, hmin, R_bind_ok, h1, R_pure]
        · intro c' hc' e he
          cases hc'
          exact h5 _ rfl e he

theorem gcdUnits_spec (l : List Note) (hd : ∀ n ∈ l, n.duration.dots < 32) :
    gcdUnits l = .ok (if l = [] then none else some (l.foldr (fun n g => (units n.duration).gcd g) 0)) := by
  induction l with
  | nil => rfl
  | cons n ns ih =>
    simp only [gcdUnits, numeratorUnit_eq _ (hd n (by simp)), ih (fun m hm => hd m (by simp [hm])), R_bind_ok, R_pure]
    cases ns with
    | nil => simp
    | cons m ms => simp

theorem foldr_gcd_common (l : List Note) : CommonUnit l (l.foldr (fun n g => (units n.duration).gcd g) 0) := by
  induction l with
  | nil => exact ⟨by simp, by simp⟩
  | cons n ns ih =>
    simp only [List.foldr_cons]
    refine ⟨?_, ?_⟩
    · intro m hm
      rcases List.mem_cons.1 hm with rfl | hm
      · exact Nat.gcd_dvd_left _ _
      · exact Nat.dvd_trans (Nat.gcd_dvd_right _ _) (ih.dvd m hm)
    · intro k hk
      exact Nat.dvd_gcd (hk n (by simp)) (ih.greatest k (fun m hm => hk m (by simp [hm])))

theorem commonUnit_unique {l : List Note} {g h : Nat} (hg : CommonUnit l g) (hh : CommonUnit l h) : g = h :=
  Nat.dvd_antisymm (hh.greatest g hg.dvd) (hg.greatest h hh.dvd)

theorem commonUnit_perm {l m : List Note} {g : Nat} (hp : l.Perm m) (hg : CommonUnit l g) : CommonUnit m g :=
  ⟨fun n hn => hg.dvd n (hp.mem_iff.2 hn), fun k hk => hg.greatest k (fun n hn => hk n (hp.mem_iff.1 hn))⟩

theorem totalTickUnit_spec (es : List Elem) (hd : ∀ e ∈ es, e.minDuration.dots < 32 ∧ e.minDuration.denominator = 2)
    (a b : Nat) (ha : a + (es.map (fun e => plainTicks e.minDuration)).sum ≤ U32_MAX)
    (hb : b + (es.map (fun e => units e.minDuration)).sum ≤ U32_MAX) :
    totalTickUnit es (a, b) = .ok (a + (es.map (fun e => plainTicks e.minDuration)).sum,
      b + (es.map (fun e => units e.minDuration)).sum) := by
  induction es generalizing a b with
  | nil => rfl
  | cons e es ih =>
    obtain ⟨h1, h2⟩ := hd e (by simp)
    simp only [List.map_cons, List.sum_cons] at ha hb ⊢
    simp only [totalTickUnit, tickLength_plain _ h1 h2, R_bind_ok, addU32,
      if_pos (show a + plainTicks e.minDuration ≤ U32_MAX by omega), numeratorUnit_eq _ h1,
      if_pos (show b + units e.minDuration ≤ U32_MAX by omega)]
    rw [ih (fun x hx => hd x (by simp [hx])) _ _ (by omega) (by omega)]
    simp only [Nat.add_assoc]

/-- From success alone. -/
theorem totalTickUnit_ok {es : List Elem} (hd : ∀ e ∈ es, e.minDuration.dots < 32 ∧ e.minDuration.denominator = 2)
    {a b x y : Nat} (h : totalTickUnit es (a, b) = .ok (x, y)) :
    x = a + (es.map (fun e => plainTicks e.minDuration)).sum ∧ y = b + (es.map (fun e => units e.minDuration)).sum := by
  induction es generalizing a b with
  | nil => simp only [totalTickUnit, Except.ok.injEq, Prod.mk.injEq] at h; simp [h]
  | cons e es ih =>
    obtain ⟨h1, h2⟩ := hd e (by simp)
    simp only [totalTickUnit, tickLength_plain _ h1 h2, R_bind_ok, addU32, numeratorUnit_eq _ h1, R_bind_eq_ok] at h
    obtain ⟨a', ha', b', hb', h⟩ := h
    split at ha'
    · split at hb'
      · cases ha'; cases hb'
        obtain ⟨e1, e2⟩ := ih (fun x hx => hd x (by simp [hx])) h
        simp only [List.map_cons, List.sum_cons]
        omega
      · cases hb'
    · cases ha'

/-! ## Placing -/

/-- The placed notes, with the units consumed before each. -/
def placed (start T total d : Nat) : List Note → Nat → List Note
  | [], _ => []
  | n :: ns, u =>
    { n with baseStartTick := start + T * u / total, duration := { n.duration with denominator := d } } ::
      placed start T total d ns (u + units n.duration)

theorem place_spec (start T total d : Nat) (l : List Note) (u : Nat) (hd : ∀ n ∈ l, n.duration.dots < 32)
    (ht : 0 < total) (hb1 : T * (u + (l.map (fun n => units n.duration)).sum) ≤ U32_MAX)
    (hu : u + (l.map (fun n => units n.duration)).sum ≤ U32_MAX)
    (hb2 : start + T * (u + (l.map (fun n => units n.duration)).sum) / total ≤ U32_MAX) :
    place start T total d l u = .ok (placed start T total d l u) := by
  induction l generalizing u with
  | nil => rfl
  | cons n ns ih =>
    simp only [List.map_cons, List.sum_cons] at hb1 hb2 hu
    rw [← Nat.add_assoc] at hb1 hb2 hu
    have hdn := hd n (by simp)
    have e1 : T * u ≤ T * (u + units n.duration + (ns.map (fun n => units n.duration)).sum) :=
      Nat.mul_le_mul_left _ (by omega)
    have e2 : T * u / total ≤ T * (u + units n.duration + (ns.map (fun n => units n.duration)).sum) / total :=
      Nat.div_le_div_right e1
    have hn : numeratorUnit (n.duration.withDenominator d) = .ok (units n.duration) :=
      numeratorUnit_eq (n.duration.withDenominator d) hdn
    simp only [place, mulU32, if_pos (Nat.le_trans e1 hb1), R_bind_ok, if_neg (show ¬ total = 0 by omega), addU32,
      if_pos (show start + T * u / total ≤ U32_MAX by omega), hn,
      if_pos (show u + units n.duration ≤ U32_MAX by omega)]
    rw [ih (u + units n.duration) (fun m hm => hd m (by simp [hm])) hb1 hu hb2]
    rfl

theorem place_ok {start T total d : Nat} {l out : List Note} {u : Nat} (h : place start T total d l u = .ok out) :
    out = placed start T total d l u := by
  induction l generalizing u out with
  | nil => cases h; rfl
  | cons n ns ih =>
    simp only [place, mulU32, addU32, R_bind_eq_ok] at h
    obtain ⟨x, hx, h⟩ := h
    split at hx
    · cases hx
      split at h
      · cases h
      · simp only [R_bind_eq_ok] at h
        obtain ⟨y, hy, w, hw, u', hu', rest, hr, h⟩ := h
        split at hy
        · cases hy
          obtain ⟨-, rfl⟩ := numeratorUnit_ok hw
          split at hu'
          · cases hu'
            rw [ih hr] at h
            cases h
            rfl
          · cases hu'
        · cases hy
    · cases hx

theorem placed_length (start T total d : Nat) (l : List Note) (u : Nat) : (placed start T total d l u).length = l.length := by
  induction l generalizing u with
  | nil => rfl
  | cons n ns ih => simp [placed, ih]

theorem placed_get (start T total d : Nat) (l : List Note) (u i : Nat) (n : Note) (h : l[i]? = some n) :
    (placed start T total d l u)[i]? = some { n with
      baseStartTick := start + T * (u + ((l.take i).map (fun n => units n.duration)).sum) / total
      duration := { n.duration with denominator := d } } := by
  induction l generalizing u i with
  | nil => simp at h
  | cons m ms ih =>
    cases i with
    | zero => simp at h; subst h; simp [placed]
    | succ i =>
      simp only [List.getElem?_cons_succ] at h
      simp only [placed, List.getElem?_cons_succ, List.take_succ_cons, List.map_cons, List.sum_cons]
      rw [ih _ _ h, Nat.add_assoc]

theorem placed_ge (start T total d : Nat) (l : List Note) (u : Nat) :
    ∀ m ∈ placed start T total d l u, start + T * u / total ≤ m.baseStartTick := by
  induction l generalizing u with
  | nil => simp [placed]
  | cons n ns ih =>
    intro m hm
    simp only [placed, List.mem_cons] at hm
    rcases hm with rfl | hm
    · exact Nat.le_refl _
    · refine Nat.le_trans ?_ (ih _ m hm)
      have : T * u / total ≤ T * (u + units n.duration) / total :=
        Nat.div_le_div_right (Nat.mul_le_mul_left _ (by omega))
      omega

theorem placed_sorted (start T total d : Nat) (l : List Note) (u : Nat) :
    (placed start T total d l u).Pairwise (fun a b => a.baseStartTick ≤ b.baseStartTick) := by
  induction l generalizing u with
  | nil => exact List.Pairwise.nil
  | cons n ns ih =>
    refine List.Pairwise.cons ?_ (ih _)
    intro m hm
    refine Nat.le_trans ?_ (placed_ge _ _ _ _ _ _ m hm)
    have : T * u / total ≤ T * (u + units n.duration) / total :=
      Nat.div_le_div_right (Nat.mul_le_mul_left _ (by omega))
    simp only
    omega

/-! ## Chords of the selection against groups -/

theorem sum_map_perm {α : Type} (f : α → Nat) {l m : List α} (h : l.Perm m) : (l.map f).sum = (m.map f).sum :=
  (h.map f).sum_nat

theorem filter_flatMap_start (es : List Elem) (h : ∀ e ∈ es, ElemOk e)
    (hp : es.Pairwise (fun a b => a.startTick < b.startTick)) (e : Elem) (he : e ∈ es) :
    chordAt (es.flatMap (·.notes)) e.startTick = e.notes := by
  have self : ∀ x : Elem, ElemOk x → ∀ t, chordAt x.notes t = if x.startTick = t then x.notes else [] := by
    intro x hx t
    split
    · next heq => exact List.filter_eq_self.2 (fun n hn => by rw [hx.start n hn]; simpa using heq)
    · next heq => exact List.filter_eq_nil_iff.2 (fun n hn => by rw [hx.start n hn]; simpa using heq)
  induction es with
  | nil => simp at he
  | cons x xs ih =>
    rw [List.pairwise_cons] at hp
    have hxs : ∀ t, (∀ y ∈ xs, y.startTick ≠ t) → chordAt (xs.flatMap (·.notes)) t = [] := by
      intro t ht
      apply List.filter_eq_nil_iff.2
      intro n hn
      obtain ⟨y, hy, hny⟩ := List.mem_flatMap.1 hn
      rw [(h y (by simp [hy])).start n hny]
      simpa using ht y hy
    have happ : ∀ t, chordAt ((x :: xs).flatMap (·.notes)) t = chordAt x.notes t ++ chordAt (xs.flatMap (·.notes)) t := by
      intro t; simp [chordAt]
    rw [happ, self x (h x (by simp))]
    rcases List.mem_cons.1 he with rfl | he'
    · rw [if_pos rfl, hxs e.startTick (fun y hy => by have := hp.1 y hy; omega), List.append_nil]
    · have hlt := hp.1 e he'
      rw [if_neg (by omega), List.nil_append]
      exact ih (fun y hy => h y (by simp [hy])) hp.2 he'

theorem min?_getD_eq {l : List Nat} {a : Nat} (h1 : a ∈ l) (h2 : ∀ b ∈ l, a ≤ b) : l.min?.getD 0 = a := by
  rw [List.min?_eq_some_iff.2 ⟨h1, h2⟩]; rfl

theorem elem_units {e : Elem} (h : ElemOk e) :
    units e.minDuration = (e.notes.map (fun n => units n.duration)).min?.getD 0 ∧
    plainTicks e.minDuration = (e.notes.map (fun n => plainTicks n.duration)).min?.getD 0 := by
  obtain ⟨w, hw, hm⟩ := h.from_note
  constructor
  · symm
    apply min?_getD_eq
    · exact List.mem_map.2 ⟨w, hw, by rw [hm]; rfl⟩
    · intro b hb
      obtain ⟨n, hn, rfl⟩ := List.mem_map.1 hb
      exact units_mono _ _ (h.shortest n hn)
  · symm
    apply min?_getD_eq
    · exact List.mem_map.2 ⟨w, hw, by rw [hm]; rfl⟩
    · intro b hb
      obtain ⟨n, hn, rfl⟩ := List.mem_map.1 hb
      exact h.shortest n hn

theorem sums_eq {notes l : List Note} (hl : InOrder notes l) {es : List Elem} (hes : ∀ e ∈ es, ElemOk e)
    (hf : es.flatMap (·.notes) = l) (hp : es.Pairwise (fun a b => a.startTick < b.startTick)) {ts : List Nat}
    (hts : Starts notes ts) :
    (es.map (fun e => units e.minDuration)).sum = (ts.map (chordUnits notes)).sum ∧
    (es.map (fun e => plainTicks e.minDuration)).sum = (ts.map (chordTicks notes)).sum := by
  have hmem : ∀ n, n ∈ l ↔ n ∈ notes := by
    intro n
    have := hl.chords n.baseStartTick
    have h1 : n ∈ l ↔ n ∈ chordAt l n.baseStartTick := by simp [chordAt]
    have h2 : n ∈ notes ↔ n ∈ chordAt notes n.baseStartTick := by simp [chordAt]
    rw [h1, h2, this]
  have hperm : (es.map (·.startTick)).Perm ts := by
    rw [List.perm_ext_iff_of_nodup ?_ hts.nodup]
    · intro t
      rw [hts.mem, List.mem_map]
      constructor
      · rintro ⟨e, he, rfl⟩
        obtain ⟨n, hn⟩ := List.exists_mem_of_ne_nil _ (hes e he).ne
        refine ⟨n, (hmem n).1 ?_, (hes e he).start n hn⟩
        rw [← hf]
        exact List.mem_flatMap.2 ⟨e, he, hn⟩
      · rintro ⟨n, hn, rfl⟩
        have := (hmem n).2 hn
        rw [← hf] at this
        obtain ⟨e, he, hn⟩ := List.mem_flatMap.1 this
        exact ⟨e, he, ((hes e he).start n hn).symm⟩
    · rw [List.nodup_iff_pairwise_ne, List.pairwise_map]
      exact hp.imp (fun h => by omega)
  have hch : ∀ e ∈ es, chordAt notes e.startTick = e.notes := by
    intro e he
    rw [← hl.chords, ← hf]
    exact filter_flatMap_start es hes hp e he
  constructor
  · rw [← sum_map_perm (chordUnits notes) hperm, List.map_map]
    congr 1
    apply List.map_congr_left
    intro e he
    simp only [Function.comp, chordUnits, hch e he]
    exact (elem_units (hes e he)).1
  · rw [← sum_map_perm (chordTicks notes) hperm, List.map_map]
    congr 1
    apply List.map_congr_left
    intro e he
    simp only [Function.comp, chordTicks, hch e he]
    exact (elem_units (hes e he)).2

/-! ## Overflows -/

theorem tickLength_err {d : Duration} {p : Panic} (h2 : d.denominator = 2) (h : d.tickLength = .error p) : p = .overflow := by
  simp only [Duration.tickLength, h2, and_true] at h
  split at h
  · cases h
  · split at h
    · cases h; rfl
    · cases h

theorem group_err (l : List Note) (cur : Option Elem) (hc : ∀ e ∈ cur, e.minDuration.denominator = 2) (p : Panic)
    (h : group l cur = .error p) : p = .overflow := by
  induction l generalizing cur with
  | nil => cases cur <;> cases h
  | cons n ns ih =>
    simp only [group] at h
    cases hu : numeratorUnit n.duration with
    | error q =>
      rw [hu] at h
      cases h
      simp only [numeratorUnit] at hu
      split at hu <;> cases hu
      rfl
    | ok u =>
      rw [hu, R_bind_ok] at h
      have hadd : (∃ x, add cur n = .ok x ∧ x.2.minDuration.denominator = 2) ∨ add cur n = .error .overflow := by
        simp only [add]
        cases cur with
        | none => exact .inl ⟨_, rfl, rfl⟩
        | some e =>
          simp only
          split
          · exact .inl ⟨_, rfl, rfl⟩
          · have he := hc e rfl
            simp only [Duration.min]
            cases ha : e.minDuration.tickLength with
            | error q => right; rw [tickLength_err he ha]; rfl
            | ok a =>
              cases hb : (n.duration.withDenominator 2).tickLength with
              | error q => right; rw [tickLength_err rfl hb]; rfl
              | ok b =>
                left
                refine ⟨_, rfl, ?_⟩
                show (if a < b then e.minDuration else n.duration.withDenominator 2).denominator = 2
                split
                · exact he
                · rfl
      rcases hadd with ⟨⟨d, c⟩, hx, hden⟩ | hx
      · rw [hx, R_bind_ok] at h
        cases hr : group ns (some c) with
        | error q =>
          rw [hr] at h
          cases h
          exact ih (some c) (fun e he => by cases he; exact hden) hr
        | ok rest => rw [hr] at h; cases h
      · rw [hx] at h
        cases h
        rfl

theorem totalTickUnit_over (es : List Elem) (hd : ∀ e ∈ es, e.minDuration.dots < 32 ∧ e.minDuration.denominator = 2)
    (a b : Nat) (ha : a ≤ U32_MAX) (hb : b ≤ U32_MAX)
    (h : U32_MAX < a + (es.map (fun e => plainTicks e.minDuration)).sum ∨ U32_MAX < b + (es.map (fun e => units e.minDuration)).sum) :
    totalTickUnit es (a, b) = .error .overflow := by
  induction es generalizing a b with
  | nil => simp only [List.map_nil, List.sum_nil] at h; omega
  | cons e es ih =>
    obtain ⟨h1, h2⟩ := hd e (by simp)
    simp only [List.map_cons, List.sum_cons, ← Nat.add_assoc] at h
    simp only [totalTickUnit, tickLength_plain _ h1 h2, R_bind_ok, addU32, numeratorUnit_eq _ h1]
    by_cases hx : a + plainTicks e.minDuration ≤ U32_MAX
    · rw [if_pos hx, R_bind_ok]
      by_cases hy : b + units e.minDuration ≤ U32_MAX
      · rw [if_pos hy, R_bind_ok]
        exact ih (fun x hm => hd x (by simp [hm])) _ _ hx hy h
      · rw [if_neg hy]; rfl
    · rw [if_neg hx]; rfl

/-- Placing succeeds exactly if it does for the last note. -/
theorem place_exact (start T total d : Nat) (l : List Note) (u : Nat) (hl : l ≠ []) (hd : ∀ n ∈ l, n.duration.dots < 32)
    (ht : 0 < total) :
    let before := u + ((l.take (l.length - 1)).map (fun n => units n.duration)).sum
    (T * before ≤ U32_MAX ∧ start + T * before / total ≤ U32_MAX ∧ u + (l.map (fun n => units n.duration)).sum ≤ U32_MAX →
      place start T total d l u = .ok (placed start T total d l u)) ∧
    (¬ (T * before ≤ U32_MAX ∧ start + T * before / total ≤ U32_MAX ∧ u + (l.map (fun n => units n.duration)).sum ≤ U32_MAX) →
      place start T total d l u = .error .overflow) := by
  induction l generalizing u with
  | nil => exact absurd rfl hl
  | cons n ns ih =>
    have hdn := hd n (by simp)
    have hn : numeratorUnit (n.duration.withDenominator d) = .ok (units n.duration) :=
      numeratorUnit_eq (n.duration.withDenominator d) hdn
    cases ns with
    | nil =>
      simp only [List.length_cons, List.length_nil, List.map_cons, List.map_nil, List.sum_cons, List.sum_nil, Nat.add_zero,
        Nat.zero_add, Nat.sub_self, List.take_zero]
      simp only [place, mulU32, addU32, hn, placed]
      refine ⟨fun ⟨h1, h2, h3⟩ => ?_, fun h => ?_⟩
      · rw [if_pos h1, R_bind_ok, if_neg (by omega), if_pos h2, R_bind_ok, R_bind_ok, if_pos h3]; rfl
      · by_cases h1 : T * u ≤ U32_MAX
        · rw [if_pos h1, R_bind_ok, if_neg (by omega)]
          by_cases h2 : start + T * u / total ≤ U32_MAX
          · rw [if_pos h2, R_bind_ok, R_bind_ok, if_neg (fun h3 => h ⟨h1, h2, h3⟩)]; rfl
          · rw [if_neg h2]; rfl
        · rw [if_neg h1]; rfl
    | cons m ms =>
      obtain ⟨ih1, ih2⟩ := ih (u + units n.duration) (by simp) (fun x hx => hd x (by simp [hx]))
      have hb : u + (((n :: m :: ms).take ((n :: m :: ms).length - 1)).map (fun n => units n.duration)).sum =
          u + units n.duration + (((m :: ms).take ((m :: ms).length - 1)).map (fun n => units n.duration)).sum := by
        simp [Nat.add_assoc]
      have hs : u + ((n :: m :: ms).map (fun n => units n.duration)).sum =
          u + units n.duration + ((m :: ms).map (fun n => units n.duration)).sum := by
        rw [List.map_cons, List.sum_cons, Nat.add_assoc]
      rw [hb, hs]
      generalize hB : u + units n.duration + (((m :: ms).take ((m :: ms).length - 1)).map (fun n => units n.duration)).sum = B at *
      have hle : u ≤ B := by omega
      have e1 : T * u ≤ T * B := Nat.mul_le_mul_left _ hle
      have e2 : T * u / total ≤ T * B / total := Nat.div_le_div_right e1
      have e3 : u + units n.duration ≤ u + units n.duration + ((m :: ms).map (fun n => units n.duration)).sum := by omega
      generalize u + units n.duration + ((m :: ms).map (fun n => units n.duration)).sum = S at *
      refine ⟨fun ⟨h1, h2, h3⟩ => ?_, fun h => ?_⟩
      · rw [place]
        simp only [mulU32, addU32, hn, if_pos (Nat.le_trans e1 h1), R_bind_ok, if_neg (show ¬ total = 0 by omega),
          if_pos (show start + T * u / total ≤ U32_MAX by omega), if_pos (Nat.le_trans e3 h3), ih1 ⟨h1, h2, h3⟩]
        rfl
      · have hi := ih2 h
        rw [place]
        simp only [mulU32, addU32, hn]
        by_cases h1 : T * u ≤ U32_MAX
        · rw [if_pos h1, R_bind_ok, if_neg (by omega)]
          by_cases h2 : start + T * u / total ≤ U32_MAX
          · rw [if_pos h2, R_bind_ok, R_bind_ok]
            by_cases h3 : u + units n.duration ≤ U32_MAX
            · rw [if_pos h3, R_bind_ok, hi]; rfl
            · rw [if_neg h3]; rfl
          · rw [if_neg h2]; rfl
        · rw [if_neg h1]; rfl

end Tuple
end Klavier
