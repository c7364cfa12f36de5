import Verif.Lemmas.RepeatSet

/-! # C26, C27: repeat marks of a bar -/
set_option autoImplicit false
namespace Klavier
open Spec

/-- C26: adding a mark either adds exactly that mark, or is refused with exactly
the marks of the bar that refuse it. -/
theorem C26_add (s : RepeatSet) (r : Repeat) :
    (∀ s', s.tryAdd r = .ok s' →
      (∀ x, s'.contains x = true ↔ x = r ∨ s.contains x = true) ∧
      ∀ x, s.contains x = true → refuses r x = false) ∧
    (∀ d, s.tryAdd r = .error d →
      (∀ x, d.contains x = true ↔ s.contains x = true ∧ refuses r x = true) ∧
      ∃ x, d.contains x = true) := by
  constructor
  · intro s' h
    obtain ⟨rfl, h2⟩ := (tryAdd_ok_iff s s' r).1 h
    refine ⟨fun x => ?_, h2⟩
    rw [contains_set]
    split <;> simp_all
  · intro d h
    rw [tryAdd_eq] at h
    simp only [RepeatSet.tryAddRepeat] at h
    split at h
    · cases h
    · next hne =>
      cases h
      refine ⟨fun x => ?_, ?_⟩
      · rw [contains_inter, dislikeOf_contains]
        simp [and_comm]
      · rw [eq_EMPTY_iff] at hne
        simpa using hne

example : RepeatSet.tryAdd { start := true, end_ := true } .Ds = .error { start := true } ∧
    RepeatSet.tryAdd { start := true, end_ := true } .Fine = .ok { start := true, end_ := true, fine := true } := by decide

/-- C26: every set of marks that can be built is consistent. -/
theorem C26_consistent {s : RepeatSet} (h : Built s) :
    (∀ x y, isEnding x = true → isEnding y = true → s.contains x = true → s.contains y = true → x = y) ∧
    (∀ x, isEnding x = true → s.contains x = true →
      s.contains .Start = false ∧ s.contains .End = false ∧ s.contains .Dc = false ∧ s.contains .Ds = false) ∧
    (s.contains .Start = true → s.contains .Dc = false ∧ s.contains .Ds = false) := by
  -- one symmetric relation captures the three claims
  let bad : Repeat → Repeat → Bool := fun x y =>
    (isEnding x && isEnding y && x != y) ||
    (isEnding x && (y = .Start || y = .End || y = .Dc || y = .Ds)) ||
    (isEnding y && (x = .Start || x = .End || x = .Dc || x = .Ds)) ||
    (x = .Start && (y = .Dc || y = .Ds)) || (y = .Start && (x = .Dc || x = .Ds))
  have hbad : ∀ x y, refuses x y = false → bad x y = false ∧ bad y x = false := by decide
  have hself : ∀ x, bad x x = false := by decide
  have key : ∀ x y, s.contains x = true → s.contains y = true → bad x y = false := by
    induction h with
    | empty => intro x y hx; rw [contains_EMPTY] at hx; cases hx
    | @add s s' r hs hadd ih =>
      obtain ⟨h1, h2⟩ := (C26_add s r).1 s' hadd
      intro x y hx hy
      rcases (h1 x).1 hx with rfl | hx <;> rcases (h1 y).1 hy with rfl | hy
      · exact hself _
      · exact (hbad _ _ (h2 _ hy)).1
      · exact (hbad _ _ (h2 _ hx)).2
      · exact ih x y hx hy
    | @remove s r hs ih =>
      have hsub : ∀ x, (s.remove r).contains x = true → s.contains x = true := by
        intro x; simp only [RepeatSet.remove, contains_set]; split <;> simp
      exact fun x y hx hy => ih x y (hsub x hx) (hsub y hy)
    | @removeRegions s hs ih =>
      have hsub : ∀ x, s.removeRegions.contains x = true → s.contains x = true := by
        intro x; simp only [RepeatSet.removeRegions, contains_set]; repeat' split
        all_goals simp
      exact fun x y hx hy => ih x y (hsub x hx) (hsub y hy)
  refine ⟨?_, ?_, ?_⟩
  · intro x y hx hy h1 h2
    have hd : ∀ x y, isEnding x = true → isEnding y = true → bad x y = false → x = y := by decide
    exact hd x y hx hy (key x y h1 h2)
  · intro x hx h1
    refine ⟨?_, ?_, ?_, ?_⟩ <;> apply Bool.eq_false_iff.2 <;> intro h2 <;>
      have := key x _ h1 h2 <;> simp [bad, hx] at this
  · intro h1
    refine ⟨?_, ?_⟩ <;> apply Bool.eq_false_iff.2 <;> intro h2 <;>
      have := key _ _ h1 h2 <;> simp [bad] at this

example : RepeatSet.tryAdd { var1 := true, fine := true } (VarIndex.toRepeat .VI2) = .error { var1 := true } ∧
    RepeatSet.tryAdd { var1 := true, fine := true } .End = .error { var1 := true } := by decide

/-- C26: a consistent set has at most one numbered ending, and `region_index`
names it; `remove_resions` removes exactly the endings; `remove` exactly the mark. -/
theorem C26_region {s : RepeatSet} (h : Built s) (r x : Repeat) :
    (∀ i : VarIndex, s.regionIndex = some i ↔ s.contains i.toRepeat = true) ∧
    (s.removeRegions.contains x = (s.contains x && !isEnding x)) ∧
    ((s.remove r).contains x = (s.contains x && x != r)) := by
  have h1 := (C26_consistent h).1
  refine ⟨?_, ?_, ?_⟩
  · intro i
    have hd : ∀ i j : VarIndex, s.contains i.toRepeat = true → s.contains j.toRepeat = true → i = j := by
      intro i j hi hj
      have := h1 _ _ (by cases i <;> rfl) (by cases j <;> rfl) hi hj
      revert this
      cases i <;> cases j <;> simp [VarIndex.toRepeat]
    have h12 := hd .VI1 i
    have h22 := hd .VI2 i
    have h32 := hd .VI3 i
    have h42 := hd .VI4 i
    simp only [VarIndex.toRepeat] at h12 h22 h32 h42
    simp only [RepeatSet.regionIndex]
    cases i <;> simp only [VarIndex.toRepeat] <;> (repeat' split) <;> simp_all
  · simp only [RepeatSet.removeRegions, contains_set]
    cases x <;> simp [isEnding]
  · simp only [RepeatSet.remove, contains_set]
    split <;> simp_all

example : RepeatSet.regionIndex { var3 := true, fine := true } = some .VI3 ∧
    RepeatSet.removeRegions { var3 := true, fine := true } = { fine := true } := by decide

/-- C26 (partial: re-adding a present mark is not always accepted, see
`C26_readd_false`): it is refused exactly for D.C. next to D.S. or Segno and for an
ending next to Segno, and changes nothing otherwise. -/
theorem C26_readd_partial {s : RepeatSet} (h : Built s) (r : Repeat) (hr : s.contains r = true) :
    s.tryAdd r = .ok s ↔
      ¬ (r = .Dc ∧ (s.contains .Ds = true ∨ s.contains .Segno = true)) ∧
      ¬ (isEnding r = true ∧ s.contains .Segno = true) := by
  obtain ⟨c1, c2, c3⟩ := C26_consistent h
  have hset : s.set r true = s := by
    apply RepeatSet.ext_contains
    intro x
    rw [contains_set]
    split <;> simp_all
  rw [tryAdd_ok_iff, hset]
  constructor
  · rintro ⟨-, h2⟩
    refine ⟨?_, ?_⟩
    · rintro ⟨rfl, hx | hx⟩ <;> have := h2 _ hx <;> simp [refuses] at this
    · rintro ⟨hr, hx⟩
      have hd : ∀ r, isEnding r = true → refuses r .Segno = true := by decide
      have := h2 _ hx
      rw [hd r hr] at this
      cases this
  · rintro ⟨n1, n2⟩
    refine ⟨rfl, fun x hx => ?_⟩
    -- a refusal not excluded by consistency is one of the two exceptions
    have hd : ∀ r x, refuses r x = true →
        (isEnding r = true ∧ isEnding x = true ∧ r ≠ x) ∨
        (isEnding r = true ∧ (x = .Start ∨ x = .End ∨ x = .Dc ∨ x = .Ds)) ∨
        (isEnding x = true ∧ (r = .Start ∨ r = .End ∨ r = .Dc ∨ r = .Ds)) ∨
        (r = .Start ∧ (x = .Dc ∨ x = .Ds)) ∨ (x = .Start ∧ (r = .Dc ∨ r = .Ds)) ∨
        (r = .Dc ∧ (x = .Ds ∨ x = .Segno)) ∨ (isEnding r = true ∧ x = .Segno) := by decide
    apply Bool.eq_false_iff.2
    intro hrx
    rcases hd r x hrx with ⟨a, b, c⟩ | ⟨a, b⟩ | ⟨a, b⟩ | ⟨rfl, b⟩ | ⟨rfl, b⟩ | ⟨rfl, b⟩ | ⟨a, rfl⟩
    · exact c (c1 r x a b hr hx)
    · have := c2 r a hr
      rcases b with rfl | rfl | rfl | rfl <;> simp_all
    · have := c2 x a hx
      rcases b with rfl | rfl | rfl | rfl <;> simp_all
    · have := c3 hr
      rcases b with rfl | rfl <;> simp_all
    · have := c3 hx
      rcases b with rfl | rfl <;> simp_all
    · rcases b with rfl | rfl
      · exact n1 ⟨rfl, .inl hx⟩
      · exact n1 ⟨rfl, .inr hx⟩
    · exact n2 ⟨a, hx⟩

example : RepeatSet.tryAdd { start := true, fine := true } .Start = .ok { start := true, fine := true } ∧
    ∃ d, RepeatSet.tryAdd { dc := true, segno := true } .Dc = .error d := ⟨by decide, _, rfl⟩

/-- C26, negation of the last clause: D.C. then Segno is accepted, but then the
D.C. already present is refused. -/
theorem C26_readd_false : ∃ s, Built s ∧ s.contains .Dc = true ∧ ∃ d, s.tryAdd .Dc = .error d :=
  ⟨{ dc := true, segno := true },
    .add (.add .empty (r := .Dc) (s' := { dc := true }) (by decide)) (r := .Segno) (by decide), rfl,
    { segno := true }, by decide⟩

example : Built { start := true, end_ := true, fine := true } :=
  .add (.add (.add .empty (r := .Start) (s' := { start := true }) (by decide))
    (r := .End) (s' := { start := true, end_ := true }) (by decide)) (r := .Fine) (by decide)

/-! ## C27 -/

/-- C27: a list of marks is accepted exactly when no mark is refused by an
earlier one, and then the bar carries exactly the marks of the list. -/
theorem C27_accept (l : List Repeat) :
    ((∃ s, addAll .EMPTY l = .ok s) ↔ l.Pairwise (fun old new => refuses new old = false)) ∧
    (∀ s, addAll .EMPTY l = .ok s → ∀ x, s.contains x = true ↔ x ∈ l) := by
  have gen : ∀ (l : List Repeat) (s0 : RepeatSet),
      ((∃ s, addAll s0 l = .ok s) ↔
        (∀ new ∈ l, ∀ old, s0.contains old = true → refuses new old = false) ∧
        l.Pairwise (fun old new => refuses new old = false)) ∧
      (∀ s, addAll s0 l = .ok s → ∀ x, s.contains x = true ↔ s0.contains x = true ∨ x ∈ l) := by
    intro l
    induction l with
    | nil => intro s0; simp [addAll]
    | cons r rs ih =>
      intro s0
      simp only [addAll]
      cases hadd : s0.tryAdd r with
      | ok s1 =>
        obtain ⟨h1, h2⟩ := (C26_add s0 r).1 s1 hadd
        obtain ⟨i1, i2⟩ := ih s1
        simp only
        refine ⟨?_, ?_⟩
        · rw [i1]
          simp only [h1, List.pairwise_cons, List.mem_cons]
          constructor
          · rintro ⟨a, b⟩
            refine ⟨?_, fun x hx => a x hx r (.inl rfl), b⟩
            rintro new (rfl | hn) old ho
            · exact h2 old ho
            · exact a new hn old (.inr ho)
          · rintro ⟨a, b, c⟩
            refine ⟨?_, c⟩
            rintro new hn old (rfl | ho)
            · exact b new hn
            · exact a new (.inr hn) old ho
        · intro s hs x
          rw [i2 s hs x, h1 x, List.mem_cons]
          constructor
          · rintro ((h | h) | h)
            · exact .inr (.inl h)
            · exact .inl h
            · exact .inr (.inr h)
          · rintro (h | h | h)
            · exact .inl (.inr h)
            · exact .inl (.inl h)
            · exact .inr h
      | error d =>
        obtain ⟨h1, x, hx⟩ := (C26_add s0 r).2 d hadd
        simp only
        refine ⟨⟨fun h => (by obtain ⟨s, hs⟩ := h; cases hs), ?_⟩, fun s hs => by cases hs⟩
        rintro ⟨a, -⟩
        have := a r (by simp) x ((h1 x).1 hx).1
        rw [((h1 x).1 hx).2] at this
        cases this
  obtain ⟨g1, g2⟩ := gen l .EMPTY
  refine ⟨?_, ?_⟩
  · rw [g1]; simp [contains_EMPTY]
  · intro s hs x
    rw [g2 s hs x]; simp [contains_EMPTY]

example : (¬ ∃ s, addAll .EMPTY [.Segno, .Dc] = .ok s) ∧ ∃ s, addAll .EMPTY [.Dc, .Segno, .Fine] = .ok s := by
  refine ⟨?_, _, rfl⟩
  simp [(C27_accept _).1]
  decide

/-- C27 (partial: false in general, see `C27_order_false`): if the marks do not
combine D.C. with D.S. nor Segno with D.C. or an ending, every order is accepted
or none, with the same resulting set. -/
theorem C27_order_partial {l m : List Repeat} (hp : l.Perm m)
    (h1 : ¬ (Repeat.Dc ∈ l ∧ Repeat.Ds ∈ l))
    (h2 : ∀ x ∈ l, x = .Dc ∨ isEnding x = true → Repeat.Segno ∉ l) :
    addAll .EMPTY l = addAll .EMPTY m ∨
      ((∃ d, addAll .EMPTY l = .error d) ∧ ∃ d, addAll .EMPTY m = .error d) := by
  have sym : ∀ x y, x ∈ l → y ∈ l → refuses x y = false → refuses y x = false := by
    intro x y hx hy
    have a := h2 x hx
    have b := h2 y hy
    cases x <;> cases y <;> simp_all [refuses, isEnding]
  have pw : l.Pairwise (fun old new => refuses new old = false) ↔
      m.Pairwise (fun old new => refuses new old = false) := by
    have e : ∀ k : List Repeat, (∀ x ∈ k, x ∈ l) →
        (k.Pairwise (fun old new => refuses new old = false) ↔
         k.Pairwise (fun a b => refuses a b = false ∧ refuses b a = false)) := by
      intro k hk
      constructor
      · intro h
        refine h.imp_of_mem ?_
        intro a b ha hb hab
        exact ⟨sym b a (hk b hb) (hk a ha) hab, hab⟩
      · exact fun h => h.imp (fun h => h.2)
    rw [e l (fun _ h => h), e m (fun x h => hp.mem_iff.2 h)]
    exact hp.pairwise_iff (fun h => ⟨h.2, h.1⟩)
  by_cases hl : ∃ s, addAll .EMPTY l = .ok s
  · have hm : ∃ s, addAll .EMPTY m = .ok s := by
      rw [(C27_accept m).1, ← pw, ← (C27_accept l).1]; exact hl
    obtain ⟨s, hs⟩ := hl
    obtain ⟨t, ht⟩ := hm
    left
    rw [hs, ht]
    congr 1
    apply RepeatSet.ext_contains
    intro x
    have a := (C27_accept l).2 s hs x
    have b := (C27_accept m).2 t ht x
    rw [hp.mem_iff, ← b] at a
    exact Bool.eq_iff_iff.2 a
  · have hm : ¬ ∃ s, addAll .EMPTY m = .ok s := by
      rw [(C27_accept m).1, ← pw, ← (C27_accept l).1]; exact hl
    right
    constructor
    · cases h : addAll .EMPTY l with
      | ok s => exact absurd ⟨s, h⟩ hl
      | error d => exact ⟨d, rfl⟩
    · cases h : addAll .EMPTY m with
      | ok s => exact absurd ⟨s, h⟩ hm
      | error d => exact ⟨d, rfl⟩

example : addAll .EMPTY [.Start, .End, .Coda] = addAll .EMPTY [.Coda, .End, .Start] := by decide

/-- C27: whatever the orders, if both are accepted they give the same set. -/
theorem C27_same_set {l m : List Repeat} {s t : RepeatSet} (hp : l.Perm m)
    (hs : addAll .EMPTY l = .ok s) (ht : addAll .EMPTY m = .ok t) : s = t := by
  apply RepeatSet.ext_contains
  intro x
  have a := (C27_accept l).2 s hs x
  have b := (C27_accept m).2 t ht x
  rw [hp.mem_iff, ← b] at a
  exact Bool.eq_iff_iff.2 a

example (s t : RepeatSet) (hs : addAll .EMPTY [.Start, .End, .Coda] = .ok s) (ht : addAll .EMPTY [.Coda, .End, .Start] = .ok t) :
    s = t ∧ s.contains .Coda = true := by
  refine ⟨C27_same_set (by decide) hs ht, ?_⟩
  cases hs; decide

/-- C27, negation: D.C. then Segno is accepted, Segno then D.C. is refused. -/
theorem C27_order_false :
    addAll .EMPTY [.Dc, .Segno] = .ok { dc := true, segno := true } ∧
    addAll .EMPTY [.Segno, .Dc] = .error { segno := true } := by decide

example : [Repeat.Start, .End, .Coda].Perm [.Coda, .End, .Start] ∧
    (∃ s, addAll .EMPTY [.Start, .End, .Coda] = .ok s) :=
  ⟨by decide, { start := true, end_ := true, coda := true }, by decide⟩

private theorem pairwise_of_all {α : Type} {P : α → α → Prop} : ∀ l : List α, (∀ x ∈ l, ∀ y ∈ l, P x y) → l.Pairwise P
  | [], _ => .nil
  | a :: l, h => .cons (fun y hy => h a (by simp) y (by simp [hy]))
      (pairwise_of_all l fun x hx y hy => h x (by simp [hx]) y (by simp [hy]))

/-- C27: marks can be put on a bar in some order exactly if no two of them refuse each
other; D.C. and endings first will then do. -/
theorem C27_some_iff (l : List Repeat) :
    (∃ m, l.Perm m ∧ ∃ s, addAll .EMPTY m = .ok s) ↔ ∀ x ∈ l, ∀ y ∈ l, ¬ (refuses x y = true ∧ refuses y x = true) := by
  constructor
  · rintro ⟨m, hp, hm⟩ x hx y hy ⟨h1, h2⟩
    rw [(C27_accept m).1] at hm
    have hne : x ≠ y := by
      rintro rfl
      revert h1
      cases x <;> decide
    rw [hp.mem_iff] at hx hy
    obtain ⟨a, b, rfl⟩ := List.append_of_mem hx
    rw [List.pairwise_append, List.pairwise_cons] at hm
    rcases List.mem_append.1 hy with h | h
    · have := hm.2.2 y h x (by simp)
      rw [h1] at this; cases this
    · rcases List.mem_cons.1 h with h | h
      · exact hne h.symm
      · have := hm.2.1.1 y h
        rw [h2] at this; cases this
  · intro h
    let early : Repeat → Bool := fun x => x = .Dc || isEnding x
    refine ⟨l.filter early ++ l.filter (fun x => !early x), (List.filter_append_perm early l).symm, ?_⟩
    rw [(C27_accept _).1]
    have key : ∀ a b : Repeat, (early a = true ∨ early b = false) → refuses b a = true → refuses a b = true := by
      intro a b
      cases a <;> cases b <;> decide
    have go : ∀ a ∈ l, ∀ b ∈ l, (early a = true ∨ early b = false) → refuses b a = false := by
      intro a ha b hb he
      cases hr : refuses b a with
      | false => rfl
      | true => exact (h a ha b hb ⟨key a b he hr, hr⟩).elim
    rw [List.pairwise_append]
    refine ⟨pairwise_of_all _ fun x hx y hy => ?_, pairwise_of_all _ fun x hx y hy => ?_, fun x hx y hy => ?_⟩
    · rw [List.mem_filter] at hx hy
      exact go x hx.1 y hy.1 (.inl hx.2)
    · rw [List.mem_filter] at hx hy
      exact go x hx.1 y hy.1 (.inr (by simpa using hy.2))
    · rw [List.mem_filter] at hx hy
      exact go x hx.1 y hy.1 (.inl hx.2)

/-- C27: so marks that are accepted in one order are accepted in every order exactly if
they do not combine D.C. with D.S. nor Segno with D.C. or an ending. -/
theorem C27_every_iff (l : List Repeat) (h : ∃ s, addAll .EMPTY l = .ok s) :
    (∀ m, l.Perm m → ∃ s, addAll .EMPTY m = .ok s) ↔
      ¬ (Repeat.Dc ∈ l ∧ Repeat.Ds ∈ l) ∧ ∀ x ∈ l, x = .Dc ∨ isEnding x = true → Repeat.Segno ∉ l := by
  have apart : ∀ x y : Repeat, x ≠ y → x ∈ l → y ∈ l → refuses y x = true → ∃ m, l.Perm m ∧ ¬ ∃ s, addAll .EMPTY m = .ok s := by
    intro x y hne hx hy hr
    have p1 := List.perm_cons_erase hx
    have hy' : y ∈ l.erase x := (List.mem_erase_of_ne hne.symm).2 hy
    refine ⟨x :: y :: (l.erase x).erase y, p1.trans ((List.perm_cons_erase hy').cons x), ?_⟩
    rw [(C27_accept _).1, List.pairwise_cons]
    intro c
    have := c.1 y (by simp)
    rw [hr] at this; cases this
  constructor
  · intro hall
    constructor
    · rintro ⟨h1, h2⟩
      obtain ⟨m, a, b⟩ := apart .Ds .Dc (by decide) h2 h1 (by decide)
      exact b (hall m a)
    · intro x hx hc hs
      have hr : refuses x .Segno = true ∧ Repeat.Segno ≠ x := by
        revert hc
        cases x <;> decide
      obtain ⟨m, a, b⟩ := apart .Segno x hr.2 hs hx hr.1
      exact b (hall m a)
  · rintro ⟨h1, h2⟩ m hp
    obtain ⟨s, hs⟩ := h
    rcases C27_order_partial hp h1 h2 with e | ⟨⟨d, e⟩, _⟩
    · exact ⟨s, e ▸ hs⟩
    · rw [e] at hs; cases hs

example : (∃ s, addAll .EMPTY [.Dc, .Segno, .Fine] = .ok s) ∧
    ¬ (∀ m, List.Perm [Repeat.Dc, .Segno, .Fine] m → ∃ s, addAll .EMPTY m = .ok s) ∧
    (∃ m, List.Perm [Repeat.Segno, .Dc, .Ds] m ∧ ∃ s, addAll .EMPTY m = .ok s) ∧
    ¬ ∃ m, List.Perm [Repeat.Start, .Coda, .Ds] m ∧ ∃ s, addAll .EMPTY m = .ok s := by
  refine ⟨⟨_, rfl⟩, ?_, ?_, ?_⟩
  · rw [C27_every_iff _ ⟨_, rfl⟩]
    intro c
    exact c.2 .Dc (by decide) (.inl rfl) (by decide)
  · rw [C27_some_iff]
    decide
  · rw [C27_some_iff]
    decide

end Klavier
