import Verif.Lemmas.Portions
import Verif.Spec.Steps

/-! # Lemmas for C83 -/
set_option autoImplicit false
namespace Klavier
open Spec
namespace Project

/-- The things a change begins with. -/
def changeFrom (c : ModelChanges) : Models where
  notes := c.notes.map (·.1)
  bars := c.bars.map (·.1)
  tempos := c.tempos.map (·.1)
  dumpers := c.dumpers.map (·.1)
  softs := c.softs.map (·.1)

/-- The things a change ends with. -/
def changeTo (c : ModelChanges) : Models where
  notes := c.notes.map (·.2)
  bars := c.bars.map (·.2)
  tempos := c.tempos.map (·.2)
  dumpers := c.dumpers.map (·.2)
  softs := c.softs.map (·.2)

theorem change_store {V : Type} (tick : V → Nat) (s : Store V) (l : List (V × V)) :
    (s.change (l.map (fun (f, t) => (tick f, (tick t, t))))).1 = addItems tick (removeItems tick s (l.map (·.1))) (l.map (·.2)) := by
  rw [Store.change]
  have e : (l.map (fun (f, t) => (tick f, (tick t, t)))).map Prod.snd = (l.map (·.2)).map (fun b => (tick b, b)) := by
    rw [List.map_map, List.map_map]; rfl
  rw [e, bulkAdd_fst]
  congr 1
  rw [removeItems, List.foldl_map, List.foldl_map]

theorem change_notes (s : Bag Note) (l : List (Note × Note)) :
    s.change (l.map (fun (f, t) => ((f.startTick, f), (t.startTick, t)))) = addNotes (removeNotes s (l.map (·.1))) (l.map (·.2)) := by
  rw [Bag.change, ← bulkAdd_notes, ← bulkRemove_notes, List.map_map, List.map_map, List.map_map, List.map_map]
  rfl

theorem exec_change (p p' : Project) (c : ModelChanges) (md : Metadata) :
    (∃ d, p.exec (.change c md) = .ok (some (p', d))) ↔ ∃ bs, (p.swap (changeFrom c) (changeTo c)).replenishBars = .ok (p', bs) := by
  simp only [exec, change, change_notes, change_store, R_bind_eq_ok]
  constructor
  · rintro ⟨d, ⟨q, e⟩, ⟨⟨q2, bs⟩, h1, h2⟩, h3⟩
    cases h2; cases h3
    exact ⟨bs, h1⟩
  · rintro ⟨bs, h1⟩
    exact ⟨_, _, ⟨_, h1, rfl⟩, rfl⟩

/-- Completing the bars for something else in between completes at least the bars that are
completed without. -/
theorem replenish_detour {q1 q2 q3 : Project} (h1 : WF q1) (h2 : WF q2) (h3 : WF q3) (v1 : ValidNotes q1) (v2 : ValidNotes q2)
    (v3 : ValidNotes q3) (hb : q3.bars = q1.bars) (hr2 : q2.rhythm = q1.rhythm) (hr3 : q3.rhythm = q1.rhythm)
    (hc : ∀ x, CoveredUpTo q1 x → CoveredUpTo q2 x → CoveredUpTo q3 x) (hc' : ∀ x, CoveredUpTo q3 x → CoveredUpTo q2 x)
    {p1 p2 : Project} {bs bs' : List Bar} (e1 : q1.replenishBars = .ok (p1, bs))
    (e2 : ({ q2 with bars := p1.bars } : Project).replenishBars = .ok (p2, bs')) :
    ∃ p3 bs3, q3.replenishBars = .ok (p3, bs3) ∧ p3 = { q3 with bars := p3.bars } ∧ p2 = { q2 with bars := p2.bars } ∧
      p3.bars <+: p2.bars ∧ (CoveredUpTo q1 (lastBarTick p3.bars) → p2.bars = p3.bars) := by
  obtain ⟨r, hr⟩ := exists_latest h1
  obtain ⟨k, a1, a2, a3, a4, a5⟩ := (replenish_ok_iff h1 v1 hr).1 e1
  obtain ⟨j, b1, b2, b3, b4, b5⟩ := (replenish_after h1 h2 v2 hr2 hr k p1 bs e1 a4 p2 bs').1 e2
  have hr3' : LatestValue q3.bars Bar.rhythm q3.rhythm (lastBarTick q3.bars) r := by rw [hb, hr3]; exact hr
  have hkj : CoveredUpTo q3 (lastBarTick q1.bars + (k + j) * r.tickLen) :=
    hc _ (covered_mono (by rw [Nat.add_mul]; omega) a2) b2
  obtain ⟨n, c1, c2, c3⟩ := least_covering hkj
  obtain ⟨d, hd⟩ : ∃ d, k + j = n + d := ⟨k + j - n, by omega⟩
  refine ⟨_, _, (replenish_ok_iff h3 v3 hr3').2 ⟨n, ?_, by rw [hb]; exact c2, by rw [hb]; exact c3, rfl, rfl⟩, rfl, by rw [b4], ?_, ?_⟩
  · rw [hb]
    rw [hd, Nat.add_mul] at b1
    omega
  · rw [b4, hb, hd]
    refine ⟨(regularBars (lastBarTick q1.bars + n * r.tickLen) r.tickLen d).map (fun b => (b.startTick, b)), ?_⟩
    rw [← regularBars_add, List.map_append, List.append_assoc]
  · intro hq
    simp only [hb] at hq
    rw [lastBarTick_regular] at hq
    have hkn : k ≤ n := by
      rcases Nat.lt_or_ge n k with h | h
      · exact absurd hq (a3 n h)
      · exact h
    obtain ⟨i, rfl⟩ : ∃ i, n = k + i := ⟨n - k, by omega⟩
    have hi : ¬ i < j := fun h => b3 i h (hc' _ c2)
    obtain rfl : i = j := by omega
    rw [b4, hb]

variable {V : Type}

theorem get?_two (tick : V → Nat) {s : Store V} (hs : SortedStore s) (a b c : List V) (k : Nat) :
    (addItems tick (removeItems tick (addItems tick (removeItems tick s a) b) b) c).get? k =
      (lastWith tick c k).or (if (lastWith tick b k).isSome ∨ (lastWith tick a k).isSome then none else s.get? k) := by
  rw [get?_addItems, get?_removeItems _ (sorted_addItems _ (sorted_removeItems _ hs _) _), get?_addItems, get?_removeItems _ hs]
  cases lastWith tick b k <;> cases lastWith tick a k <;> simp

theorem get?_one (tick : V → Nat) {s : Store V} (hs : SortedStore s) (a c : List V) (k : Nat) :
    (addItems tick (removeItems tick s a) c).get? k =
      (lastWith tick c k).or (if (lastWith tick a k).isSome then none else s.get? k) := by
  rw [get?_addItems, get?_removeItems _ hs]

theorem isSome_lastWith {tick : V → Nat} {l : List V} {k : Nat} : (lastWith tick l k).isSome = true ↔ ∃ v ∈ l, tick v = k := by
  cases h : lastWith tick l k with
  | none =>
    simp only [Option.isSome_none]
    have := lastWith_none.1 h
    constructor
    · intro h; cases h
    · rintro ⟨v, hv, e⟩; exact absurd e (this v hv)
  | some v => exact ⟨fun _ => ⟨v, lastWith_some h⟩, fun _ => rfl⟩

/-- When the stopover makes no difference. -/
theorem store_steps (tick : V → Nat) {s : Store V} (hs : SortedStore s) (l : List (V × V × V)) :
    addItems tick (removeItems tick (addItems tick (removeItems tick s (l.map (·.1))) (l.map (·.2.1))) (l.map (·.2.1))) (l.map (·.2.2)) =
      addItems tick (removeItems tick s (l.map (·.1))) (l.map (·.2.2)) ↔ NoneLost tick s l := by
  have sorted2 := sorted_addItems tick (sorted_removeItems tick (sorted_addItems tick (sorted_removeItems tick hs (l.map (·.1))) (l.map (·.2.1)))
    (l.map (·.2.1))) (l.map (·.2.2))
  have sorted1 := sorted_addItems tick (sorted_removeItems tick hs (l.map (·.1))) (l.map (·.2.2))
  constructor
  · intro h e he q hq hk
    have h := congrArg (fun s => Store.get? s q.1) h
    simp only [get?_two tick hs, get?_one tick hs] at h
    cases hc : lastWith tick (l.map (·.2.2)) q.1 with
    | some v =>
      obtain ⟨g1, g2⟩ := lastWith_some hc
      obtain ⟨e', g3, rfl⟩ := List.mem_map.1 g1
      exact .inr ⟨e', g3, g2⟩
    | none =>
      cases ha : lastWith tick (l.map (·.1)) q.1 with
      | some v =>
        obtain ⟨g1, g2⟩ := lastWith_some ha
        obtain ⟨e', g3, rfl⟩ := List.mem_map.1 g1
        exact .inl ⟨e', g3, g2⟩
      | none =>
        have hb : (lastWith tick (l.map (·.2.1)) q.1).isSome = true :=
          isSome_lastWith.2 ⟨e.2.1, List.mem_map.2 ⟨e, he, rfl⟩, hk.symm⟩
        rw [hc, ha, hb, Store.get?_of_mem hs (show (q.1, q.2) ∈ s from hq)] at h
        simp at h
  · intro h
    refine Store.ext sorted2 sorted1 ?_
    intro k
    rw [get?_two tick hs, get?_one tick hs]
    cases hc : lastWith tick (l.map (·.2.2)) k with
    | some v => simp
    | none =>
      cases ha : lastWith tick (l.map (·.1)) k with
      | some v => simp
      | none =>
        by_cases hb : (lastWith tick (l.map (·.2.1)) k).isSome = true
        · simp only [hb, Option.none_or, Option.isSome_none, Bool.false_eq_true, or_false, if_true, if_false]
          symm
          refine Store.get?_none_of_not_mem ?_
          intro q hq hk
          obtain ⟨v, g1, g2⟩ := isSome_lastWith.1 hb
          obtain ⟨e, g3, rfl⟩ := List.mem_map.1 g1
          rcases h e g3 q hq (hk.trans g2.symm) with ⟨e', g4, g5⟩ | ⟨e', g4, g5⟩
          · exact absurd (g5.trans hk) (lastWith_none.1 ha e'.1 (List.mem_map.2 ⟨e', g4, rfl⟩))
          · exact absurd (g5.trans hk) (lastWith_none.1 hc e'.2.2 (List.mem_map.2 ⟨e', g4, rfl⟩))
        · simp [hb]

/-- What is there after the direct change is there after the two steps or was there in
between. -/
theorem keys_direct (tick : V → Nat) {s : Store V} (hs : SortedStore s) (a b c : List V) {q : Nat × V}
    (hq : q ∈ addItems tick (removeItems tick s a) c) :
    (∃ q' ∈ addItems tick (removeItems tick (addItems tick (removeItems tick s a) b) b) c, q'.1 = q.1) ∨
      ∃ q' ∈ addItems tick (removeItems tick s a) b, q'.1 = q.1 := by
  have sorted1 := sorted_addItems tick (sorted_removeItems tick hs a) c
  have h := Store.get?_of_mem sorted1 (show (q.1, q.2) ∈ _ from hq)
  rw [get?_one tick hs] at h
  by_cases hb : (lastWith tick b q.1).isSome = true
  · right
    cases hl : lastWith tick b q.1 with
    | none => rw [hl] at hb; cases hb
    | some v => exact ⟨(q.1, v), Store.mem_of_get? (by rw [get?_one tick hs, hl]; rfl), rfl⟩
  · left
    refine ⟨(q.1, q.2), Store.mem_of_get? ?_, rfl⟩
    rw [get?_two tick hs]
    simp only [hb, Bool.false_eq_true, false_or]
    exact h

/-- What is there after the two steps is there after the direct change. -/
theorem keys_steps (tick : V → Nat) {s : Store V} (hs : SortedStore s) (a b c : List V) {q : Nat × V}
    (hq : q ∈ addItems tick (removeItems tick (addItems tick (removeItems tick s a) b) b) c) :
    q ∈ addItems tick (removeItems tick s a) c := by
  have sorted2 := sorted_addItems tick (sorted_removeItems tick (sorted_addItems tick (sorted_removeItems tick hs a) b) b) c
  have h := Store.get?_of_mem sorted2 (show (q.1, q.2) ∈ _ from hq)
  rw [get?_two tick hs] at h
  refine Store.mem_of_get? (k := q.1) (v := q.2) ?_
  rw [get?_one tick hs]
  revert h
  cases lastWith tick c q.1 with
  | some v => exact fun h => h
  | none =>
    intro h
    simp only [Option.none_or] at h ⊢
    split at h
    · cases h
    · rename_i hn
      rw [if_neg (fun h' => hn (.inr h'))]
      exact h

theorem notes_steps (s : Bag Note) (a b c : List Note) :
    (addNotes (removeNotes (addNotes (removeNotes s a) b) b) c).Perm (addNotes (removeNotes s a) c) := by
  rw [List.perm_iff_count]
  intro x
  simp only [count_addNotes, count_removeNotes]
  omega

end Project
end Klavier
