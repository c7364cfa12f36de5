import Verif.Lemmas.Edit

/-! # What undoing leaves -/
set_option autoImplicit false
namespace Klavier
open Spec
namespace Project

variable {V : Type}

/-- The last but one item at tick `k`. -/
def prevWith (tick : V → Nat) : List V → Nat → Option V
  | [], _ => none
  | v :: l, k => (prevWith tick l k).or (if tick v = k ∧ (lastWith tick l k).isSome then some v else none)

theorem prevWith_last {tick : V → Nat} {l : List V} {k : Nat} (h : lastWith tick l k = none) : prevWith tick l k = none := by
  induction l with
  | nil => rfl
  | cons v l ih =>
    rw [lastWith_cons, Option.or_eq_none_iff] at h
    simp [prevWith, ih h.1, h.1]

theorem prevWith_append_last {tick : V → Nat} (a b : List V) {w : V} {k : Nat} (hw : tick w = k)
    (hb : ∀ u ∈ b, tick u ≠ k) : prevWith tick (a ++ w :: b) k = lastWith tick a k := by
  have hn := lastWith_none.2 hb
  induction a with
  | nil =>
    simp only [List.nil_append, prevWith, hn]
    simp [prevWith_last hn, lastWith]
  | cons v a ih =>
    simp only [List.cons_append, prevWith, ih]
    rw [lastWith_cons, lastWith_append, lastWith_cons, hn, if_pos hw]
    simp

theorem prevWith_iff (tick : V → Nat) (l : List V) (k : Nat) (v : V) :
    prevWith tick l k = some v ↔ LastButOneAt tick l k v := by
  constructor
  · intro h
    cases hl : lastWith tick l k with
    | none => rw [prevWith_last hl] at h; cases h
    | some w =>
      obtain ⟨a, b, rfl, h1, h2⟩ := (lastWith_iff tick l k w).1 hl
      rw [prevWith_append_last a b h1 h2] at h
      exact ⟨a, w, b, rfl, h1, h2, (lastWith_iff tick a k v).1 h⟩
  · rintro ⟨a, w, b, rfl, h1, h2, h3⟩
    rw [prevWith_append_last a b h1 h2]
    exact (lastWith_iff tick a k v).2 h3

theorem prevWith_none (tick : V → Nat) (l : List V) (k : Nat) :
    prevWith tick l k = none ↔ ∀ w, ¬ LastButOneAt tick l k w := by
  constructor
  · intro h w hw
    rw [← prevWith_iff, h] at hw
    cases hw
  · intro h
    cases hp : prevWith tick l k with
    | none => rfl
    | some w => exact absurd ((prevWith_iff tick l k w).1 hp) (h w)

/-- The last of what additions overwrote at a tick. -/
theorem overwritten_last (tick : V → Nat) (l : List V) (s : Store V) (hs : ∀ q ∈ s, q.1 = tick q.2) (k : Nat) :
    lastWith tick ((s.bulkAdd (l.map (fun v => (tick v, v)))).2.map (·.2)) k =
      if (lastWith tick l k).isSome then (prevWith tick l k).or (s.get? k) else none := by
  induction l generalizing s with
  | nil => simp [Store.bulkAdd, lastWith]
  | cons v l ih =>
    have hs' : ∀ q ∈ s.add (tick v) v, q.1 = tick q.2 := by
      intro q hq
      rcases Store.mem_add hq with rfl | hq
      · rfl
      · exact hs q hq
    have ih := ih _ hs'
    have hh : ∀ w, s.get? (tick v) = some w → tick w = tick v := fun w hw => (hs _ (Store.mem_of_get? hw)).symm
    simp only [List.map_cons, Store.bulkAdd]
    have e : lastWith tick ((match s.get? (tick v) with
        | some w => (tick v, w) :: ((s.add (tick v) v).bulkAdd (l.map (fun v => (tick v, v)))).2
        | none => ((s.add (tick v) v).bulkAdd (l.map (fun v => (tick v, v)))).2).map (fun q : Nat × V => q.2)) k =
        (lastWith tick (((s.add (tick v) v).bulkAdd (l.map (fun v => (tick v, v)))).2.map (·.2)) k).or
          (if tick v = k then s.get? (tick v) else none) := by
      cases hg : s.get? (tick v) with
      | none => simp
      | some w =>
        simp only [List.map_cons]
        rw [lastWith_cons, hh w hg]
    refine e.trans ?_
    rw [ih, lastWith_cons, Store.get?_add]
    simp only [prevWith]
    cases hl : lastWith tick l k with
    | none =>
      rw [prevWith_last hl]
      by_cases hv : tick v = k
      · simp [hv]
      · simp [hv]
    | some w =>
      by_cases hv : tick v = k
      · cases prevWith tick l k <;> simp [hv]
      · cases prevWith tick l k <;> simp [hv]

/-- What is in a store after undoing an edit, `B` being bars the completion put in. -/
theorem undone_store (tick : V → Nat) {s : Store V} (hs : SortedStore s) (hk : Keyed tick s) (f A B : List V)
    (hB : ∀ v ∈ B, (addItems tick (removeItems tick s f) A).get? (tick v) = none) :
    ItemsUndone tick f A s (addItems tick (removeItems tick (addItems tick (removeItems tick s f) (A ++ B)) (A ++ B))
      (f ++ oOf tick s f A)) := by
  have h1 := sorted_removeItems tick hs f
  have h2 := sorted_addItems tick h1 (A ++ B)
  have h3 := sorted_removeItems tick h2 (A ++ B)
  have hk1 : ∀ q ∈ removeItems tick s f, q.1 = tick q.2 := fun q hq => (keyed_removeItems tick hk f q hq).1
  intro k v
  have ho : lastWith tick (oOf tick s f A) k = _ := overwritten_last tick A _ hk1 k
  have key : (addItems tick (removeItems tick (addItems tick (removeItems tick s f) (A ++ B)) (A ++ B))
      (f ++ oOf tick s f A)).get? k = (prevWith tick A k).or ((lastWith tick f k).or (s.get? k)) := by
    rw [get?_addItems, get?_removeItems tick h2, get?_addItems, lastWith_append, lastWith_append, ho,
      get?_removeItems tick hs]
    cases hA : lastWith tick A k with
    | some w =>
      cases prevWith tick A k with
      | some u => simp
      | none =>
        cases hb : lastWith tick B k with
        | some u =>
          obtain ⟨b1, b2⟩ := lastWith_some hb
          have := hB u b1
          rw [get?_addItems, b2, hA] at this
          cases this
        | none => cases lastWith tick f k <;> simp
    | none =>
      rw [prevWith_last hA]
      cases hb : lastWith tick B k with
      | some u =>
        obtain ⟨b1, b2⟩ := lastWith_some hb
        have := hB u b1
        rw [get?_addItems, b2, hA, get?_removeItems tick hs] at this
        cases hf : lastWith tick f k with
        | some x => simp
        | none =>
          rw [hf] at this
          simp only [Option.none_or, Option.isSome_none, Bool.false_eq_true, if_false] at this
          simp [this]
      | none => cases lastWith tick f k <;> simp
  rw [← Store.get?_some_iff (sorted_addItems tick h3 _), key, Option.or_eq_some_iff, Option.or_eq_some_iff, prevWith_iff,
    prevWith_none, lastWith_iff, lastWith_none, Store.get?_some_iff hs]

end Project
end Klavier
