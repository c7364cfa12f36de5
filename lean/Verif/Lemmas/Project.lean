import Verif.Lemmas.NoteEnd
import Verif.Spec.Project

set_option autoImplicit false
namespace Klavier
open Spec

/-! ### Bags -/
namespace Bag
variable {V : Type}

theorem add_perm (s : Bag V) (k : Nat) (v : V) : (s.add k v).Perm ((k, v) :: s) := by
  induction s with
  | nil => exact List.Perm.refl _
  | cons q s ih =>
    obtain ⟨a, b⟩ := q
    simp only [add]
    split
    · exact List.Perm.refl _
    · exact (ih.cons _).trans (List.Perm.swap _ _ _)

theorem sorted_add {s : Bag V} (hs : SortedBag s) (k : Nat) (v : V) : SortedBag (s.add k v) := by
  induction s with
  | nil => simp [add, SortedBag]
  | cons q s ih =>
    obtain ⟨a, b⟩ := q
    have hs' := hs
    rw [SortedBag, List.pairwise_cons] at hs
    simp only [add]
    split
    · next h =>
      rw [SortedBag, List.pairwise_cons]
      refine ⟨?_, hs'⟩
      intro p hp
      rcases List.mem_cons.1 hp with rfl | hp
      · exact Nat.le_of_lt h
      · have := hs.1 p hp
        simp only at this ⊢
        omega
    · rw [SortedBag, List.pairwise_cons]
      refine ⟨?_, ih hs.2⟩
      intro p hp
      rcases List.mem_cons.1 ((add_perm s k v).mem_iff.1 hp) with rfl | hp
      · simp only; omega
      · exact hs.1 p hp

end Bag

namespace Project

theorem addNotes_perm (s : Bag Note) (l : List Note) :
    (addNotes s l).Perm (l.map (fun n => (n.startTick, n)) ++ s) := by
  induction l generalizing s with
  | nil => exact List.Perm.refl _
  | cons n l ih =>
    refine (ih (s.add n.startTick n)).trans ?_
    refine ((Bag.add_perm s n.startTick n).append_left _).trans ?_
    exact List.perm_middle

theorem sorted_addNotes {s : Bag Note} (hs : SortedBag s) (l : List Note) : SortedBag (addNotes s l) := by
  induction l generalizing s with
  | nil => exact hs
  | cons n l ih => exact ih (Bag.sorted_add hs _ _)

theorem removeNotes_sublist (s : Bag Note) (l : List Note) : (removeNotes s l).Sublist s := by
  induction l generalizing s with
  | nil => exact List.Sublist.refl _
  | cons n l ih => exact (ih _).trans List.erase_sublist

theorem startTick_le (n : Note) : n.startTick ≤ U32_MAX := by
  simp only [Note.startTick]
  split
  · omega
  · exact asU32_lt _

theorem notes_swap_wf {s : Bag Note} (h1 : SortedBag s) (h2 : Keyed Note.startTick s) (o i : List Note) :
    SortedBag (addNotes (removeNotes s o) i) ∧ Keyed Note.startTick (addNotes (removeNotes s o) i) := by
  refine ⟨sorted_addNotes (List.Pairwise.sublist (removeNotes_sublist s o) h1) i, ?_⟩
  intro q hq
  rw [(addNotes_perm _ _).mem_iff, List.mem_append, List.mem_map] at hq
  rcases hq with ⟨n, -, rfl⟩ | hq
  · exact ⟨rfl, startTick_le n⟩
  · exact h2 q ((removeNotes_sublist s o).subset hq)

def kv (n : Note) : Nat × Note := (n.startTick, n)

theorem count_addNotes (s : Bag Note) (l : List Note) (a : Nat × Note) :
    (addNotes s l).count a = (l.map kv).count a + s.count a := by
  rw [(addNotes_perm s l).count_eq, List.count_append]
  rfl

theorem count_removeNotes (s : Bag Note) (l : List Note) (a : Nat × Note) :
    (removeNotes s l).count a = s.count a - (l.map kv).count a := by
  induction l generalizing s with
  | nil => simp [removeNotes]
  | cons n l ih =>
    have : removeNotes s (n :: l) = removeNotes (s.erase (kv n)) l := rfl
    rw [this, ih, List.count_erase, List.map_cons, List.count_cons]
    omega

theorem bulkAdd_notes (s : Bag Note) (l : List Note) :
    s.bulkAdd (l.map (fun n : Note => (n.startTick, n))) = addNotes s l := by
  simp only [Bag.bulkAdd, addNotes, List.foldl_map]

theorem bulkRemove_notes (s : Bag Note) (l : List Note) :
    s.bulkRemove (l.map (fun n : Note => (n.startTick, n))) = removeNotes s l := by
  simp only [Bag.bulkRemove, removeNotes, List.foldl_map]

/-- Removing what was there and adding it again. -/
theorem count_kv {p : Project} (h : Keyed Note.startTick p.notes) (n : Note) :
    p.notes.count (kv n) = (p.notes.map (·.2)).count n := by
  generalize p.notes = s at *
  induction s with
  | nil => rfl
  | cons q s ih =>
    have hq := (h q (by simp)).1
    rw [List.map_cons, List.count_cons, List.count_cons, ih (fun r hr => h r (by simp [hr]))]
    congr 1
    obtain ⟨a, b⟩ := q
    simp only at hq
    simp only [kv, beq_iff_eq, Prod.mk.injEq]
    by_cases hb : b = n
    · subst hb; simp [hq]
    · simp [hb]

theorem count_kv_list (l : List Note) (n : Note) : (l.map kv).count (kv n) = l.count n := by
  induction l with
  | nil => rfl
  | cons q s ih =>
    rw [List.map_cons, List.count_cons, List.count_cons, ih]
    congr 1
    simp only [kv, beq_iff_eq, Prod.mk.injEq]
    by_cases hb : q = n
    · subst hb; simp
    · simp [hb]

theorem count_kv_other (l : List Note) (a : Nat × Note) (h : a.1 ≠ a.2.startTick) : (l.map kv).count a = 0 := by
  rw [List.count_eq_zero, List.mem_map]
  rintro ⟨n, -, rfl⟩
  exact h rfl

theorem notes_undo {p : Project} (h : Keyed Note.startTick p.notes) (o i : List Note)
    (hp : ∀ n, o.count n ≤ (p.notes.map (·.2)).count n) :
    (addNotes (removeNotes (addNotes (removeNotes p.notes o) i) i) o).Perm p.notes := by
  rw [List.perm_iff_count]
  intro a
  have hle : (o.map kv).count a ≤ p.notes.count a := by
    by_cases ha : a.1 = a.2.startTick
    · have : a = kv a.2 := by simp only [kv, ← ha]
      rw [this, count_kv_list, count_kv h]
      exact hp a.2
    · rw [count_kv_other _ _ ha]; omega
  simp only [count_addNotes, count_removeNotes]
  omega

/-- `Same` notes stay the same under removing and adding. -/
theorem notes_swap_perm {s t : Bag Note} (h : s.Perm t) (o i : List Note) :
    (addNotes (removeNotes s o) i).Perm (addNotes (removeNotes t o) i) := by
  rw [List.perm_iff_count]
  intro a
  simp only [count_addNotes, count_removeNotes, h.count_eq]

end Project

/-! ### Stores -/
namespace Project
variable {V : Type}

/-- The last item of a list with a given tick. -/
def lastWith (tick : V → Nat) (l : List V) (k : Nat) : Option V :=
  l.foldl (fun acc v => if tick v = k then some v else acc) none

theorem foldl_lastWith (tick : V → Nat) (l : List V) (k : Nat) (acc : Option V) :
    l.foldl (fun acc v => if tick v = k then some v else acc) acc = (lastWith tick l k).or acc := by
  induction l generalizing acc with
  | nil => simp [lastWith]
  | cons v l ih =>
    simp only [lastWith, List.foldl_cons]
    rw [ih, ih (if tick v = k then some v else none)]
    split <;> simp

theorem lastWith_cons (tick : V → Nat) (v : V) (l : List V) (k : Nat) :
    lastWith tick (v :: l) k = (lastWith tick l k).or (if tick v = k then some v else none) := by
  conv => lhs; simp only [lastWith, List.foldl_cons]
  rw [foldl_lastWith]

theorem lastWith_append (tick : V → Nat) (l m : List V) (k : Nat) :
    lastWith tick (l ++ m) k = (lastWith tick m k).or (lastWith tick l k) := by
  conv => lhs; simp only [lastWith, List.foldl_append]
  rw [foldl_lastWith]
  rfl

theorem lastWith_some {tick : V → Nat} {l : List V} {k : Nat} {v : V} (h : lastWith tick l k = some v) :
    v ∈ l ∧ tick v = k := by
  induction l with
  | nil => simp [lastWith] at h
  | cons w l ih =>
    rw [lastWith_cons, Option.or_eq_some_iff] at h
    rcases h with h | ⟨-, h⟩
    · exact ⟨by simp [(ih h).1], (ih h).2⟩
    · split at h
      · next he =>
        cases h
        exact ⟨by simp, he⟩
      · cases h

theorem lastWith_none {tick : V → Nat} {l : List V} {k : Nat} : lastWith tick l k = none ↔ ∀ v ∈ l, tick v ≠ k := by
  induction l with
  | nil => simp [lastWith]
  | cons w l ih =>
    rw [lastWith_cons, Option.or_eq_none_iff, ih]
    simp only [List.mem_cons, forall_eq_or_imp]
    constructor
    · rintro ⟨h1, h2⟩
      exact ⟨(by intro he; rw [if_pos he] at h2; cases h2), h1⟩
    · rintro ⟨h1, h2⟩
      exact ⟨h2, if_neg h1⟩

theorem lastWith_iff {V : Type} (tick : V → Nat) (l : List V) (k : Nat) (v : V) :
    lastWith tick l k = some v ↔ LastAt tick l k v := by
  constructor
  · intro h
    induction l with
    | nil => simp [lastWith] at h
    | cons w l ih =>
      rw [lastWith_cons] at h
      cases hl : lastWith tick l k with
      | some x =>
        rw [hl] at h
        simp only [Option.some_or, Option.some.injEq] at h
        subst h
        obtain ⟨a, b, h1, h2, h3⟩ := ih hl
        exact ⟨w :: a, b, by rw [h1]; rfl, h2, h3⟩
      | none =>
        rw [hl, Option.none_or] at h
        split at h
        · next hk =>
          cases h
          exact ⟨[], l, rfl, hk, lastWith_none.1 hl⟩
        · cases h
  · rintro ⟨a, b, rfl, h2, h3⟩
    rw [lastWith_append, lastWith_cons, lastWith_none.2 h3, if_pos h2]
    rfl

theorem lastWith_of_mem {tick : V → Nat} {l : List V} (hd : (l.map tick).Nodup) {v : V} (hv : v ∈ l) :
    lastWith tick l (tick v) = some v := by
  induction l with
  | nil => simp at hv
  | cons w l ih =>
    rw [List.map_cons, List.nodup_cons] at hd
    rw [lastWith_cons]
    rcases List.mem_cons.1 hv with rfl | hv
    · have : lastWith tick l (tick v) = none := by
        rw [lastWith_none]
        intro w hw he
        exact hd.1 (by rw [List.mem_map]; exact ⟨w, hw, he⟩)
      simp [this]
    · simp [ih hd.2 hv]

theorem get?_addItems (tick : V → Nat) (s : Store V) (l : List V) (k : Nat) :
    (addItems tick s l).get? k = (lastWith tick l k).or (s.get? k) := by
  induction l generalizing s with
  | nil => simp [addItems, lastWith]
  | cons v l ih =>
    have : addItems tick s (v :: l) = addItems tick (s.add (tick v) v) l := rfl
    rw [this, ih, Store.get?_add, lastWith_cons]
    cases lastWith tick l k with
    | some w => simp
    | none =>
      simp only [Option.none_or]
      split <;> simp

theorem sorted_addItems (tick : V → Nat) {s : Store V} (hs : SortedStore s) (l : List V) :
    SortedStore (addItems tick s l) := by
  induction l generalizing s with
  | nil => exact hs
  | cons v l ih => exact ih (Store.sorted_add hs _ _)

theorem keyed_addItems (tick : V → Nat) {s : Store V} (hs : Keyed tick s) (l : List V)
    (hl : ∀ v ∈ l, tick v ≤ U32_MAX) : Keyed tick (addItems tick s l) := by
  induction l generalizing s with
  | nil => exact hs
  | cons v l ih =>
    apply ih _ (fun w hw => hl w (by simp [hw]))
    intro q hq
    rcases Store.mem_add hq with rfl | hq
    · exact ⟨rfl, hl v (by simp)⟩
    · exact hs q hq

theorem removeItems_sublist (tick : V → Nat) (s : Store V) (l : List V) : (removeItems tick s l).Sublist s := by
  induction l generalizing s with
  | nil => exact List.Sublist.refl _
  | cons v l ih => exact (ih _).trans (Store.remove_sublist _ _)

theorem sorted_removeItems (tick : V → Nat) {s : Store V} (hs : SortedStore s) (l : List V) :
    SortedStore (removeItems tick s l) := List.Pairwise.sublist (removeItems_sublist tick s l) hs

theorem keyed_removeItems (tick : V → Nat) {s : Store V} (hs : Keyed tick s) (l : List V) :
    Keyed tick (removeItems tick s l) := fun q hq => hs q ((removeItems_sublist tick s l).subset hq)

theorem get?_removeItems (tick : V → Nat) {s : Store V} (hs : SortedStore s) (l : List V) (k : Nat) :
    (removeItems tick s l).get? k = if (lastWith tick l k).isSome then none else s.get? k := by
  induction l generalizing s with
  | nil => simp [removeItems, lastWith]
  | cons v l ih =>
    have : removeItems tick s (v :: l) = removeItems tick (s.remove (tick v)) l := rfl
    rw [this, ih (Store.sorted_remove hs _), Store.get?_remove hs, lastWith_cons]
    cases lastWith tick l k with
    | some w => simp
    | none =>
      simp only [Option.none_or]
      by_cases h : tick v = k <;> simp [h]

theorem store_swap_wf (tick : V → Nat) {s : Store V} (h1 : SortedStore s) (h2 : Keyed tick s) (o i : List V)
    (hi : ∀ v ∈ i, tick v ≤ U32_MAX) :
    SortedStore (addItems tick (removeItems tick s o) i) ∧ Keyed tick (addItems tick (removeItems tick s o) i) :=
  ⟨sorted_addItems tick (sorted_removeItems tick h1 o) i,
   keyed_addItems tick (keyed_removeItems tick h2 o) i hi⟩

/-! ### `bulk_add` -/

theorem bulkAdd_fst (tick : V → Nat) (s : Store V) (l : List V) :
    (s.bulkAdd (l.map (fun v => (tick v, v)))).1 = addItems tick s l := by
  induction l generalizing s with
  | nil => rfl
  | cons v l ih => exact ih _

/-- The overwritten items carry ticks of added items. -/
theorem bulkAdd_snd_keyed (tick : V → Nat) {s : Store V} (h : Keyed tick s) (l : List V)
    (hl : ∀ v ∈ l, tick v ≤ U32_MAX) :
    ∀ q ∈ (s.bulkAdd (l.map (fun v => (tick v, v)))).2, q.1 = tick q.2 ∧ ∃ v ∈ l, tick v = tick q.2 := by
  induction l generalizing s with
  | nil => intro q hq; simp [Store.bulkAdd] at hq
  | cons v l ih =>
    intro q hq
    have ihh := ih (s := s.add (tick v) v) (by
      intro r hr
      rcases Store.mem_add hr with rfl | hr
      · exact ⟨rfl, hl v (by simp)⟩
      · exact h r hr) (fun w hw => hl w (by simp [hw]))
    simp only [List.map_cons, Store.bulkAdd] at hq
    cases hg : s.get? (tick v) with
    | none =>
      rw [hg] at hq
      obtain ⟨a, w, hw, e⟩ := ihh q hq
      exact ⟨a, w, by simp [hw], e⟩
    | some w =>
      rw [hg] at hq
      rcases List.mem_cons.1 hq with rfl | hq
      · have := (h _ (Store.mem_of_get? hg)).1
        simp only at this
        exact ⟨this, v, by simp, this⟩
      · obtain ⟨a, w, hw, e⟩ := ihh q hq
        exact ⟨a, w, by simp [hw], e⟩

/-- With distinct ticks the overwritten items are the ones that were there. -/
theorem bulkAdd_snd_lastWith (tick : V → Nat) {s : Store V} (h : Keyed tick s) (l : List V)
    (hd : (l.map tick).Nodup) (k : Nat) :
    lastWith tick ((s.bulkAdd (l.map (fun v => (tick v, v)))).2.map (·.2)) k =
      if (lastWith tick l k).isSome then s.get? k else none := by
  have aux : ∀ (l : List V) (s : Store V), (∀ q ∈ s, (∃ v ∈ l, tick v = q.1) → q.1 = tick q.2) →
      (l.map tick).Nodup →
      lastWith tick ((s.bulkAdd (l.map (fun v => (tick v, v)))).2.map (·.2)) k =
        if (lastWith tick l k).isSome then s.get? k else none := by
    intro l
    induction l with
    | nil => intro s _ _; simp [Store.bulkAdd, lastWith]
    | cons v l ih =>
      intro s hs hd
      rw [List.map_cons, List.nodup_cons] at hd
      have hv : ∀ w ∈ l, tick w ≠ tick v := by
        intro w hw he
        exact hd.1 (by rw [List.mem_map]; exact ⟨w, hw, he⟩)
      have hih := ih (s.add (tick v) v) (by
        intro q hq ⟨w, hw, hwq⟩
        rcases Store.mem_add hq with rfl | hq
        · rfl
        · exact hs q hq ⟨w, by simp [hw], hwq⟩) hd.2
      rw [Store.get?_add] at hih
      rw [lastWith_cons]
      simp only [List.map_cons, Store.bulkAdd]
      by_cases hk : tick v = k
      · have hnone : lastWith tick l k = none := by
          rw [lastWith_none]; intro w hw; rw [← hk]; exact hv w hw
        rw [hnone] at hih
        simp only [Option.isSome_none, Bool.false_eq_true, if_false] at hih
        rw [hnone, if_pos hk]
        simp only [Option.none_or, Option.isSome_some, if_true]
        subst hk
        cases hg : s.get? (tick v) with
        | none => exact hih
        | some w =>
          have := hs _ (Store.mem_of_get? hg) ⟨v, by simp, rfl⟩
          simp only at this
          simp only [List.map_cons]
          rw [lastWith_cons, hih, if_pos this.symm]
          rfl
      · rw [if_neg hk, Option.or_none]
        rw [if_neg hk] at hih
        cases hg : s.get? (tick v) with
        | none => exact hih
        | some w =>
          have := hs _ (Store.mem_of_get? hg) ⟨v, by simp, rfl⟩
          simp only at this
          simp only [List.map_cons]
          rw [lastWith_cons, hih, if_neg (show ¬ tick w = k by rw [← this]; exact hk), Option.or_none]
  exact aux l s (fun q hq _ => (h q hq).1) hd

/-! ### `change` -/

theorem change_fst (tick : V → Nat) (s : Store V) (c : List (V × V)) :
    (s.change (c.map (fun x => (tick x.1, (tick x.2, x.2))))).1 =
      addItems tick (removeItems tick s (c.map (·.1))) (c.map (·.2)) := by
  simp only [Store.change, List.foldl_map, List.map_map]
  rw [← bulkAdd_fst]
  simp only [removeItems, List.foldl_map, List.map_map]
  rfl

theorem change_snd (tick : V → Nat) (s : Store V) (c : List (V × V)) :
    (s.change (c.map (fun x => (tick x.1, (tick x.2, x.2))))).2 =
      ((removeItems tick s (c.map (·.1))).bulkAdd ((c.map (·.2)).map (fun v => (tick v, v)))).2 := by
  simp only [Store.change, List.foldl_map, List.map_map, removeItems]
  rfl

/-! ### Undo and redo of one store

`R` = items recorded as removed, `A` = items recorded as added, the edit itself
having removed `f` and added `A`. -/

theorem store_redo (tick : V → Nat) {s : Store V} (hs : SortedStore s) (f o A : List V)
    (ho : ∀ v ∈ o, ∃ w ∈ A, tick w = tick v) :
    addItems tick (removeItems tick s (f ++ o)) A = addItems tick (removeItems tick s f) A := by
  apply Store.ext (sorted_addItems tick (sorted_removeItems tick hs _) _)
    (sorted_addItems tick (sorted_removeItems tick hs _) _)
  intro k
  rw [get?_addItems, get?_addItems, get?_removeItems tick hs, get?_removeItems tick hs, lastWith_append]
  cases hA : lastWith tick A k with
  | some w => simp
  | none =>
    have : lastWith tick o k = none := by
      rw [lastWith_none] at hA ⊢
      intro v hv he
      obtain ⟨w, hw, hwe⟩ := ho v hv
      exact hA w hw (hwe.trans he)
    simp only [this, Option.none_or]

theorem store_undo (tick : V → Nat) {s : Store V} (hs : SortedStore s) (f o A B : List V)
    (hf : ∀ v ∈ f, s.get? (tick v) = some v)
    (ho : ∀ k, lastWith tick o k =
      if (lastWith tick A k).isSome then (removeItems tick s f).get? k else none)
    (hB : ∀ v ∈ B, (addItems tick (removeItems tick s f) A).get? (tick v) = none) :
    addItems tick (removeItems tick (addItems tick (removeItems tick s f) (A ++ B)) (A ++ B)) (f ++ o) = s := by
  have h1 := sorted_removeItems tick hs f
  have h2 := sorted_addItems tick h1 (A ++ B)
  apply Store.ext (sorted_addItems tick (sorted_removeItems tick h2 _) _) hs
  intro k
  rw [get?_addItems, get?_removeItems tick h2, get?_addItems, lastWith_append, lastWith_append, ho,
    get?_removeItems tick hs]
  cases hff : lastWith tick f k with
  | some v =>
    obtain ⟨hv, rfl⟩ := lastWith_some hff
    simp [hf v hv]
  | none =>
    simp only [Option.or_none, Option.isSome_none, Bool.false_eq_true, if_false]
    cases hA : lastWith tick A k with
    | some w =>
      simp
    | none =>
      simp only [Option.isSome_none, Bool.false_eq_true, if_false, Option.or_none, Option.none_or]
      cases hBk : lastWith tick B k with
      | none => simp
      | some w =>
        obtain ⟨hw, rfl⟩ := lastWith_some hBk
        have := hB w hw
        rw [get?_addItems, get?_removeItems tick hs, hA, hff] at this
        simp only [Option.isSome_none, Bool.false_eq_true, if_false, Option.none_or] at this
        simp [this]

end Project
end Klavier
