import Verif.Spec.Undo

/-! # C25: the bounded undo store -/
set_option autoImplicit false
namespace Klavier
open Spec
variable {U : Type}

/-- The store represents the two stacks. -/
structure Represents (cap : Nat) (s : UndoStore U) (t : Stacks U) : Prop where
  capacity : s.capacity = cap
  index : s.index ≤ s.store.length
  len : s.store.length ≤ cap
  undo : t.undo = s.store.drop s.index
  redo : t.redo = (s.store.take s.index).reverse
  frozen : t.frozen = s.isFreezed

private theorem dropLast_take (l : List U) (n : Nat) (h : l.length = n + 1) : l.dropLast = l.take n := by
  rw [List.dropLast_eq_take, h]; rfl

private theorem call_represents {cap : Nat} (hc : 0 < cap) {s : UndoStore U} {t : Stacks U}
    (h : Represents cap s t) (c : UndoCall U) :
    Represents cap (storeCall s c).1 (t.call cap c).1 ∧ (storeCall s c).2 = (t.call cap c).2 := by
  obtain ⟨store, capacity, index, fr⟩ := s
  obtain ⟨tu, tr, tf⟩ := t
  obtain ⟨h1, h2, h3, h4, h5, h6⟩ := h
  simp only at h1 h2 h3 h4 h5 h6
  subst h1 h4 h5 h6
  cases c with
  | add u =>
    simp only [storeCall, UndoStore.add, Stacks.call]
    cases tf with
    | true => exact ⟨⟨rfl, h2, h3, rfl, rfl, rfl⟩, rfl⟩
    | false =>
      simp only [Bool.false_eq_true, if_false]
      refine ⟨?_, by simp⟩
      have key : (if index ≠ 0 then (⟨store.drop index, capacity, 0, false⟩ : UndoStore U)
          else ⟨store, capacity, index, false⟩) = ⟨store.drop index, capacity, 0, false⟩ := by
        by_cases hi : index = 0
        · subst hi; simp
        · rw [if_pos hi]
      rw [key]
      simp only
      have hl : (store.drop index).length ≤ capacity := by rw [List.length_drop]; omega
      generalize store.drop index = d at *
      obtain ⟨n, rfl⟩ : ∃ n, capacity = n + 1 := ⟨capacity - 1, by omega⟩
      by_cases hf : n + 1 ≤ d.length
      · rw [if_pos hf]
        have : d.dropLast = d.take n := dropLast_take d n (by omega)
        refine ⟨rfl, by simp, ?_, ?_, by simp, rfl⟩
        · simp only [List.length_cons, this, List.length_take]; omega
        · simp [this]
      · rw [if_neg hf]
        refine ⟨rfl, by simp, by simp only [List.length_cons]; omega, ?_, by simp, rfl⟩
        simp only [List.take_succ_cons, List.drop_zero]
        rw [List.take_of_length_le (by omega)]
  | undo =>
    simp only [storeCall, UndoStore.undo, Stacks.call]
    cases hg : store[index]? with
    | none =>
      have : store.drop index = [] := by
        rw [List.drop_eq_nil_iff]; exact List.getElem?_eq_none_iff.1 hg
      rw [this]
      exact ⟨⟨rfl, h2, h3, this.symm, rfl, rfl⟩, rfl⟩
    | some u =>
      obtain ⟨hlt, he⟩ := List.getElem?_eq_some_iff.1 hg
      have hd : store.drop index = u :: store.drop (index + 1) := by
        rw [List.drop_eq_getElem_cons hlt, he]
      rw [hd]
      refine ⟨⟨rfl, hlt, h3, rfl, ?_, rfl⟩, rfl⟩
      simp only
      rw [List.take_add_one, hg]
      simp
  | redo =>
    simp only [storeCall, UndoStore.redo, Stacks.call]
    by_cases hi : index = 0
    · subst hi
      simp only [ne_eq, not_true, if_false, List.take_zero, List.reverse_nil]
      exact ⟨⟨rfl, h2, h3, rfl, by simp, rfl⟩, trivial⟩
    · rw [if_pos hi]
      obtain ⟨n, rfl⟩ : ∃ n, index = n + 1 := ⟨index - 1, by omega⟩
      have hlt : n < store.length := h2
      have hg : store[n]? = some store[n] := by simp [hlt]
      have ht : (store.take (n + 1)).reverse = store[n] :: (store.take n).reverse := by
        rw [List.take_add_one, hg]; simp
      rw [ht]
      simp only [Nat.add_sub_cancel]
      refine ⟨⟨rfl, by simp only; omega, h3, ?_, rfl, rfl⟩, hg⟩
      simp only
      rw [List.drop_eq_getElem_cons hlt]
  | freeze b => exact ⟨⟨rfl, h2, h3, rfl, rfl, rfl⟩, rfl⟩

private theorem seen_represents {cap : Nat} {s : UndoStore U} {t : Stacks U} (h : Represents cap s t)
    (r : Option U) : storeSeen s r = t.seen r := by
  have hi := h.index
  simp only [storeSeen, Stacks.seen, UndoStore.canUndo, UndoStore.canRedo, UndoStore.len, h.undo, h.redo]
  congr 1
  · by_cases hlt : s.index < s.store.length
    · have : s.store.drop s.index ≠ [] := by rw [ne_eq, List.drop_eq_nil_iff]; omega
      simp [hlt]
    · have : s.store.drop s.index = [] := by rw [List.drop_eq_nil_iff]; omega
      simp [hlt, this]
  · by_cases h0 : s.index = 0
    · simp [h0]
    · have : s.store ≠ [] := by intro he; rw [he] at hi; simp at hi; exact h0 hi
      simp [h0, this]
  · simp only [List.length_drop, List.length_reverse, List.length_take]; omega

/-- C25: for every capacity of at least one and every sequence of calls, the
store is indistinguishable from an undo and a redo stack limited to the capacity:
same returned commands, same can_undo/can_redo answers, same length. -/
theorem C25_two_stacks (cap : Nat) (hc : 0 < cap) (calls : List (UndoCall U)) :
    storeTrace (UndoStore.new cap) calls = Stacks.trace cap ⟨[], [], false⟩ calls := by
  have gen : ∀ (calls : List (UndoCall U)) (s : UndoStore U) (t : Stacks U), Represents cap s t →
      storeTrace s calls = t.trace cap calls := by
    intro calls
    induction calls with
    | nil => intro s t _; rfl
    | cons c cs ih =>
      intro s t h
      obtain ⟨h1, h2⟩ := call_represents hc h c
      simp only [storeTrace, Stacks.trace]
      rw [ih _ _ h1, h2, seen_represents h1]
  exact gen calls _ _ ⟨rfl, by simp [UndoStore.new], by simp [UndoStore.new], rfl, rfl, rfl⟩

example : storeTrace (UndoStore.new 1) [.add 1, .undo, .add 2, .redo, .undo] =
    [⟨none, true, false, 1⟩, ⟨some 1, false, true, 1⟩, ⟨none, true, false, 1⟩, ⟨none, true, false, 1⟩, ⟨some 2, false, true, 1⟩] := by decide

/-- C25: `can_undo` and `can_redo` tell exactly whether a command will come back,
in every state reachable from a new store. -/
theorem C25_can (cap : Nat) (hc : 0 < cap) (calls : List (UndoCall U)) :
    let s := calls.foldl (fun s c => (storeCall s c).1) (UndoStore.new (U := U) cap)
    (s.canUndo = s.undo.2.isSome) ∧ (s.canRedo = s.redo.2.isSome) ∧ s.len ≤ cap := by
  have gen : ∀ (calls : List (UndoCall U)) (s : UndoStore U) (t : Stacks U), Represents cap s t →
      ∃ t', Represents cap (calls.foldl (fun s c => (storeCall s c).1) s) t' := by
    intro calls
    induction calls with
    | nil => intro s t h; exact ⟨t, h⟩
    | cons c cs ih => intro s t h; exact ih _ _ (call_represents hc h c).1
  obtain ⟨t, ht⟩ := gen calls (UndoStore.new cap) ⟨[], [], false⟩
    ⟨rfl, by simp [UndoStore.new], by simp [UndoStore.new], rfl, rfl, rfl⟩
  intro s
  have hi := ht.index
  change s.index ≤ s.store.length at hi
  refine ⟨?_, ?_, ht.len⟩
  · simp only [UndoStore.canUndo, UndoStore.undo]
    cases hg : s.store[s.index]? with
    | none =>
      have := List.getElem?_eq_none_iff.1 hg
      simp; omega
    | some u =>
      obtain ⟨hlt, -⟩ := List.getElem?_eq_some_iff.1 hg
      simp [hlt]
  · simp only [UndoStore.canRedo, UndoStore.redo]
    by_cases h0 : s.index = 0
    · simp [h0]
    · rw [if_pos h0]
      have hlt : s.index - 1 < s.store.length := by omega
      simp [h0, hlt]

example : let s := [UndoCall.add 1, .add 2, .undo].foldl (fun s c => (storeCall s c).1) (UndoStore.new (U := Nat) 5)
    s.undo.2 = some 1 ∧ s.redo.2 = some 2 ∧ s.len = 2 := by decide

/-- C25: what `iter` yields after any calls is the commands that can be redone, the
last that would be redone first, and then those that can be undone, in the order in
which they would be. -/
theorem C25_iter (cap : Nat) (hc : 0 < cap) (calls : List (UndoCall U)) :
    let t := calls.foldl (fun t c => (t.call cap c).1) (⟨[], [], false⟩ : Stacks U)
    (calls.foldl (fun s c => (storeCall s c).1) (UndoStore.new (U := U) cap)).iter = t.redo.reverse ++ t.undo := by
  have gen : ∀ (calls : List (UndoCall U)) (s : UndoStore U) (t : Stacks U), Represents cap s t →
      Represents cap (calls.foldl (fun s c => (storeCall s c).1) s) (calls.foldl (fun t c => (t.call cap c).1) t) := by
    intro calls
    induction calls with
    | nil => intro s t h; exact h
    | cons c cs ih => intro s t h; exact ih _ _ (call_represents hc h c).1
  have h := gen calls (UndoStore.new cap) ⟨[], [], false⟩
    ⟨rfl, by simp [UndoStore.new], by simp [UndoStore.new], rfl, rfl, rfl⟩
  intro t
  rw [show t.redo = _ from h.redo, show t.undo = _ from h.undo, List.reverse_reverse, List.take_append_drop]
  rfl

example : ([UndoCall.add 1, .add 2, .add 3, .undo, .undo].foldl (fun s c => (storeCall s c).1)
    (UndoStore.new (U := Nat) 5)).iter = [3, 2, 1] := by decide

/-- C25: the capacity zero is not honoured: whatever is called, such a store behaves
as one of capacity one. -/
theorem C25_zero_capacity (calls : List (UndoCall U)) :
    storeTrace (UndoStore.new 0) calls = Stacks.trace 1 ⟨[], [], false⟩ calls := by
  have gen : ∀ (calls : List (UndoCall U)) (store : List U) (i : Nat) (f : Bool), store.length ≤ 1 →
      storeTrace ⟨store, 0, i, f⟩ calls = storeTrace ⟨store, 1, i, f⟩ calls := by
    intro calls
    induction calls with
    | nil => intro _ _ _ _; rfl
    | cons c cs ih =>
      intro store i f hl
      cases c with
      | add u =>
        cases f with
        | true => exact congrArg _ (ih store i true hl)
        | false =>
          have e : ∀ (st : List U) (k cap : Nat), st.length ≤ 1 → cap ≤ 1 →
              (UndoStore.add ⟨st, cap, k, false⟩ u) = ⟨[u], cap, 0, false⟩ := by
            intro st k cap h1 h2
            have h3 : (st.drop k).length ≤ 1 := by rw [List.length_drop]; omega
            have key : (if k ≠ 0 then (⟨st.drop k, cap, 0, false⟩ : UndoStore U)
                else ⟨st, cap, k, false⟩) = ⟨st.drop k, cap, 0, false⟩ := by
              by_cases hi : k = 0
              · subst hi; simp
              · rw [if_pos hi]
            simp only [UndoStore.add, Bool.false_eq_true, if_false]
            rw [key]
            match hd : st.drop k with
            | [] => by_cases hcap : cap ≤ 0 <;> simp [hcap]
            | [x] => simp [h2]
            | _ :: _ :: _ => rw [hd] at h3; simp at h3
          simp only [storeTrace, storeCall, e store i 0 hl (by omega), e store i 1 hl (by omega)]
          exact congrArg _ (ih [u] 0 false (by simp))
      | undo =>
        simp only [storeTrace, storeCall, UndoStore.undo]
        cases store[i]? with
        | none => exact congrArg _ (ih store i f hl)
        | some u => exact congrArg _ (ih store (i + 1) f hl)
      | redo =>
        simp only [storeTrace, storeCall, UndoStore.redo]
        by_cases hi : i = 0
        · subst hi; exact congrArg _ (ih store 0 f hl)
        · simp only [ne_eq, hi, not_false_eq_true, if_true]
          exact congrArg _ (ih store (i - 1) f hl)
      | freeze b => exact congrArg _ (ih store i b hl)
  rw [← C25_two_stacks 1 (by decide) calls]
  exact gen calls [] 0 false (by simp)

example : storeTrace (UndoStore.new 0) [.add 1, .undo, .add 2, .add 3, .undo, .redo] =
    [⟨none, true, false, 1⟩, ⟨some 1, false, true, 1⟩, ⟨none, true, false, 1⟩, ⟨none, true, false, 1⟩,
     ⟨some 3, false, true, 1⟩, ⟨some 3, true, false, 1⟩] := by decide

/-- C25: the default store keeps the last hundred commands. -/
theorem C25_default (calls : List (UndoCall U)) :
    storeTrace UndoStore.default calls = Stacks.trace 100 ⟨[], [], false⟩ calls := C25_two_stacks 100 (by decide) calls

example : storeTrace (UndoStore.new 2) [.add 1, .add 2, .add 3, .undo, .undo, .undo, .redo] =
    [⟨none, true, false, 1⟩, ⟨none, true, false, 2⟩, ⟨none, true, false, 2⟩, ⟨some 3, true, true, 2⟩,
     ⟨some 2, false, true, 2⟩, ⟨none, false, true, 2⟩, ⟨some 2, true, true, 2⟩] := by decide

end Klavier
