import Verif.Lemmas.Portions

/-! # C80: editing in portions -/
set_option autoImplicit false
namespace Klavier
open Spec Project

/-- C80 (partial: with bars in the second portion it is false, `C80_portions_false`): a
selection added in two portions gives exactly the project that it gives when it is added at
once, and one way succeeds exactly if the other does; the bars completed after the first
portion make no difference. -/
theorem C80_portions_partial (p p2 : Project) (m n : Models) (md md' md'' : Metadata) (h : WF p) (hm : Ticks32 m) (hn : Ticks32 n)
    (hv : ValidNotes p) (hvm : ∀ a ∈ m.notes, ValidLength a) (hvn : ∀ a ∈ n.notes, ValidLength a) (hb : n.bars = []) :
    (∃ p1 c c', p.exec (.bulkAdd m md) = .ok (some (p1, c)) ∧ p1.exec (.bulkAdd n md') = .ok (some (p2, c'))) ↔
      ∃ c, p.exec (.bulkAdd (together m n) md'') = .ok (some (p2, c)) := by
  have w1 := swap_wf h {} m hm
  have w2 := swap_wf w1 {} n hn
  have v1 := valid_swap hv m hvm
  have v2 := valid_swap v1 n hvn
  rw [exec_bulkAdd, swap_together,
    ← replenish_twice w1 w2 v1 v2 (by simp only [swap, hb]; rfl) rfl (fun x hx => covered_before w1 n x hx) p2]
  have e : ∀ p1 bs, (p.swap {} m).replenishBars = .ok (p1, bs) →
      p1.swap {} n = { (p.swap {} m).swap {} n with bars := p1.bars } := by
    intro p1 bs hr
    rw [← swap_bars _ _ _ hb]
    congr 1
    exact (replenish_shape w1 hr).1 ▸ rfl
  constructor
  · rintro ⟨p1, c, c', h1, h2⟩
    obtain ⟨bs, h1⟩ := (exec_bulkAdd p p1 m md).1 ⟨c, h1⟩
    obtain ⟨bs', h2⟩ := (exec_bulkAdd p1 p2 n md').1 ⟨c', h2⟩
    exact ⟨p1, bs, bs', h1, by rw [← e p1 bs h1]; exact h2⟩
  · rintro ⟨p1, bs, bs', h1, h2⟩
    rw [← e p1 bs h1] at h2
    obtain ⟨c, h1⟩ := (exec_bulkAdd p p1 m md).2 ⟨bs, h1⟩
    obtain ⟨c', h2⟩ := (exec_bulkAdd p1 p2 n md').2 ⟨bs', h2⟩
    exact ⟨p1, c, c', h1, h2⟩

/-- C80, one thing at a time: adding a note, a tempo or a pedal by its own function gives the
project that adding it as a selection gives. -/
theorem C80_single (p p' : Project) (md : Metadata) (sel : Bool) :
    (∀ a, (∃ c, p.exec (.addNote a sel) = .ok (some (p', c))) ↔ ∃ c, p.exec (.bulkAdd { notes := [a] } md) = .ok (some (p', c))) ∧
    (∀ a, (∃ c, p.exec (.addTempo a sel) = .ok (some (p', c))) ↔ ∃ c, p.exec (.bulkAdd { tempos := [a] } md) = .ok (some (p', c))) ∧
    (∀ a, (∃ c, p.exec (.addDumper a sel) = .ok (some (p', c))) ↔ ∃ c, p.exec (.bulkAdd { dumpers := [a] } md) = .ok (some (p', c))) ∧
    (∀ a, (∃ c, p.exec (.addSoft a sel) = .ok (some (p', c))) ↔ ∃ c, p.exec (.bulkAdd { softs := [a] } md) = .ok (some (p', c))) := by
  refine ⟨fun a => ?_, fun a => ?_, fun a => ?_, fun a => ?_⟩ <;> rw [exec_bulkAdd] <;>
    simp only [exec, addNote, addTempo, addDumper, addSoft, R_bind_eq_ok] <;> constructor
  all_goals first
    | (rintro ⟨c, ⟨q, d⟩, ⟨⟨q2, bs⟩, h1, h2⟩, h3⟩
       cases h2; cases h3
       exact ⟨bs, h1⟩)
    | (rintro ⟨bs, h1⟩
       exact ⟨_, _, ⟨_, h1, rfl⟩, rfl⟩)

/-- C80 (partial: false for things that take each other's place, `C80_order_false`): the order
in which two portions are added does not matter, except to the order of notes at the same
tick. -/
theorem C80_order_partial (p p1 p2 : Project) (m n : Models) (md md' : Metadata) (c c' : ProjectCmd) (h : WF p)
    (hm : Ticks32 m) (hn : Ticks32 n) (hv : ValidNotes p) (hvm : ∀ a ∈ m.notes, ValidLength a)
    (hvn : ∀ a ∈ n.notes, ValidLength a) (hbm : m.bars = []) (hbn : n.bars = []) (ha : Apart m n)
    (h1 : p.exec (.bulkAdd m md) = .ok (some (p1, c))) (h2 : p1.exec (.bulkAdd n md') = .ok (some (p2, c'))) :
    ∃ q1 q2 d d', p.exec (.bulkAdd n md') = .ok (some (q1, d)) ∧ q1.exec (.bulkAdd m md) = .ok (some (q2, d')) ∧ Same p2 q2 ∧
      ((∀ a ∈ m.notes, ∀ b ∈ n.notes, a.startTick ≠ b.startTick) → q2 = p2) := by
  obtain ⟨x, hx⟩ := (C80_portions_partial p p2 m n md md' md h hm hn hv hvm hvn hbn).1 ⟨p1, c, c', h1, h2⟩
  obtain ⟨bs, hx⟩ := (exec_bulkAdd _ _ _ _).1 ⟨x, hx⟩
  rw [swap_together] at hx
  have w1 := swap_wf (swap_wf h {} m hm) {} n hn
  have w2 := swap_wf (swap_wf h {} n hn) {} m hm
  have v := valid_swap (valid_swap hv m hvm) n hvn
  have hsame := swap_comm h ha
  obtain ⟨hy, hp2⟩ := replenish_same w1 w2 v hsame hx
  rw [← swap_together] at hy
  obtain ⟨y, hy⟩ := (exec_bulkAdd p _ (together n m) md).2 ⟨_, hy⟩
  obtain ⟨q1, d, d', g1, g2⟩ := (C80_portions_partial p _ n m md' md md h hn hm hv hvn hvm hbm).2 ⟨y, hy⟩
  refine ⟨q1, _, d, d', g1, g2, ?_, ?_⟩
  · rw [hp2, swap_together]
    exact ⟨hsame.rhythm, hsame.key, hsame.grid, hsame.notes, rfl, hsame.tempos, hsame.dumpers, hsame.softs⟩
  · intro hnotes
    have e : (p.swap {} n).swap {} m = (p.swap {} m).swap {} n := by
      have := addNotes_comm p.notes m.notes n.notes hnotes
      have g := hsame
      simp only [swap] at g ⊢
      rw [Project.mk.injEq]
      exact ⟨rfl, rfl, rfl, this.symm, g.bars.symm, g.tempos.symm, g.dumpers.symm, g.softs.symm⟩
    rw [swap_together, e]
    exact hp2.symm

private theorem comm_iff {V : Type} (tick : V → Nat) {s : Store V} (hs : SortedStore s) (l l' : List V) :
    addItems tick (addItems tick s l) l' = addItems tick (addItems tick s l') l ↔
      ∀ k a b, LastAt tick l k a → LastAt tick l' k b → a = b := by
  simp only [← lastWith_iff]
  constructor
  · intro e k a b h1 h2
    have h3 := congrArg (fun x => Store.get? x k) e
    simp only [get?_addItems, h1, h2, Option.some_or, Option.some.injEq] at h3
    exact h3.symm
  · intro h
    refine Store.ext (sorted_addItems _ (sorted_addItems _ hs _) _) (sorted_addItems _ (sorted_addItems _ hs _) _) ?_
    intro k
    simp only [get?_addItems]
    cases h1 : lastWith tick l k with
    | none => simp
    | some a =>
      cases h2 : lastWith tick l' k with
      | none => simp
      | some b => simp [h k a b h1 h2]

private theorem keys_comm {V : Type} (tick : V → Nat) {s : Store V} (hs : SortedStore s) (l l' : List V) {q : Nat × V}
    (hq : q ∈ addItems tick (addItems tick s l) l') : ∃ q' ∈ addItems tick (addItems tick s l') l, q'.1 = q.1 := by
  obtain ⟨k, v⟩ := q
  have h1 := Store.get?_of_mem (sorted_addItems _ (sorted_addItems _ hs _) _) hq
  cases h2 : Store.get? (addItems tick (addItems tick s l') l) k with
  | some w => exact ⟨(k, w), Store.mem_of_get? h2, rfl⟩
  | none =>
    simp only [get?_addItems, Option.or_eq_none_iff] at h1 h2
    rw [h2.1, h2.2.1, h2.2.2] at h1
    cases h1

/-- C80, order: whatever the two portions are (without bars), if they can be added in one
order, so they can in the other, with the same bars and notes; the results are the same
exactly if at every tick for which both have a tempo or a pedal, the last of the one is
that of the other. -/
theorem C80_order_iff (p p1 p2 : Project) (m n : Models) (md md' : Metadata) (c c' : ProjectCmd) (h : WF p)
    (hm : Ticks32 m) (hn : Ticks32 n) (hv : ValidNotes p) (hvm : ∀ a ∈ m.notes, ValidLength a)
    (hvn : ∀ a ∈ n.notes, ValidLength a) (hbm : m.bars = []) (hbn : n.bars = [])
    (h1 : p.exec (.bulkAdd m md) = .ok (some (p1, c))) (h2 : p1.exec (.bulkAdd n md') = .ok (some (p2, c'))) :
    ∃ q1 q2 d d', p.exec (.bulkAdd n md') = .ok (some (q1, d)) ∧ q1.exec (.bulkAdd m md) = .ok (some (q2, d')) ∧
      p2.bars = q2.bars ∧ p2.notes.Perm q2.notes ∧
      (Same p2 q2 ↔ (∀ k a b, LastAt Tempo.startTick m.tempos k a → LastAt Tempo.startTick n.tempos k b → a = b) ∧
        (∀ k a b, LastAt CtrlChg.startTick m.dumpers k a → LastAt CtrlChg.startTick n.dumpers k b → a = b) ∧
        ∀ k a b, LastAt CtrlChg.startTick m.softs k a → LastAt CtrlChg.startTick n.softs k b → a = b) := by
  obtain ⟨x, hx⟩ := (C80_portions_partial p p2 m n md md' md h hm hn hv hvm hvn hbn).1 ⟨p1, c, c', h1, h2⟩
  obtain ⟨bs, hx⟩ := (exec_bulkAdd _ _ _ _).1 ⟨x, hx⟩
  rw [swap_together] at hx
  have w1 := swap_wf (swap_wf h {} m hm) {} n hn
  have w2 := swap_wf (swap_wf h {} n hn) {} m hm
  have v1 := valid_swap (valid_swap hv m hvm) n hvn
  have v2 := valid_swap (valid_swap hv n hvn) m hvm
  have hbars : ((p.swap {} m).swap {} n).bars = ((p.swap {} n).swap {} m).bars := by simp only [swap, hbm, hbn]
  have hnotes : ((p.swap {} m).swap {} n).notes.Perm ((p.swap {} n).swap {} m).notes := addNotes_perm_comm _ _ _
  have hcov : ∀ y, CoveredUpTo ((p.swap {} m).swap {} n) y ↔ CoveredUpTo ((p.swap {} n).swap {} m) y := by
    have one : ∀ (m n : Models) y, CoveredUpTo ((p.swap {} m).swap {} n) y → CoveredUpTo ((p.swap {} n).swap {} m) y := by
      intro m n y hc
      refine ⟨fun a ha => hc.notes a ((addNotes_perm_comm p.notes m.notes n.notes).mem_iff.2 ha), ?_, ?_, ?_⟩
      · intro a ha
        obtain ⟨b, b1, b2⟩ := keys_comm Tempo.startTick h.tempos n.tempos m.tempos ha
        exact b2 ▸ hc.tempos b b1
      · intro a ha
        obtain ⟨b, b1, b2⟩ := keys_comm CtrlChg.startTick h.dumpers n.dumpers m.dumpers ha
        exact b2 ▸ hc.dumpers b b1
      · intro a ha
        obtain ⟨b, b1, b2⟩ := keys_comm CtrlChg.startTick h.softs n.softs m.softs ha
        exact b2 ▸ hc.softs b b1
    exact fun y => ⟨one m n y, one n m y⟩
  obtain ⟨r, hl⟩ := exists_latest w1
  have hl2 : LatestValue ((p.swap {} n).swap {} m).bars Bar.rhythm ((p.swap {} n).swap {} m).rhythm
      (lastBarTick ((p.swap {} n).swap {} m).bars) r := by rw [← hbars]; exact hl
  obtain ⟨k, a1, a2, a3, ep, -⟩ := (replenish_ok_iff w1 v1 hl).1 hx
  have hy := (replenish_ok_iff (p' := { ((p.swap {} n).swap {} m) with bars := p2.bars }) w2 v2 hl2).2
    ⟨k, by rw [← hbars]; exact a1, by rw [← hbars]; exact (hcov _).1 a2,
      fun j hj hc => a3 j hj ((hcov _).2 (by rw [hbars]; exact hc)), by rw [ep, ← hbars], rfl⟩
  rw [← swap_together] at hy
  obtain ⟨y, hy⟩ := (exec_bulkAdd p _ (together n m) md).2 ⟨_, hy⟩
  obtain ⟨q1, d, d', g1, g2⟩ := (C80_portions_partial p _ n m md' md md h hn hm hv hvn hvm hbm).2 ⟨y, hy⟩
  have en : p2.notes = ((p.swap {} m).swap {} n).notes := by rw [ep]
  have et : p2.tempos = addItems Tempo.startTick (addItems Tempo.startTick p.tempos m.tempos) n.tempos := by rw [ep]; rfl
  have ed : p2.dumpers = addItems CtrlChg.startTick (addItems CtrlChg.startTick p.dumpers m.dumpers) n.dumpers := by rw [ep]; rfl
  have es : p2.softs = addItems CtrlChg.startTick (addItems CtrlChg.startTick p.softs m.softs) n.softs := by rw [ep]; rfl
  have er : p2.rhythm = p.rhythm ∧ p2.key = p.key ∧ p2.grid = p.grid := by rw [ep]; exact ⟨rfl, rfl, rfl⟩
  have hperm : p2.notes.Perm ({ p.swap {} (together n m) with bars := p2.bars } : Project).notes := by
    rw [en, swap_together]
    exact hnotes
  refine ⟨q1, _, d, d', g1, g2, rfl, hperm, ?_⟩
  rw [← comm_iff _ h.tempos, ← comm_iff _ h.dumpers, ← comm_iff _ h.softs, ← et, ← ed, ← es, swap_together]
  constructor
  · intro z
    exact ⟨z.tempos, z.dumpers, z.softs⟩
  · rintro ⟨z1, z2, z3⟩
    exact ⟨er.1, er.2.1, er.2.2, by rw [← swap_together]; exact hperm, rfl, z1, z2, z3⟩

/-- C80, deletion: deleting a selection in two portions is deleting it at once, and the order
does not matter. -/
theorem C80_delete (p : Project) (m n : Models) (md md' md'' : Metadata) (h : WF p) :
    ∃ p1 p2 c c' d d', p.exec (.bulkRemove m md) = .ok (some (p1, c)) ∧ p1.exec (.bulkRemove n md') = .ok (some (p2, c')) ∧
      p.exec (.bulkRemove (together m n) md'') = .ok (some (p2, d)) ∧
      p.exec (.bulkRemove (together n m) md'') = .ok (some (p2, d')) := by
  have e : ∀ (p : Project) m md, p.exec (.bulkRemove m md) = .ok (some (p.swap m {}, .modelChanged {} m md)) := fun _ _ _ => rfl
  refine ⟨_, _, _, _, .modelChanged {} (together m n) md'', .modelChanged {} (together n m) md'', e _ _ _, e _ _ _, ?_, ?_⟩
  · rw [e, remove_together]
  · rw [e, remove_together]
    congr 3
    simp only [swap, addItems, addNotes, List.foldl_nil]
    rw [removeNotes_comm, removeItems_comm _ h.bars, removeItems_comm _ h.tempos, removeItems_comm _ h.dumpers,
      removeItems_comm _ h.softs]

/-- C80, a phrase: adding notes one after the other gives exactly the project that adding
all of them at once gives, and one way succeeds exactly if the other does. -/
theorem C80_phrase (p p' : Project) (n : Note) (ns : List Note) (sel : Bool) (md : Metadata) (h : WF p) (hv : ValidNotes p)
    (hn : ∀ a ∈ n :: ns, ValidLength a) :
    (n :: ns).foldlM (fun (q : Project) a => (q.addNote a sel).map (·.1)) p = .ok p' ↔
      ∃ c, p.exec (.bulkAdd { notes := n :: ns } md) = .ok (some (p', c)) := by
  have one : ∀ (q q' : Project) a, (q.addNote a sel).map (·.1) = .ok q' ↔
      ∃ c, q.exec (.bulkAdd { notes := [a] } md) = .ok (some (q', c)) := by
    intro q q' a
    rw [← (C80_single q q' md sel).1 a]
    simp only [exec]
    cases q.addNote a sel with
    | error e => exact ⟨fun h => (by cases h), fun ⟨c, h⟩ => (by cases h)⟩
    | ok o =>
      obtain ⟨q1, c⟩ := o
      exact ⟨fun h => (by cases h; exact ⟨c, rfl⟩), fun ⟨c', h⟩ => (by cases h; rfl)⟩
  have t32 : ∀ l : List Note, Ticks32 { notes := l } := fun l => ⟨by simp, by simp, by simp, by simp⟩
  generalize hl : ns.length = k
  induction k generalizing ns p' with
  | zero =>
    obtain rfl : ns = [] := List.length_eq_zero_iff.1 hl
    rw [← one]
    simp only [List.foldlM_cons, List.foldlM_nil]
    cases (p.addNote n sel).map (·.1) <;> rfl
  | succ k ih =>
    rcases List.eq_nil_or_concat ns with rfl | ⟨ns, a, rfl⟩
    · cases hl
    · rw [List.concat_eq_append] at hl hn ⊢
      rw [← List.cons_append, List.foldlM_append, R_bind_eq_ok]
      have h1 : ∀ b ∈ n :: ns, ValidLength b := fun b hb => hn b (by
        rw [← List.cons_append]
        exact List.mem_append_left _ hb)
      have h2 : ValidLength a := hn a (by simp)
      have := C80_portions_partial p p' { notes := n :: ns } { notes := [a] } md md md h (t32 _) (t32 _) hv h1
        (fun b hb => by obtain rfl := List.mem_singleton.1 hb; exact h2) rfl
      rw [show ({ notes := n :: ns ++ [a] } : Models) = together { notes := n :: ns } { notes := [a] } from rfl, ← this]
      constructor
      · rintro ⟨q, g1, g2⟩
        obtain ⟨c, g1⟩ := (ih q ns h1 (by simpa using hl)).1 g1
        obtain ⟨c', g2⟩ := (one q p' a).1 (by
          simp only [List.foldlM_cons, List.foldlM_nil] at g2
          cases hx : (q.addNote a sel).map (·.1) with
          | error e => rw [hx] at g2; cases g2
          | ok o => rw [hx] at g2; exact g2)
        exact ⟨q, c, c', g1, g2⟩
      · rintro ⟨q, c, c', g1, g2⟩
        refine ⟨q, (ih q ns h1 (by simpa using hl)).2 ⟨c, g1⟩, ?_⟩
        have := (one q p' a).2 ⟨c', g2⟩
        simp only [List.foldlM_cons, List.foldlM_nil]
        rw [this]
        rfl

/-- C80, there and back (partial: what the additions replaced is lost, `C80_back_false`):
deleting what has just been added leaves everything as it was, but for the bars that the
addition completed. -/
theorem C80_back_partial (p p1 : Project) (m : Models) (md md' : Metadata) (c : ProjectCmd) (h : WF p) (hm : Ticks32 m)
    (hb : m.bars = []) (ht : ∀ a ∈ m.tempos, ∀ q ∈ p.tempos, q.1 ≠ a.startTick)
    (hd : ∀ a ∈ m.dumpers, ∀ q ∈ p.dumpers, q.1 ≠ a.startTick) (hs : ∀ a ∈ m.softs, ∀ q ∈ p.softs, q.1 ≠ a.startTick)
    (h1 : p.exec (.bulkAdd m md) = .ok (some (p1, c))) :
    ∃ p2 c', p1.exec (.bulkRemove m md') = .ok (some (p2, c')) ∧ Same p2 { p with bars := p1.bars } := by
  obtain ⟨bs, h1⟩ := (exec_bulkAdd _ _ _ _).1 ⟨c, h1⟩
  obtain ⟨e, -⟩ := replenish_shape (swap_wf h {} m hm) h1
  have store : ∀ {V : Type} (tick : V → Nat) {s : Store V}, SortedStore s → ∀ l : List V, (∀ a ∈ l, ∀ q ∈ s, q.1 ≠ tick a) →
      removeItems tick (addItems tick s l) l = s := by
    intro V tick s hs l hl
    refine Store.ext (sorted_removeItems _ (sorted_addItems _ hs _) _) hs ?_
    intro k
    rw [get?_removeItems _ (sorted_addItems _ hs _), get?_addItems]
    cases hk : lastWith tick l k with
    | none => simp
    | some v =>
      obtain ⟨g1, g2⟩ := lastWith_some hk
      simp only [Option.isSome_some, if_true]
      exact (Store.get?_none_of_not_mem (fun q hq he => hl v g1 q hq (he.trans g2.symm))).symm
  refine ⟨p1.swap m {}, _, rfl, ?_⟩
  rw [e]
  refine ⟨rfl, rfl, rfl, ?_, ?_, store _ h.tempos _ ht, store _ h.dumpers _ hd, store _ h.softs _ hs⟩
  · exact notes_undo h.notesKeyed [] m.notes (by simp)
  · simp only [swap, hb]; rfl

private theorem back_get {V : Type} (tick : V → Nat) {s : Store V} (hs : SortedStore s) (l : List V) (k : Nat) :
    Store.get? (removeItems tick (addItems tick s l) l) k = if ∃ a ∈ l, tick a = k then none else Store.get? s k := by
  rw [get?_removeItems _ (sorted_addItems _ hs _), get?_addItems]
  cases hk : lastWith tick l k with
  | none =>
    have : ¬ ∃ a ∈ l, tick a = k := by
      rintro ⟨a, h1, h2⟩
      exact lastWith_none.1 hk a h1 h2
    simp [this]
  | some v =>
    obtain ⟨g1, g2⟩ := lastWith_some hk
    have : ∃ a ∈ l, tick a = k := ⟨v, g1, g2⟩
    simp [this]

private theorem back_store {V : Type} (tick : V → Nat) {s : Store V} (hs : SortedStore s) (l : List V) :
    removeItems tick (addItems tick s l) l = s ↔ ∀ a ∈ l, ∀ q ∈ s, q.1 ≠ tick a := by
  constructor
  · intro e a ha q hq he
    have h1 := back_get tick hs l (tick a)
    rw [e, if_pos ⟨a, ha, rfl⟩] at h1
    have h2 := Store.get?_of_mem hs (show (tick a, q.2) ∈ s from he ▸ hq)
    rw [h1] at h2
    cases h2
  · intro hl
    refine Store.ext (sorted_removeItems _ (sorted_addItems _ hs _) _) hs ?_
    intro k
    rw [back_get tick hs]
    split
    · rename_i hk
      obtain ⟨a, h1, h2⟩ := hk
      exact (Store.get?_none_of_not_mem (fun q hq he => hl a h1 q hq (he.trans h2.symm))).symm
    · rfl

/-- C80: deleting what was just added always succeeds.  It takes away what was added and
what that replaced, and nothing else, so that everything but the completed bars is as
before exactly if no bars were added and nothing was replaced. -/
theorem C80_back_iff (p p1 : Project) (m : Models) (md md' : Metadata) (c : ProjectCmd) (h : WF p) (hm : Ticks32 m)
    (h1 : p.exec (.bulkAdd m md) = .ok (some (p1, c))) :
    ∃ p2 c', p1.exec (.bulkRemove m md') = .ok (some (p2, c')) ∧
      (∀ n, (p2.notes.map (·.2)).count n = (p.notes.map (·.2)).count n) ∧
      (∀ q, q ∈ p2.tempos ↔ q ∈ p.tempos ∧ ∀ a ∈ m.tempos, a.startTick ≠ q.1) ∧
      (∀ q, q ∈ p2.dumpers ↔ q ∈ p.dumpers ∧ ∀ a ∈ m.dumpers, a.startTick ≠ q.1) ∧
      (∀ q, q ∈ p2.softs ↔ q ∈ p.softs ∧ ∀ a ∈ m.softs, a.startTick ≠ q.1) ∧
      (∀ q, q ∈ p2.bars ↔ q ∈ p1.bars ∧ ∀ a ∈ m.bars, a.startTick ≠ q.1) ∧
      (Same p2 { p with bars := p1.bars } ↔ m.bars = [] ∧ (∀ a ∈ m.tempos, ∀ q ∈ p.tempos, q.1 ≠ a.startTick) ∧
        (∀ a ∈ m.dumpers, ∀ q ∈ p.dumpers, q.1 ≠ a.startTick) ∧ ∀ a ∈ m.softs, ∀ q ∈ p.softs, q.1 ≠ a.startTick) := by
  obtain ⟨bs, h1⟩ := (exec_bulkAdd _ _ _ _).1 ⟨c, h1⟩
  obtain ⟨e, -⟩ := replenish_shape (swap_wf h {} m hm) h1
  have mem : ∀ {V : Type} (tick : V → Nat) {s : Store V}, SortedStore s → ∀ (l : List V) (q : Nat × V),
      q ∈ removeItems tick (addItems tick s l) l ↔ q ∈ s ∧ ∀ a ∈ l, tick a ≠ q.1 := by
    intro V tick s hs l q
    obtain ⟨k, v⟩ := q
    rw [← Store.get?_some_iff (sorted_removeItems _ (sorted_addItems _ hs _) _), back_get tick hs, ← Store.get?_some_iff hs]
    split
    · rename_i hk
      obtain ⟨a, a1, a2⟩ := hk
      simp only [reduceCtorEq, false_iff, not_and]
      intro _ hc
      exact hc a a1 a2
    · rename_i hk
      exact ⟨fun x => ⟨x, fun a a1 a2 => hk ⟨a, a1, a2⟩⟩, fun x => x.1⟩
  have hsort : SortedStore p1.bars := by
    rw [e]
    exact sorted_addItems _ (sorted_addItems _ h.bars _) _
  have hperm : (p1.swap m {}).notes.Perm p.notes := by
    rw [e]
    exact notes_undo h.notesKeyed [] m.notes (by simp)
  have e2 : (p1.swap m {}).tempos = removeItems Tempo.startTick (addItems Tempo.startTick p.tempos m.tempos) m.tempos := by rw [e]; rfl
  have e3 : (p1.swap m {}).dumpers = removeItems CtrlChg.startTick (addItems CtrlChg.startTick p.dumpers m.dumpers) m.dumpers := by rw [e]; rfl
  have e4 : (p1.swap m {}).softs = removeItems CtrlChg.startTick (addItems CtrlChg.startTick p.softs m.softs) m.softs := by rw [e]; rfl
  have e5 : (p1.swap m {}).bars = removeItems Bar.startTick p1.bars m.bars := rfl
  refine ⟨p1.swap m {}, _, rfl, fun n => (hperm.map _).count_eq n, fun q => ?_, fun q => ?_, fun q => ?_, fun q => ?_, ?_⟩
  · rw [e2]; exact mem _ h.tempos _ _
  · rw [e3]; exact mem _ h.dumpers _ _
  · rw [e4]; exact mem _ h.softs _ _
  · obtain ⟨k, v⟩ := q
    rw [e5, ← Store.get?_some_iff (sorted_removeItems _ hsort _), get?_removeItems _ hsort, ← Store.get?_some_iff hsort]
    cases hk : lastWith Bar.startTick m.bars k with
    | none =>
      simp only [Option.isSome_none, Bool.false_eq_true, if_false]
      exact ⟨fun x => ⟨x, lastWith_none.1 hk⟩, fun x => x.1⟩
    | some b =>
      obtain ⟨g1, g2⟩ := lastWith_some hk
      simp only [Option.isSome_some, if_true, reduceCtorEq, false_iff, not_and]
      intro _ hc
      exact hc b g1 g2
  · have hb : removeItems Bar.startTick p1.bars m.bars = p1.bars ↔ m.bars = [] := by
      constructor
      · intro hx
        cases hm' : m.bars with
        | nil => rfl
        | cons a l =>
          have g1 : (removeItems Bar.startTick p1.bars m.bars).get? a.startTick = none := by
            rw [get?_removeItems _ hsort]
            cases hk : lastWith Bar.startTick m.bars a.startTick with
            | some _ => rfl
            | none => exact absurd rfl (lastWith_none.1 hk a (by simp [hm']))
          rw [hx, Store.get?_eq_none_iff] at g1
          have g2 : (Store.get? p1.bars a.startTick) = none := Store.get?_eq_none_iff.2 g1
          rw [e] at g2
          have g3 := (get?_addItems Bar.startTick (p.swap {} m).bars bs a.startTick).symm.trans g2
          rw [Option.or_eq_none_iff] at g3
          have g4 := (get?_addItems Bar.startTick p.bars m.bars a.startTick).symm.trans g3.2
          rw [Option.or_eq_none_iff] at g4
          exact absurd rfl (lastWith_none.1 g4.1 a (by simp [hm']))
      · intro hx
        rw [hx]; rfl
    have er : (p1.swap m {}).rhythm = p.rhythm ∧ (p1.swap m {}).key = p.key ∧ (p1.swap m {}).grid = p.grid := by
      rw [e]; exact ⟨rfl, rfl, rfl⟩
    rw [← hb, ← back_store _ h.tempos, ← back_store _ h.dumpers, ← back_store _ h.softs, ← e2, ← e3, ← e4, ← e5]
    constructor
    · intro x
      exact ⟨x.bars, x.tempos, x.dumpers, x.softs⟩
    · rintro ⟨x1, x2, x3, x4⟩
      exact ⟨er.1, er.2.1, er.2.2, hperm, x1, x2, x3, x4⟩

/-! ### Examples and refutations -/

private theorem exampleProject_valid : ValidNotes exampleProject := by
  have hv : ∀ t, ValidLength { exampleNote with baseStartTick := t } := by
    intro t
    exact ⟨⟨by show 2 ≤ 2; omega, by show 2 ≤ 255; omega, by show 0 ≤ 7; omega⟩, by show exampleNote.durationTrimmer.sum.value ≤ 2000; decide⟩
  intro q hq
  simp only [exampleProject, List.mem_cons, List.not_mem_nil, or_false] at hq
  rcases hq with rfl | rfl <;> exact hv _

private def lateTempo : Tempo := ⟨2900, ⟨90⟩⟩
private def laterPedal : CtrlChg := ⟨3500, ⟨127⟩, 0⟩

private theorem succeeds {p : Project} {e : Edit} {f : Project → List Nat} {l : List Nat}
    (h : (p.exec e).map (fun o => o.map fun q => f q.1) = .ok (some l)) : ∃ q c, p.exec e = .ok (some (q, c)) ∧ f q = l := by
  cases hc : p.exec e with
  | error x => rw [hc] at h; cases h
  | ok o =>
    rw [hc] at h
    cases o with
    | none => cases h
    | some q =>
      have h : f q.1 = l := Option.some.inj (Except.ok.inj h)
      exact ⟨q.1, q.2, rfl, h⟩

private theorem t32 {m : Models} (h : m.bars.all (fun b => decide (b.startTick ≤ U32_MAX)) && m.tempos.all (fun b => decide (b.startTick ≤ U32_MAX)) &&
    m.dumpers.all (fun b => decide (b.startTick ≤ U32_MAX)) && m.softs.all (fun b => decide (b.startTick ≤ U32_MAX)) = true) : Ticks32 m := by
  simp only [Bool.and_eq_true, List.all_eq_true, decide_eq_true_eq] at h
  exact ⟨h.1.1.1, h.1.1.2, h.1.2, h.2⟩

example : ∃ p1 p2 c c', exampleProject.exec (.bulkAdd { tempos := [lateTempo] } {}) = .ok (some (p1, c)) ∧
    p1.exec (.bulkAdd { dumpers := [laterPedal] } {}) = .ok (some (p2, c')) ∧
    p2.bars.map (·.1) = [100, 1000, 2000, 2480, 2960, 3440, 3920] := by
  obtain ⟨p2, c, h1, h2⟩ := succeeds (p := exampleProject)
    (e := .bulkAdd (together { tempos := [lateTempo] } { dumpers := [laterPedal] }) {}) (f := fun q => q.bars.map (·.1))
    (l := [100, 1000, 2000, 2480, 2960, 3440, 3920]) (by decide +kernel)
  obtain ⟨p1, c, c', g1, g2⟩ := (C80_portions_partial exampleProject p2 { tempos := [lateTempo] } { dumpers := [laterPedal] } {} {} {}
    exampleProject_wf (t32 (by decide)) (t32 (by decide)) exampleProject_valid (by simp) (by simp) rfl).2 ⟨c, h1⟩
  exact ⟨p1, p2, c, c', g1, g2, h2⟩

example : ∃ q c, exampleProject.exec (.addTempo lateTempo true) = .ok (some (q, c)) ∧ q.bars.map (·.1) = [100, 1000, 2000, 2480, 2960] := by
  obtain ⟨q, c, h, h'⟩ := succeeds (p := exampleProject) (e := .bulkAdd { tempos := [lateTempo] } {}) (f := fun q => q.bars.map (·.1))
    (l := [100, 1000, 2000, 2480, 2960]) (by decide +kernel)
  obtain ⟨c, h⟩ := ((C80_single exampleProject q {} true).2.1 lateTempo).2 ⟨c, h⟩
  exact ⟨q, c, h, h'⟩

example : ∃ p1 p2 q2 c c', exampleProject.exec (.bulkAdd { tempos := [lateTempo] } {}) = .ok (some (p1, c)) ∧
    p1.exec (.bulkAdd { dumpers := [laterPedal] } {}) = .ok (some (p2, c')) ∧ q2 = p2 ∧
    ∃ q1 d d', exampleProject.exec (.bulkAdd { dumpers := [laterPedal] } {}) = .ok (some (q1, d)) ∧
      q1.exec (.bulkAdd { tempos := [lateTempo] } {}) = .ok (some (q2, d')) := by
  obtain ⟨p2, c, h1, h2⟩ := succeeds (p := exampleProject)
    (e := .bulkAdd (together { tempos := [lateTempo] } { dumpers := [laterPedal] }) {}) (f := fun q => q.bars.map (·.1))
    (l := [100, 1000, 2000, 2480, 2960, 3440, 3920]) (by decide +kernel)
  obtain ⟨p1, c, c', g1, g2⟩ := (C80_portions_partial exampleProject p2 { tempos := [lateTempo] } { dumpers := [laterPedal] } {} {} {}
    exampleProject_wf (t32 (by decide)) (t32 (by decide)) exampleProject_valid (by simp) (by simp) rfl).2 ⟨c, h1⟩
  obtain ⟨q1, q2, d, d', e1, e2, -, e3⟩ := C80_order_partial exampleProject p1 p2 { tempos := [lateTempo] } { dumpers := [laterPedal] } {} {} c c'
    exampleProject_wf (t32 (by decide)) (t32 (by decide)) exampleProject_valid (by simp) (by simp) rfl rfl
    ⟨by simp, by simp, by simp, by simp⟩ g1 g2
  exact ⟨p1, p2, q2, c, c', g1, g2, e3 (by simp), q1, d, d', e1, e2⟩

example : ∃ p1 c c', exampleProject.exec (.bulkRemove { tempos := [⟨10, ⟨0⟩⟩] } {}) = .ok (some (p1, c)) ∧
    ∃ p2 : Project, p1.exec (.bulkRemove { notes := [exampleNote] } {}) = .ok (some (p2, c')) ∧ p2.tempos.map (·.1) = [20] ∧
      p2.notes.map (·.1) = [1200] := by
  obtain ⟨p1, p2, c, c', d, d', h1, h2, h3, -⟩ := C80_delete exampleProject { tempos := [⟨10, ⟨0⟩⟩] } { notes := [exampleNote] } {} {} {} exampleProject_wf
  refine ⟨p1, c, c', h1, p2, h2, ?_, ?_⟩ <;>
  · cases h3
    decide +kernel

example : ∃ q c, [exampleNote, { exampleNote with baseStartTick := 2900 }].foldlM
      (fun (q : Project) a => (q.addNote a true).map (·.1)) exampleProject = .ok q ∧
    exampleProject.exec (.bulkAdd { notes := [exampleNote, { exampleNote with baseStartTick := 2900 }] } {}) = .ok (some (q, c)) ∧
    q.bars.map (·.1) = [100, 1000, 2000, 2480, 2960, 3440] := by
  obtain ⟨q, c, h, h'⟩ := succeeds (p := exampleProject)
    (e := .bulkAdd { notes := [exampleNote, { exampleNote with baseStartTick := 2900 }] } {}) (f := fun q => q.bars.map (·.1))
    (l := [100, 1000, 2000, 2480, 2960, 3440]) (by decide +kernel)
  refine ⟨q, c, (C80_phrase exampleProject q _ _ true {} exampleProject_wf exampleProject_valid ?_).2 ⟨c, h⟩, h, h'⟩
  intro a ha
  simp only [List.mem_cons, List.not_mem_nil, or_false] at ha
  rcases ha with rfl | rfl <;> exact ⟨⟨by decide, by decide, by decide⟩, by decide⟩

example : ∃ p1 c p2 c', exampleProject.exec (.bulkAdd { tempos := [lateTempo] } {}) = .ok (some (p1, c)) ∧
    p1.exec (.bulkRemove { tempos := [lateTempo] } {}) = .ok (some (p2, c')) ∧ p2.tempos = exampleProject.tempos := by
  obtain ⟨q, c, h, -⟩ := succeeds (p := exampleProject) (e := .bulkAdd { tempos := [lateTempo] } {}) (f := fun q => q.bars.map (·.1))
    (l := [100, 1000, 2000, 2480, 2960]) (by decide +kernel)
  obtain ⟨p2, c', h2, h3⟩ := C80_back_partial exampleProject q { tempos := [lateTempo] } {} {} c exampleProject_wf (t32 (by decide)) rfl
    (by decide) (by simp) (by simp) h
  exact ⟨q, c, p2, c', h, h2, h3.tempos⟩

/-! The tempo at tick 10 of `exampleProject` is replaced, and then lost. -/
example : ∃ p1 c p2 c', exampleProject.exec (.bulkAdd { tempos := [⟨10, ⟨77⟩⟩] } {}) = .ok (some (p1, c)) ∧
    p1.exec (.bulkRemove { tempos := [⟨10, ⟨77⟩⟩] } {}) = .ok (some (p2, c')) ∧ ¬ Same p2 { exampleProject with bars := p1.bars } := by
  obtain ⟨q, c, h, -⟩ := succeeds (p := exampleProject) (e := .bulkAdd { tempos := [⟨10, ⟨77⟩⟩] } {}) (f := fun q => q.tempos.map (·.1))
    (l := [10, 20]) (by decide +kernel)
  obtain ⟨p2, c', h2, -, -, -, -, -, h3⟩ := C80_back_iff exampleProject q { tempos := [⟨10, ⟨77⟩⟩] } {} {} c exampleProject_wf (t32 (by decide)) h
  refine ⟨q, c, p2, c', h, h2, fun x => ?_⟩
  exact absurd ((h3.1 x).2.1 ⟨10, ⟨77⟩⟩ (by simp)) (by decide)

/-! The same tempo in both portions, and two different ones. -/
example : ∃ p1 p2 c c', exampleProject.exec (.bulkAdd { tempos := [lateTempo] } {}) = .ok (some (p1, c)) ∧
    p1.exec (.bulkAdd { tempos := [lateTempo], dumpers := [laterPedal] } {}) = .ok (some (p2, c')) ∧
    ∃ q1 q2 d d', exampleProject.exec (.bulkAdd { tempos := [lateTempo], dumpers := [laterPedal] } {}) = .ok (some (q1, d)) ∧
      q1.exec (.bulkAdd { tempos := [lateTempo] } {}) = .ok (some (q2, d')) ∧ Same p2 q2 := by
  obtain ⟨p2, c, h1, h2⟩ := succeeds (p := exampleProject)
    (e := .bulkAdd (together { tempos := [lateTempo] } { tempos := [lateTempo], dumpers := [laterPedal] }) {}) (f := fun q => q.bars.map (·.1))
    (l := [100, 1000, 2000, 2480, 2960, 3440, 3920]) (by decide +kernel)
  obtain ⟨p1, c, c', g1, g2⟩ := (C80_portions_partial exampleProject p2 { tempos := [lateTempo] } { tempos := [lateTempo], dumpers := [laterPedal] } {} {} {}
    exampleProject_wf (t32 (by decide)) (t32 (by decide)) exampleProject_valid (by simp) (by simp) rfl).2 ⟨c, h1⟩
  obtain ⟨q1, q2, d, d', e1, e2, -, -, e3⟩ := C80_order_iff exampleProject p1 p2 { tempos := [lateTempo] }
    { tempos := [lateTempo], dumpers := [laterPedal] } {} {} c c'
    exampleProject_wf (t32 (by decide)) (t32 (by decide)) exampleProject_valid (by simp) (by simp) rfl rfl g1 g2
  have hl : ∀ k a, LastAt Tempo.startTick [lateTempo] k a → a = lateTempo := by
    rintro k a ⟨x, y, e, -⟩
    have : a ∈ [lateTempo] := by rw [e]; simp
    simpa using this
  have he : ∀ k a, ¬ LastAt CtrlChg.startTick [] k a := by
    rintro k a ⟨x, y, e, -⟩
    simp at e
  exact ⟨p1, p2, c, c', g1, g2, q1, q2, d, d', e1, e2, e3.2 ⟨fun k a b x y => (hl k a x).trans (hl k b y).symm,
    fun k a b x => (he k a x).elim, fun k a b x => (he k a x).elim⟩⟩

/-- C80, negation for a second portion with bars: the bars completed after the first portion
remain beside the bar of the second, which at once would have sufficed. -/
theorem C80_portions_false : ∃ (p p1 p2 q : Project) (m n : Models) (c c' d : ProjectCmd), WF p ∧
    p.exec (.bulkAdd m {}) = .ok (some (p1, c)) ∧ p1.exec (.bulkAdd n {}) = .ok (some (p2, c')) ∧
    p.exec (.bulkAdd (together m n) {}) = .ok (some (q, d)) ∧ m.bars = [] ∧
    p2.bars.map (·.1) = [100, 1000, 2000, 2480, 2950, 2960] ∧ q.bars.map (·.1) = [100, 1000, 2000, 2950] := by
  obtain ⟨q, d, h1, h2⟩ := succeeds (p := exampleProject)
    (e := .bulkAdd (together { tempos := [lateTempo] } { bars := [{ startTick := 2950 }] }) {}) (f := fun q => q.bars.map (·.1))
    (l := [100, 1000, 2000, 2950]) (by decide +kernel)
  have h3 : ((exampleProject.exec (.bulkAdd { tempos := [lateTempo] } {})).bind fun o => match o with
      | some q => (q.1.exec (.bulkAdd { bars := [{ startTick := 2950 }] } {})).map fun o => o.map fun q => q.1.bars.map (·.1)
      | none => .ok none) = .ok (some [100, 1000, 2000, 2480, 2950, 2960]) := by decide +kernel
  cases hx : exampleProject.exec (.bulkAdd { tempos := [lateTempo] } {}) with
  | error e => rw [hx] at h3; cases h3
  | ok o =>
    rw [hx] at h3
    cases o with
    | none => cases h3
    | some o =>
      obtain ⟨p2, c', g1, g2⟩ := succeeds (p := o.1) (e := .bulkAdd { bars := [{ startTick := 2950 }] } {}) (f := fun q : Project => q.bars.map fun x : Nat × Bar => x.1)
        (l := [100, 1000, 2000, 2480, 2950, 2960]) h3
      exact ⟨exampleProject, o.1, p2, q, _, _, o.2, c', d, exampleProject_wf, hx, g1, h1, rfl, g2, h2⟩

/-- C80, negation of the order for things at the same place: of two tempos at one tick the
one added last remains. -/
theorem C80_order_false : ∃ (p p1 p2 q1 q2 : Project) (m n : Models) (c c' d d' : ProjectCmd), WF p ∧
    p.exec (.bulkAdd m {}) = .ok (some (p1, c)) ∧ p1.exec (.bulkAdd n {}) = .ok (some (p2, c')) ∧
    p.exec (.bulkAdd n {}) = .ok (some (q1, d)) ∧ q1.exec (.bulkAdd m {}) = .ok (some (q2, d')) ∧
    m.bars = [] ∧ n.bars = [] ∧ p2.tempos ≠ q2.tempos := by
  have two : ∀ a b : Tempo, ((exampleProject.exec (.bulkAdd { tempos := [a] } {})).bind fun o => match o with
      | some q => (q.1.exec (.bulkAdd { tempos := [b] } {})).map fun o => o.map fun q => q.1.tempos.map (·.2.value.value)
      | none => .ok none) = .ok (some [100, b.value.value, 200]) → ∃ p1 p2 c c', exampleProject.exec (.bulkAdd { tempos := [a] } {}) = .ok (some (p1, c)) ∧
        p1.exec (.bulkAdd { tempos := [b] } {}) = .ok (some (p2, c')) ∧ p2.tempos.map (·.2.value.value) = [100, b.value.value, 200] := by
    intro a b h3
    cases hx : exampleProject.exec (.bulkAdd { tempos := [a] } {}) with
    | error e => rw [hx] at h3; cases h3
    | ok o =>
      rw [hx] at h3
      cases o with
      | none => cases h3
      | some o =>
        obtain ⟨p2, c', g1, g2⟩ := succeeds (p := o.1) (e := .bulkAdd { tempos := [b] } {}) (f := fun q : Project => q.tempos.map fun x : Nat × Tempo => x.2.value.value)
          (l := [100, b.value.value, 200]) h3
        exact ⟨o.1, p2, o.2, c', rfl, g1, g2⟩
  obtain ⟨p1, p2, c, c', h1, h2, h3⟩ := two ⟨15, ⟨60⟩⟩ ⟨15, ⟨70⟩⟩ (by decide +kernel)
  obtain ⟨q1, q2, d, d', g1, g2, g3⟩ := two ⟨15, ⟨70⟩⟩ ⟨15, ⟨60⟩⟩ (by decide +kernel)
  refine ⟨exampleProject, p1, p2, q1, q2, _, _, c, c', d, d', exampleProject_wf, h1, h2, g1, g2, rfl, rfl, ?_⟩
  intro he
  rw [he, g3] at h3
  cases h3

/-- C80, negation of going back: a tempo put in the place of another and deleted again leaves
neither. -/
theorem C80_back_false : ∃ (p p1 p2 : Project) (m : Models) (c c' : ProjectCmd), WF p ∧
    p.exec (.bulkAdd m {}) = .ok (some (p1, c)) ∧ p1.exec (.bulkRemove m {}) = .ok (some (p2, c')) ∧ m.bars = [] ∧
    p.tempos.map (·.1) = [10, 20] ∧ p2.tempos.map (·.1) = [20] := by
  have h3 : ((exampleProject.exec (.bulkAdd { tempos := [⟨10, ⟨60⟩⟩] } {})).bind fun o => match o with
      | some q => (q.1.exec (.bulkRemove { tempos := [⟨10, ⟨60⟩⟩] } {})).map fun o => o.map fun q => q.1.tempos.map (·.1)
      | none => .ok none) = .ok (some [20]) := by decide +kernel
  cases hx : exampleProject.exec (.bulkAdd { tempos := [⟨10, ⟨60⟩⟩] } {}) with
  | error e => rw [hx] at h3; cases h3
  | ok o =>
    rw [hx] at h3
    cases o with
    | none => cases h3
    | some o =>
      obtain ⟨p2, c', g1, g2⟩ := succeeds (p := o.1) (e := .bulkRemove { tempos := [⟨10, ⟨60⟩⟩] } {}) (f := fun q : Project => q.tempos.map fun x : Nat × Tempo => x.1)
        (l := [20]) h3
      exact ⟨exampleProject, o.1, p2, _, o.2, c', exampleProject_wf, hx, g1, rfl, by decide, g2⟩

end Klavier
