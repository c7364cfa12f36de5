import Verif.Lemmas.Replenish

set_option autoImplicit false
namespace Klavier
open Spec
namespace Project

/-- Overwritten items of one store when `f` is removed and `A` added. -/
def oOf {V : Type} (tick : V → Nat) (s : Store V) (f A : List V) : List V :=
  ((removeItems tick s f).bulkAdd (A.map (fun v => (tick v, v)))).2.map (·.2)

/-- What is recorded as removed. -/
def recorded (p : Project) (f A : Models) : Models where
  notes := f.notes
  bars := f.bars ++ oOf Bar.startTick p.bars f.bars A.bars
  tempos := f.tempos ++ oOf Tempo.startTick p.tempos f.tempos A.tempos
  dumpers := f.dumpers ++ oOf CtrlChg.startTick p.dumpers f.dumpers A.dumpers
  softs := f.softs ++ oOf CtrlChg.startTick p.softs f.softs A.softs

theorem oOf_single {V : Type} (tick : V → Nat) (s : Store V) (v : V) :
    oOf tick s [] [v] = (s.get? (tick v)).toList := by
  simp only [oOf, removeItems, List.foldl_nil, List.map_cons, List.map_nil, Store.bulkAdd]
  cases s.get? (tick v) <;> rfl

theorem oOf_nil {V : Type} (tick : V → Nat) (s : Store V) (f : List V) : oOf tick s f [] = [] := rfl

theorem oOf_add {V : Type} (tick : V → Nat) (s : Store V) (A : List V) :
    oOf tick s [] A = (s.bulkAdd (A.map (fun v => (tick v, v)))).2.map (·.2) := rfl

theorem oOf_change {V : Type} (tick : V → Nat) (s : Store V) (c : List (V × V)) :
    oOf tick s (c.map (·.1)) (c.map (·.2)) =
      (s.change (c.map (fun x => (tick x.1, (tick x.2, x.2))))).2.map (·.2) := by
  rw [change_snd]; rfl

/-- The shape shared by all edits of items. -/
inductive Shape (p : Project) (e : Edit) (p' : Project) (c : ProjectCmd) : Prop where
  | rhythm (r : Rhythm) : p' = { p with rhythm := r } → c = .setRhythm p.rhythm r → AddsContent e = false →
      Shape p e p' c
  | key (k : Key) : p' = { p with key := k } → c = .setKey p.key k → AddsContent e = false → Shape p e p' c
  | grid (g : Grid) : p' = { p with grid := g } → c = .setGrid p.grid g → AddsContent e = false → Shape p e p' c
  | items (f A : Models) (bs : List Bar) :
      (AddsContent e = false ∧ bs = [] ∧ p' = p.swap f A ∨ AddsContent e = true ∧ (p.swap f A).replenishBars = .ok (p', bs)) →
      c = .modelChanged { A with bars := A.bars ++ bs } (recorded p f A) (hint e) →
      A.bars = (introduced e).bars → A.tempos = (introduced e).tempos →
      A.dumpers = (introduced e).dumpers → A.softs = (introduced e).softs →
      (Legal p e → Present p f ∧ DistinctTicks A) → f = withdrawn e → Shape p e p' c

theorem present_empty (p : Project) : Present p {} :=
  ⟨by simp, by simp, by simp, by simp, by simp⟩

theorem distinct_notes (ns : List Note) : DistinctTicks { notes := ns } := ⟨by simp, by simp, by simp, by simp⟩

theorem exec_shape {p p' : Project} {e : Edit} {c : ProjectCmd} (h : p.exec e = .ok (some (p', c))) :
    Shape p e p' c := by
  cases e with
  | setRhythm r =>
    simp only [exec, viaCmd, Except.ok.injEq, Option.some.injEq, Prod.mk.injEq] at h
    exact .rhythm r h.1.symm h.2.symm rfl
  | setKey r =>
    simp only [exec, viaCmd, Except.ok.injEq, Option.some.injEq, Prod.mk.injEq] at h
    exact .key r h.1.symm h.2.symm rfl
  | setGrid r =>
    simp only [exec, viaCmd, Except.ok.injEq, Option.some.injEq, Prod.mk.injEq] at h
    exact .grid r h.1.symm h.2.symm rfl
  | addNote n sel =>
    simp only [exec, addNote, R_bind_eq_ok] at h
    obtain ⟨⟨q, d⟩, ⟨⟨q2, bs⟩, h1, h2⟩, h3⟩ := h
    cases h2; cases h3
    exact .items {} { notes := [n] } bs (.inr ⟨rfl, h1⟩) (by cases sel <;> rfl) rfl rfl rfl rfl
      (fun _ => ⟨present_empty p, distinct_notes _⟩) rfl
  | addBar b sel =>
    simp only [exec, addBar, Except.ok.injEq, Option.some.injEq, Prod.mk.injEq] at h
    refine .items {} { bars := [b] } [] (.inl ⟨rfl, rfl, h.1.symm⟩) ?_ rfl rfl rfl rfl
      (fun _ => ⟨present_empty p, ⟨by simp, by simp, by simp, by simp⟩⟩) rfl
    rw [← h.2]
    cases sel <;> simp only [recorded, oOf_single, oOf_nil, List.nil_append, List.append_nil] <;> rfl
  | addTempo b sel =>
    simp only [exec, addTempo, R_bind_eq_ok] at h
    obtain ⟨⟨q, d⟩, ⟨⟨q2, bs⟩, h1, h2⟩, h3⟩ := h
    cases h2; cases h3
    refine .items {} { tempos := [b] } bs (.inr ⟨rfl, h1⟩) ?_ rfl rfl rfl rfl
      (fun _ => ⟨present_empty p, ⟨by simp, by simp, by simp, by simp⟩⟩) rfl
    cases sel <;> simp only [recorded, oOf_single, oOf_nil, List.nil_append, List.append_nil] <;> rfl
  | addDumper b sel =>
    simp only [exec, addDumper, R_bind_eq_ok] at h
    obtain ⟨⟨q, d⟩, ⟨⟨q2, bs⟩, h1, h2⟩, h3⟩ := h
    cases h2; cases h3
    refine .items {} { dumpers := [b] } bs (.inr ⟨rfl, h1⟩) ?_ rfl rfl rfl rfl
      (fun _ => ⟨present_empty p, ⟨by simp, by simp, by simp, by simp⟩⟩) rfl
    cases sel <;> simp only [recorded, oOf_single, oOf_nil, List.nil_append, List.append_nil] <;> rfl
  | addSoft b sel =>
    simp only [exec, addSoft, R_bind_eq_ok] at h
    obtain ⟨⟨q, d⟩, ⟨⟨q2, bs⟩, h1, h2⟩, h3⟩ := h
    cases h2; cases h3
    refine .items {} { softs := [b] } bs (.inr ⟨rfl, h1⟩) ?_ rfl rfl rfl rfl
      (fun _ => ⟨present_empty p, ⟨by simp, by simp, by simp, by simp⟩⟩) rfl
    cases sel <;> simp only [recorded, oOf_single, oOf_nil, List.nil_append, List.append_nil] <;> rfl
  | tuplize ns =>
    simp only [exec, tuplize] at h
    split at h
    · simp only [R_bind_eq_ok, bulkAdd_notes, bulkRemove_notes] at h
      obtain ⟨t, h0, ⟨q2, bs⟩, h1, h2⟩ := h
      cases h2
      exact .items { notes := ns } { notes := t } bs (.inr ⟨rfl, h1⟩) rfl rfl rfl rfl rfl
        (fun hl => ⟨hl, distinct_notes _⟩) rfl
    · cases h
  | bulkRemove m md =>
    simp only [exec, viaCmd, Except.ok.injEq, Option.some.injEq, Prod.mk.injEq] at h
    refine .items m {} [] (.inl ⟨rfl, rfl, h.1.symm⟩) ?_ rfl rfl rfl rfl (fun hl => ⟨hl, distinct_notes _⟩) rfl
    rw [← h.2]
    simp only [recorded, oOf_nil, List.append_nil]
    rfl
  | bulkAdd m md =>
    simp only [exec, bulkAdd, R_bind_eq_ok] at h
    obtain ⟨⟨q, d⟩, ⟨⟨q2, bs⟩, h1, h2⟩, h3⟩ := h
    cases h2; cases h3
    refine .items {} m bs (.inr ⟨rfl, ?_⟩) ?_ rfl rfl rfl rfl (fun hl => ⟨present_empty p, hl⟩) rfl
    · rw [← h1]
      simp only [bulkAdd_notes, bulkAdd_fst]
      rfl
    · simp only [recorded, oOf_add, List.nil_append]; rfl
  | change m md =>
    simp only [exec, change, R_bind_eq_ok] at h
    obtain ⟨⟨q, d⟩, ⟨⟨q2, bs⟩, h1, h2⟩, h3⟩ := h
    cases h2; cases h3
    refine .items (changedFrom m) (changedTo m) bs (.inr ⟨rfl, ?_⟩) ?_ rfl rfl rfl rfl (fun hl => hl) rfl
    · rw [← h1]
      simp only [change_fst, Bag.change, List.map_map, swap, changedFrom, changedTo]
      congr 2
      rw [← bulkAdd_notes, ← bulkRemove_notes]
      simp only [List.map_map]
      rfl
    · simp only [recorded, changedFrom, changedTo, oOf_change]; rfl

/-! ### Consequences -/

theorem swap_wf {p : Project} (h : WF p) (f A : Models) (hA : Ticks32 A) : WF (p.swap f A) := by
  obtain ⟨n1, n2⟩ := notes_swap_wf h.notes h.notesKeyed f.notes A.notes
  obtain ⟨b1, b2⟩ := store_swap_wf Bar.startTick h.bars h.barsKeyed f.bars A.bars hA.bars
  obtain ⟨t1, t2⟩ := store_swap_wf Tempo.startTick h.tempos h.temposKeyed f.tempos A.tempos hA.tempos
  obtain ⟨d1, d2⟩ := store_swap_wf CtrlChg.startTick h.dumpers h.dumpersKeyed f.dumpers A.dumpers hA.dumpers
  obtain ⟨s1, s2⟩ := store_swap_wf CtrlChg.startTick h.softs h.softsKeyed f.softs A.softs hA.softs
  exact ⟨n1, n2, b1, b2, t1, t2, d1, d2, s1, s2⟩

theorem swap_append_bars (p : Project) (f A : Models) (bs : List Bar) :
    p.swap f { A with bars := A.bars ++ bs } =
      { p.swap f A with bars := addItems Bar.startTick (p.swap f A).bars bs } := by
  simp only [swap, addItems, List.foldl_append]

/-- The final project of an edit of items, and where the new bars lie. -/
theorem shape_final {p p' : Project} {e : Edit} {f A : Models} {bs : List Bar} (h : WF p) (hA : Ticks32 A)
    (hs : AddsContent e = false ∧ bs = [] ∧ p' = p.swap f A ∨ AddsContent e = true ∧ (p.swap f A).replenishBars = .ok (p', bs)) :
    p' = p.swap f { A with bars := A.bars ++ bs } ∧
      (∀ b ∈ bs, b.startTick ≤ U32_MAX ∧ (p.swap f A).bars.get? b.startTick = none) := by
  have hq := swap_wf h f A hA
  rcases hs with ⟨-, rfl, rfl⟩ | ⟨-, hr⟩
  · simp
  · obtain ⟨h1, h2⟩ := replenish_shape hq hr
    refine ⟨by rw [h1, swap_append_bars], ?_⟩
    intro b hb
    have := h2 b hb
    refine ⟨this.2, Store.get?_none_of_not_mem ?_⟩
    intro q hqm
    have := le_lastBarTick hq q hqm
    omega

theorem oOf_keys {V : Type} (tick : V → Nat) {s : Store V} (h : Keyed tick s) (f A : List V)
    (hA : ∀ v ∈ A, tick v ≤ U32_MAX) : ∀ v ∈ oOf tick s f A, ∃ w ∈ A, tick w = tick v := by
  intro v hv
  simp only [oOf, List.mem_map] at hv
  obtain ⟨q, hq, rfl⟩ := hv
  exact (bulkAdd_snd_keyed tick (keyed_removeItems tick h f) A hA q hq).2

theorem ticks32_of_introduced {e : Edit} {A : Models} (h : Ticks32 (introduced e))
    (h1 : A.bars = (introduced e).bars) (h2 : A.tempos = (introduced e).tempos)
    (h3 : A.dumpers = (introduced e).dumpers) (h4 : A.softs = (introduced e).softs) : Ticks32 A :=
  ⟨h1 ▸ h.bars, h2 ▸ h.tempos, h3 ▸ h.dumpers, h4 ▸ h.softs⟩

/-- Re-executing the command gives exactly the edited project. -/
theorem redo_items {p : Project} (h : WF p) {f A : Models} (bs : List Bar) (hA : Ticks32 A) :
    p.swap (recorded p f A) { A with bars := A.bars ++ bs } = p.swap f { A with bars := A.bars ++ bs } := by
  simp only [swap, recorded]
  rw [store_redo Bar.startTick h.bars f.bars _ (A.bars ++ bs),
    store_redo Tempo.startTick h.tempos f.tempos _ A.tempos,
    store_redo CtrlChg.startTick h.dumpers f.dumpers _ A.dumpers,
    store_redo CtrlChg.startTick h.softs f.softs _ A.softs]
  · exact oOf_keys _ h.softsKeyed _ _ hA.softs
  · exact oOf_keys _ h.dumpersKeyed _ _ hA.dumpers
  · exact oOf_keys _ h.temposKeyed _ _ hA.tempos
  · intro v hv
    obtain ⟨w, hw, he⟩ := oOf_keys _ h.barsKeyed _ _ hA.bars v hv
    exact ⟨w, by simp [hw], he⟩

theorem store_undo_o {V : Type} (tick : V → Nat) {s : Store V} (hs : SortedStore s) (hk : Keyed tick s)
    (f A B : List V) (hf : ∀ v ∈ f, (tick v, v) ∈ s) (hd : (A.map tick).Nodup)
    (hB : ∀ v ∈ B, (addItems tick (removeItems tick s f) A).get? (tick v) = none) :
    addItems tick (removeItems tick (addItems tick (removeItems tick s f) (A ++ B)) (A ++ B))
      (f ++ oOf tick s f A) = s :=
  store_undo tick hs f _ A B (fun v hv => Store.get?_of_mem hs (hf v hv))
    (fun k => bulkAdd_snd_lastWith tick (keyed_removeItems tick hk f) A hd k) hB

theorem undo_items {p : Project} (h : WF p) {f A : Models} (bs : List Bar)
    (hf : Present p f) (hd : DistinctTicks A)
    (hbs : ∀ b ∈ bs, (p.swap f A).bars.get? b.startTick = none) :
    Same ((p.swap f { A with bars := A.bars ++ bs }).swap { A with bars := A.bars ++ bs } (recorded p f A)) p where
  rhythm := rfl
  key := rfl
  grid := rfl
  notes := notes_undo h.notesKeyed f.notes A.notes hf.notes
  bars := store_undo_o Bar.startTick h.bars h.barsKeyed f.bars A.bars bs hf.bars hd.bars hbs
  tempos := by
    have := store_undo_o Tempo.startTick h.tempos h.temposKeyed f.tempos A.tempos [] hf.tempos hd.tempos (by simp)
    simp only [List.append_nil] at this
    exact this
  dumpers := by
    have := store_undo_o CtrlChg.startTick h.dumpers h.dumpersKeyed f.dumpers A.dumpers [] hf.dumpers hd.dumpers (by simp)
    simp only [List.append_nil] at this
    exact this
  softs := by
    have := store_undo_o CtrlChg.startTick h.softs h.softsKeyed f.softs A.softs [] hf.softs hd.softs (by simp)
    simp only [List.append_nil] at this
    exact this

theorem swap_same {p q : Project} (h : Same p q) (o i : Models) : Same (p.swap o i) (q.swap o i) where
  rhythm := h.rhythm
  key := h.key
  grid := h.grid
  notes := notes_swap_perm h.notes o.notes i.notes
  bars := by simp only [swap, h.bars]
  tempos := by simp only [swap, h.tempos]
  dumpers := by simp only [swap, h.dumpers]
  softs := by simp only [swap, h.softs]

end Project

theorem same_undo {p q : Project} (h : Same p q) (c : ProjectCmd) : Same (c.undo p) (c.undo q) := by
  cases c with
  | setRhythm o n => exact { h with rhythm := rfl }
  | setKey o n => exact { h with key := rfl }
  | setGrid o n => exact { h with grid := rfl }
  | modelChanged a r _ => exact Project.swap_same h a r

theorem same_redo {p q : Project} (h : Same p q) (c : ProjectCmd) : Same (c.redo p) (c.redo q) := by
  cases c with
  | setRhythm o n => exact { h with rhythm := rfl }
  | setKey o n => exact { h with key := rfl }
  | setGrid o n => exact { h with grid := rfl }
  | modelChanged a r _ => exact Project.swap_same h r a

theorem Spec.Same.refl (p : Project) : Same p p := ⟨rfl, rfl, rfl, List.Perm.refl _, rfl, rfl, rfl, rfl⟩
theorem Spec.Same.symm {p q : Project} (h : Same p q) : Same q p :=
  ⟨h.rhythm.symm, h.key.symm, h.grid.symm, h.notes.symm, h.bars.symm, h.tempos.symm, h.dumpers.symm, h.softs.symm⟩
theorem Spec.Same.trans {p q r : Project} (h : Same p q) (k : Same q r) : Same p r :=
  ⟨h.rhythm.trans k.rhythm, h.key.trans k.key, h.grid.trans k.grid, h.notes.trans k.notes,
   h.bars.trans k.bars, h.tempos.trans k.tempos, h.dumpers.trans k.dumpers, h.softs.trans k.softs⟩

end Klavier
