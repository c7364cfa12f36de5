import Verif.Lemmas.Steps
import Verif.Props.Queries

/-! # C83: changing things in two steps -/
set_option autoImplicit false
namespace Klavier
open Spec Project

private theorem valid_change {p : Project} (h : ValidNotes p) (f m : Models) (hm : ∀ n ∈ m.notes, ValidLength n) :
    ValidNotes (p.swap f m) := by
  intro a ha
  rcases List.mem_append.1 ((addNotes_perm _ _).mem_iff.1 ha) with ha | ha
  · obtain ⟨n, hn, rfl⟩ := List.mem_map.1 ha
    exact hm n hn
  · exact h a ((removeNotes_sublist _ _).subset ha)

/-- C83: notes, tempos and pedals that are changed in two steps end as they end when they are
changed at once.  The notes always do (up to the order of notes at the same tick); tempos and
pedals do exactly if in between none was put in the place of one that was to stay.  The bars
completed on the way stay; there are no others than at once if what was there in between fits
in these. -/
theorem C83_steps (p p1 p2 : Project) (j : Journey) (md md' md'' : Metadata) (c c' : ProjectCmd) (h : WF p) (hv : ValidNotes p)
    (ht : (∀ e ∈ j.tempos, e.2.1.startTick ≤ U32_MAX ∧ e.2.2.startTick ≤ U32_MAX) ∧
      (∀ e ∈ j.dumpers, e.2.1.startTick ≤ U32_MAX ∧ e.2.2.startTick ≤ U32_MAX) ∧
      ∀ e ∈ j.softs, e.2.1.startTick ≤ U32_MAX ∧ e.2.2.startTick ≤ U32_MAX)
    (hn : ∀ e ∈ j.notes, ValidLength e.2.1 ∧ ValidLength e.2.2)
    (h1 : p.exec (.change j.there md) = .ok (some (p1, c))) (h2 : p1.exec (.change j.onward md') = .ok (some (p2, c'))) :
    ∃ q d, p.exec (.change j.direct md'') = .ok (some (q, d)) ∧
      q.rhythm = p2.rhythm ∧ q.key = p2.key ∧ q.grid = p2.grid ∧ p2.notes.Perm q.notes ∧
      (p2.tempos = q.tempos ↔ NoneLost Tempo.startTick p.tempos j.tempos) ∧
      (p2.dumpers = q.dumpers ↔ NoneLost CtrlChg.startTick p.dumpers j.dumpers) ∧
      (p2.softs = q.softs ↔ NoneLost CtrlChg.startTick p.softs j.softs) ∧
      q.bars <+: p2.bars ∧ (CoveredUpTo p1 (lastBarTick q.bars) → p2.bars = q.bars) := by
  obtain ⟨bs, h1⟩ := (exec_change _ _ _ _).1 ⟨c, h1⟩
  obtain ⟨bs', h2⟩ := (exec_change _ _ _ _).1 ⟨c', h2⟩
  have t1 : Ticks32 (changeTo j.there) := by
    refine ⟨by simp [changeTo, Journey.there, Journey.leg], ?_, ?_, ?_⟩ <;>
      simp only [changeTo, Journey.there, Journey.leg, List.map_map, List.mem_map, Function.comp] <;> rintro b ⟨e, he, rfl⟩
    · exact (ht.1 e he).1
    · exact (ht.2.1 e he).1
    · exact (ht.2.2 e he).1
  have t2 : ∀ k, k = j.onward ∨ k = j.direct → Ticks32 (changeTo k) := by
    rintro k (rfl | rfl) <;>
    · refine ⟨by simp [changeTo, Journey.onward, Journey.direct, Journey.leg], ?_, ?_, ?_⟩ <;>
        simp only [changeTo, Journey.onward, Journey.direct, Journey.leg, List.map_map, List.mem_map, Function.comp] <;> rintro b ⟨e, he, rfl⟩
      · exact (ht.1 e he).2
      · exact (ht.2.1 e he).2
      · exact (ht.2.2 e he).2
  have w1 := swap_wf h (changeFrom j.there) _ t1
  have w3 := swap_wf h (changeFrom j.direct) _ (t2 _ (.inr rfl))
  have w2 := swap_wf w1 (changeFrom j.onward) _ (t2 _ (.inl rfl))
  have v1 : ValidNotes (p.swap (changeFrom j.there) (changeTo j.there)) := by
    refine valid_change hv _ _ ?_
    simp only [changeTo, Journey.there, Journey.leg, List.map_map, List.mem_map, Function.comp]
    rintro n ⟨e, he, rfl⟩
    exact (hn e he).1
  have v23 : ∀ k, k = j.onward ∨ k = j.direct → ∀ n ∈ (changeTo k).notes, ValidLength n := by
    rintro k (rfl | rfl) <;>
    · simp only [changeTo, Journey.onward, Journey.direct, Journey.leg, List.map_map, List.mem_map, Function.comp]
      rintro n ⟨e, he, rfl⟩
      exact (hn e he).2
  have v2 := valid_change v1 (changeFrom j.onward) _ (v23 _ (.inl rfl))
  have v3 := valid_change hv (changeFrom j.direct) _ (v23 _ (.inr rfl))
  obtain ⟨e1, -⟩ := replenish_shape w1 h1
  have hp1 : p1 = { p.swap (changeFrom j.there) (changeTo j.there) with bars := p1.bars } := by
    rw [e1]
  have h2' : ({ (p.swap (changeFrom j.there) (changeTo j.there)).swap (changeFrom j.onward) (changeTo j.onward) with bars := p1.bars } :
      Project).replenishBars = .ok (p2, bs') := by
    rw [← h2]
    congr 1
    rw [hp1]
    rfl
  have legs : ∀ {V : Type} (l : List (V × V × V)), (l.map (fun e => (e.1, e.2.1))).map (·.1) = l.map (·.1) ∧
      (l.map (fun e => (e.1, e.2.1))).map (·.2) = l.map (·.2.1) ∧ (l.map (fun e => (e.2.1, e.2.2))).map (·.1) = l.map (·.2.1) ∧
      (l.map (fun e => (e.2.1, e.2.2))).map (·.2) = l.map (·.2.2) ∧ (l.map (fun e => (e.1, e.2.2))).map (·.1) = l.map (·.1) ∧
      (l.map (fun e => (e.1, e.2.2))).map (·.2) = l.map (·.2.2) := by
    intro V l
    simp only [List.map_map]
    exact ⟨rfl, rfl, rfl, rfl, rfl, rfl⟩
  have notes2 : ((p.swap (changeFrom j.there) (changeTo j.there)).swap (changeFrom j.onward) (changeTo j.onward)).notes.Perm
      (p.swap (changeFrom j.direct) (changeTo j.direct)).notes := by
    simp only [swap, changeFrom, changeTo, Journey.there, Journey.onward, Journey.direct, Journey.leg, legs]
    exact notes_steps _ _ _ _
  have up : ∀ {V : Type} (tick : V → Nat) {s : Store V}, SortedStore s → ∀ (l : List (V × V × V)) (x : Nat),
      (∀ q ∈ addItems tick (removeItems tick s (l.map (·.1))) (l.map (·.2.1)), q.1 ≤ x) →
      (∀ q ∈ addItems tick (removeItems tick (addItems tick (removeItems tick s (l.map (·.1))) (l.map (·.2.1))) (l.map (·.2.1))) (l.map (·.2.2)),
        q.1 ≤ x) → ∀ q ∈ addItems tick (removeItems tick s (l.map (·.1))) (l.map (·.2.2)), q.1 ≤ x := by
    intro V tick s hs l x k1 k2 q hq
    rcases keys_direct tick hs _ (l.map (·.2.1)) _ hq with ⟨q', g, e⟩ | ⟨q', g, e⟩
    · exact e ▸ k2 q' g
    · exact e ▸ k1 q' g
  have cov : ∀ x, CoveredUpTo (p.swap (changeFrom j.there) (changeTo j.there)) x →
      CoveredUpTo ((p.swap (changeFrom j.there) (changeTo j.there)).swap (changeFrom j.onward) (changeTo j.onward)) x →
      CoveredUpTo (p.swap (changeFrom j.direct) (changeTo j.direct)) x := by
    intro x k1 k2
    refine ⟨fun a ha => k2.notes a (notes2.mem_iff.2 ha), ?_, ?_, ?_⟩
    · have a1 := k1.tempos
      have a2 := k2.tempos
      simp only [swap, changeFrom, changeTo, Journey.there, Journey.onward, Journey.direct, Journey.leg, legs] at a1 a2 ⊢
      exact up _ h.tempos _ _ a1 a2
    · have a1 := k1.dumpers
      have a2 := k2.dumpers
      simp only [swap, changeFrom, changeTo, Journey.there, Journey.onward, Journey.direct, Journey.leg, legs] at a1 a2 ⊢
      exact up _ h.dumpers _ _ a1 a2
    · have a1 := k1.softs
      have a2 := k2.softs
      simp only [swap, changeFrom, changeTo, Journey.there, Journey.onward, Journey.direct, Journey.leg, legs] at a1 a2 ⊢
      exact up _ h.softs _ _ a1 a2
  have cov' : ∀ x, CoveredUpTo (p.swap (changeFrom j.direct) (changeTo j.direct)) x →
      CoveredUpTo ((p.swap (changeFrom j.there) (changeTo j.there)).swap (changeFrom j.onward) (changeTo j.onward)) x := by
    intro x k
    refine ⟨fun a ha => k.notes a (notes2.mem_iff.1 ha), ?_, ?_, ?_⟩
    · have a := k.tempos
      simp only [swap, changeFrom, changeTo, Journey.there, Journey.onward, Journey.direct, Journey.leg, legs] at a ⊢
      exact fun q hq => a q (keys_steps _ h.tempos _ _ _ hq)
    · have a := k.dumpers
      simp only [swap, changeFrom, changeTo, Journey.there, Journey.onward, Journey.direct, Journey.leg, legs] at a ⊢
      exact fun q hq => a q (keys_steps _ h.dumpers _ _ _ hq)
    · have a := k.softs
      simp only [swap, changeFrom, changeTo, Journey.there, Journey.onward, Journey.direct, Journey.leg, legs] at a ⊢
      exact fun q hq => a q (keys_steps _ h.softs _ _ _ hq)
  obtain ⟨q, bs3, g1, g2, g3, g4, g5⟩ := replenish_detour w1 w2 w3 v1 v2 v3 rfl rfl rfl cov cov' h1 h2'
  obtain ⟨d, hd⟩ := (exec_change p q j.direct md'').2 ⟨bs3, g1⟩
  refine ⟨q, d, hd, ?_, ?_, ?_, ?_, ?_, ?_, ?_, g4, ?_⟩
  · rw [g2, g3]; rfl
  · rw [g2, g3]; rfl
  · rw [g2, g3]; rfl
  · rw [g2, g3]; exact notes2
  · rw [g2, g3]
    simp only [swap, changeFrom, changeTo, Journey.there, Journey.onward, Journey.direct, Journey.leg, legs]
    exact store_steps _ h.tempos _
  · rw [g2, g3]
    simp only [swap, changeFrom, changeTo, Journey.there, Journey.onward, Journey.direct, Journey.leg, legs]
    exact store_steps _ h.dumpers _
  · rw [g2, g3]
    simp only [swap, changeFrom, changeTo, Journey.there, Journey.onward, Journey.direct, Journey.leg, legs]
    exact store_steps _ h.softs _
  · intro hc
    refine g5 ?_
    rw [hp1] at hc
    exact (covered_bars _ _ _).2 hc

private theorem items_still {V : Type} (tick : V → Nat) {s : Store V} (hs : SortedStore s) (l : List V)
    (hl : ∀ v ∈ l, (tick v, v) ∈ s) : addItems tick (removeItems tick s l) l = s := by
  refine Store.ext (sorted_addItems _ (sorted_removeItems _ hs _) _) hs ?_
  intro k
  rw [get?_one tick hs]
  cases hk : lastWith tick l k with
  | none => simp
  | some v =>
    obtain ⟨g1, rfl⟩ := lastWith_some hk
    exact (Store.get?_of_mem hs (hl v g1)).symm

private theorem notes_still {p : Project} (h : Keyed Note.startTick p.notes) (l : List Note)
    (hl : ∀ n, l.count n ≤ (p.notes.map (·.2)).count n) : (addNotes (removeNotes p.notes l) l).Perm p.notes :=
  ((notes_steps p.notes l l l).symm).trans (notes_undo h l l hl)

/-- C83, no change: changing things of the project into themselves leaves everything as it is
(up to the order of notes at the same tick), but for the bars that are completed if there were
too few. -/
theorem C83_still (p q : Project) (m : Models) (md : Metadata) (d : ProjectCmd) (h : WF p) (hv : ValidNotes p)
    (hn : ∀ n, m.notes.count n ≤ (p.notes.map (·.2)).count n) (hb : ∀ b ∈ m.bars, (b.startTick, b) ∈ p.bars)
    (ht : ∀ b ∈ m.tempos, (b.startTick, b) ∈ p.tempos) (hd : ∀ b ∈ m.dumpers, (b.startTick, b) ∈ p.dumpers)
    (hs : ∀ b ∈ m.softs, (b.startTick, b) ∈ p.softs)
    (he : p.exec (.change ⟨m.notes.map (fun a => (a, a)), m.bars.map (fun a => (a, a)), m.tempos.map (fun a => (a, a)),
      m.dumpers.map (fun a => (a, a)), m.softs.map (fun a => (a, a))⟩ md) = .ok (some (q, d))) :
    Same q { p with bars := q.bars } ∧ p.bars <+: q.bars ∧ (CoveredUpTo p (lastBarTick p.bars) → q.bars = p.bars) := by
  obtain ⟨bs, he⟩ := (exec_change _ _ _ _).1 ⟨d, he⟩
  have both : ∀ {V : Type} (l : List V), (l.map (fun a => (a, a))).map (·.1) = l ∧ (l.map (fun a => (a, a))).map (·.2) = l := by
    intro V l
    simp [List.map_map, Function.comp_def]
  simp only [changeFrom, changeTo, both] at he
  have e : p.swap ⟨m.notes, m.bars, m.tempos, m.dumpers, m.softs⟩ ⟨m.notes, m.bars, m.tempos, m.dumpers, m.softs⟩ =
      { p with notes := addNotes (removeNotes p.notes m.notes) m.notes } := by
    simp only [swap]
    rw [items_still _ h.bars _ hb, items_still _ h.tempos _ ht, items_still _ h.dumpers _ hd, items_still _ h.softs _ hs]
  rw [e] at he
  have hp := notes_still h.notesKeyed m.notes hn
  obtain ⟨n1, n2⟩ := notes_swap_wf h.notes h.notesKeyed m.notes m.notes
  have w : WF { p with notes := addNotes (removeNotes p.notes m.notes) m.notes } :=
    ⟨n1, n2, h.bars, h.barsKeyed, h.tempos, h.temposKeyed, h.dumpers, h.dumpersKeyed, h.softs, h.softsKeyed⟩
  have v : ValidNotes { p with notes := addNotes (removeNotes p.notes m.notes) m.notes } := fun a ha => hv a (hp.mem_iff.1 ha)
  obtain ⟨r, hr⟩ := exists_latest w
  obtain ⟨k, a1, a2, a3, a4, a5⟩ := (replenish_ok_iff w v hr).1 he
  rw [a4]
  refine ⟨⟨rfl, rfl, rfl, hp, rfl, rfl, rfl, rfl⟩, ⟨_, rfl⟩, ?_⟩
  intro hc
  obtain rfl : k = 0 := by
    rcases Nat.eq_zero_or_pos k with rfl | hk
    · rfl
    · refine absurd ?_ (a3 0 hk)
      rw [Nat.zero_mul, Nat.add_zero]
      exact ⟨fun a ha => hc.notes a (hp.mem_iff.1 ha), hc.tempos, hc.dumpers, hc.softs⟩
  simp [regularBars]

/-- C83, there and back: things of the project that are changed and changed back end as they
were: the notes always, tempos and pedals exactly if in between none was put in the place of
another that was to stay.  The bars completed on the way stay. -/
theorem C83_back (p p1 p2 : Project) (j : Journey) (md md' : Metadata) (c c' : ProjectCmd) (h : WF p) (hv : ValidNotes p)
    (hn : ∀ n, (j.notes.map (·.1)).count n ≤ (p.notes.map (·.2)).count n)
    (ht : ∀ e ∈ j.tempos, (e.1.startTick, e.1) ∈ p.tempos) (hd : ∀ e ∈ j.dumpers, (e.1.startTick, e.1) ∈ p.dumpers)
    (hs : ∀ e ∈ j.softs, (e.1.startTick, e.1) ∈ p.softs) (hj : j.Returns)
    (hu : (∀ e ∈ j.tempos, e.2.1.startTick ≤ U32_MAX) ∧ (∀ e ∈ j.dumpers, e.2.1.startTick ≤ U32_MAX) ∧ ∀ e ∈ j.softs, e.2.1.startTick ≤ U32_MAX)
    (hl : ∀ e ∈ j.notes, ValidLength e.2.1)
    (h1 : p.exec (.change j.there md) = .ok (some (p1, c))) (h2 : p1.exec (.change j.onward md') = .ok (some (p2, c'))) :
    p2.rhythm = p.rhythm ∧ p2.key = p.key ∧ p2.grid = p.grid ∧ p2.notes.Perm p.notes ∧
      (p2.tempos = p.tempos ↔ NoneLost Tempo.startTick p.tempos j.tempos) ∧
      (p2.dumpers = p.dumpers ↔ NoneLost CtrlChg.startTick p.dumpers j.dumpers) ∧
      (p2.softs = p.softs ↔ NoneLost CtrlChg.startTick p.softs j.softs) ∧
      p.bars <+: p2.bars := by
  obtain ⟨r1, r2, r3, r4⟩ := hj
  have valid : ∀ n, n ∈ j.notes.map (·.1) → ValidLength n := by
    intro n hm
    have hpos := List.count_pos_iff.2 hm
    obtain ⟨q, hq, rfl⟩ := List.mem_map.1 (List.count_pos_iff.1 (Nat.lt_of_lt_of_le hpos (hn n)))
    exact hv q hq
  obtain ⟨q, d, g1, g2, g3, g4, g5, g6, g7, g8, g9, -⟩ := C83_steps p p1 p2 j md md' {} c c' h hv
    ⟨fun e he => ⟨hu.1 e he, by rw [r2 e he]; exact (h.temposKeyed _ (ht e he)).2⟩,
      fun e he => ⟨hu.2.1 e he, by rw [r3 e he]; exact (h.dumpersKeyed _ (hd e he)).2⟩,
      fun e he => ⟨hu.2.2 e he, by rw [r4 e he]; exact (h.softsKeyed _ (hs e he)).2⟩⟩
    (fun e he => ⟨hl e he, by rw [r1 e he]; exact valid _ (List.mem_map.2 ⟨e, he, rfl⟩)⟩) h1 h2
  have same : ∀ {V : Type} (l : List (V × V × V)), (∀ e ∈ l, e.2.2 = e.1) →
      l.map (fun e => (e.1, e.2.2)) = (l.map (·.1)).map (fun a => (a, a)) := by
    intro V l hl
    rw [List.map_map]
    refine List.map_congr_left fun e he => ?_
    simp only [Function.comp, hl e he]
  have e : j.direct = ⟨(j.notes.map (·.1)).map (fun a => (a, a)), (([] : List Bar)).map (fun a => (a, a)), (j.tempos.map (·.1)).map (fun a => (a, a)),
      (j.dumpers.map (·.1)).map (fun a => (a, a)), (j.softs.map (·.1)).map (fun a => (a, a))⟩ := by
    simp only [Journey.direct, Journey.leg, same _ r1, same _ r2, same _ r3, same _ r4]
    rfl
  rw [e] at g1
  have here : ∀ {V : Type} (l : List (V × V × V)) (P : V → Prop), (∀ e ∈ l, P e.1) → ∀ b ∈ l.map (·.1), P b := by
    intro V l P hl b hb
    obtain ⟨e, he, rfl⟩ := List.mem_map.1 hb
    exact hl e he
  have k : Same q { p with bars := q.bars } ∧ p.bars <+: q.bars ∧ (CoveredUpTo p (lastBarTick p.bars) → q.bars = p.bars) := by
    refine C83_still p q ⟨j.notes.map (·.1), [], j.tempos.map (·.1), j.dumpers.map (·.1), j.softs.map (·.1)⟩ {} d h hv hn
      (fun b hb => absurd hb List.not_mem_nil) (here j.tempos _ ht) (here j.dumpers _ hd) (here j.softs _ hs) ?_
    exact g1
  obtain ⟨k1, k2, -⟩ := k
  have i1 := k1.tempos
  have i2 := k1.dumpers
  have i3 := k1.softs
  simp only at i1 i2 i3
  rw [i1] at g6
  rw [i2] at g7
  rw [i3] at g8
  exact ⟨g2.symm.trans k1.rhythm, g3.symm.trans k1.key, g4.symm.trans k1.grid, g5.trans k1.notes, g6, g7, g8, k2.trans g9⟩

/-! ### Examples -/

private theorem example_valid : ValidNotes exampleProject := by
  intro q hq
  simp only [exampleProject, List.mem_cons, List.not_mem_nil, or_false] at hq
  rcases hq with rfl | rfl <;> exact ⟨⟨by decide, by decide, by decide⟩, by decide⟩

/-- A tempo goes from tick 10 by way of tick `t` to tick `u`, and a note with it. -/
private def tour (t u : Nat) : Journey where
  notes := [(exampleNote, { exampleNote with baseStartTick := 2600 }, { exampleNote with baseStartTick := 50 })]
  tempos := [(⟨10, ⟨100⟩⟩, ⟨t, ⟨100⟩⟩, ⟨u, ⟨100⟩⟩)]

private theorem tour_valid (t u : Nat) : ∀ e ∈ (tour t u).notes, ValidLength e.2.1 ∧ ValidLength e.2.2 := by
  intro e he
  simp only [tour, List.mem_cons, List.not_mem_nil, or_false] at he
  subst he
  exact ⟨⟨⟨by decide, by decide, by decide⟩, by decide⟩, ⟨⟨by decide, by decide, by decide⟩, by decide⟩⟩

private theorem runs {p : Project} {e : Edit} {f : Project → List Nat × List Nat × List Nat} {l : List Nat × List Nat × List Nat}
    (h : (p.exec e).map (fun o => o.map fun q => f q.1) = .ok (some l)) : ∃ q c, p.exec e = .ok (some (q, c)) ∧ f q = l := by
  cases hc : p.exec e with
  | error x => rw [hc] at h; cases h
  | ok o =>
    rw [hc] at h
    cases o with
    | none => cases h
    | some q => exact ⟨q.1, q.2, rfl, Option.some.inj (Except.ok.inj h)⟩

private theorem toured {t u : Nat} {f : Project → List Nat × List Nat × List Nat} {l : List Nat × List Nat × List Nat}
    (h : ((exampleProject.exec (.change (tour t u).there {})).bind fun o => match o with
      | some q => (q.1.exec (.change (tour t u).onward {})).map fun o => o.map fun q => f q.1
      | none => .ok none) = .ok (some l)) :
    ∃ p1 p2 c c', exampleProject.exec (.change (tour t u).there {}) = .ok (some (p1, c)) ∧
      p1.exec (.change (tour t u).onward {}) = .ok (some (p2, c')) ∧ f p2 = l := by
  cases hx : exampleProject.exec (.change (tour t u).there {}) with
  | error e => rw [hx] at h; cases h
  | ok o =>
    rw [hx] at h
    cases o with
    | none => cases h
    | some o =>
      obtain ⟨p2, c', g1, g2⟩ := runs (p := o.1) (f := f) (l := l) h
      exact ⟨o.1, p2, o.2, c', rfl, g1, g2⟩

private def ticks (p : Project) : List Nat × List Nat × List Nat := (p.notes.map (·.1), p.tempos.map (·.1), p.bars.map (·.1))

/-- By way of a free tick: as at once, and with the bars completed on the way. -/
example : ∃ p1 p2 c c' q d, exampleProject.exec (.change (tour 15 30).there {}) = .ok (some (p1, c)) ∧
    p1.exec (.change (tour 15 30).onward {}) = .ok (some (p2, c')) ∧ exampleProject.exec (.change (tour 15 30).direct {}) = .ok (some (q, d)) ∧
    p2.tempos = q.tempos ∧ ticks p2 = ([50, 1200], [20, 30], [100, 1000, 2000, 2480, 2960]) ∧ ticks q = ([50, 1200], [20, 30], [100, 1000, 2000]) := by
  obtain ⟨p1, p2, c, c', h1, h2, h3⟩ := toured (t := 15) (u := 30) (f := ticks)
    (l := ([50, 1200], [20, 30], [100, 1000, 2000, 2480, 2960])) (by decide +kernel)
  obtain ⟨q', d', k1, k2⟩ := runs (p := exampleProject) (e := .change (tour 15 30).direct {}) (f := ticks)
    (l := ([50, 1200], [20, 30], [100, 1000, 2000])) (by decide +kernel)
  obtain ⟨q, d, g, -, -, -, -, g1, -⟩ := C83_steps exampleProject p1 p2 (tour 15 30) {} {} {} c c' exampleProject_wf example_valid
    ⟨by decide, by decide, by decide⟩ (tour_valid _ _) h1 h2
  obtain ⟨rfl, rfl⟩ : q = q' ∧ d = d' := by
    rw [k1] at g
    cases g
    exact ⟨rfl, rfl⟩
  refine ⟨p1, p2, c, c', q, d, h1, h2, g, g1.2 ?_, h3, k2⟩
  intro e he q hq hk
  simp only [tour, List.mem_cons, List.not_mem_nil, or_false] at he
  subst he
  simp only [exampleProject, List.mem_cons, List.not_mem_nil, or_false] at hq
  rcases hq with rfl | rfl <;> simp at hk

/-- By way of the tick of another tempo: that one is gone. -/
example : ∃ p1 p2 c c' q d, exampleProject.exec (.change (tour 20 30).there {}) = .ok (some (p1, c)) ∧
    p1.exec (.change (tour 20 30).onward {}) = .ok (some (p2, c')) ∧ exampleProject.exec (.change (tour 20 30).direct {}) = .ok (some (q, d)) ∧
    p2.tempos.map (·.1) = [30] ∧ p2.tempos ≠ q.tempos := by
  obtain ⟨p1, p2, c, c', h1, h2, h3⟩ := toured (t := 20) (u := 30) (f := ticks)
    (l := ([50, 1200], [30], [100, 1000, 2000, 2480, 2960])) (by decide +kernel)
  obtain ⟨q, d, g, -, -, -, -, g1, -⟩ := C83_steps exampleProject p1 p2 (tour 20 30) {} {} {} c c' exampleProject_wf example_valid
    ⟨by decide, by decide, by decide⟩ (tour_valid _ _) h1 h2
  refine ⟨p1, p2, c, c', q, d, h1, h2, g, congrArg (fun x : List Nat × List Nat × List Nat => x.2.1) h3, ?_⟩
  intro h
  have := g1.1 h (⟨10, ⟨100⟩⟩, ⟨20, ⟨100⟩⟩, ⟨30, ⟨100⟩⟩) (by decide) (20, ⟨20, ⟨200⟩⟩) (by decide) rfl
  rcases this with ⟨e, he, h⟩ | ⟨e, he, h⟩ <;>
  · simp only [tour, List.mem_cons, List.not_mem_nil, or_false] at he
    subst he
    simp at h

/-- There and back: the note and the tempo are where they were, and two more bars. -/
private def trip (t : Nat) : Journey where
  notes := [(exampleNote, { exampleNote with baseStartTick := 2600 }, exampleNote)]
  tempos := [(⟨10, ⟨100⟩⟩, ⟨t, ⟨100⟩⟩, ⟨10, ⟨100⟩⟩)]

private theorem tripped {t : Nat} {f : Project → List Nat × List Nat × List Nat} {l : List Nat × List Nat × List Nat}
    (h : ((exampleProject.exec (.change (trip t).there {})).bind fun o => match o with
      | some q => (q.1.exec (.change (trip t).onward {})).map fun o => o.map fun q => f q.1
      | none => .ok none) = .ok (some l)) :
    ∃ p1 p2 c c', exampleProject.exec (.change (trip t).there {}) = .ok (some (p1, c)) ∧
      p1.exec (.change (trip t).onward {}) = .ok (some (p2, c')) ∧ f p2 = l := by
  cases hx : exampleProject.exec (.change (trip t).there {}) with
  | error e => rw [hx] at h; cases h
  | ok o =>
    rw [hx] at h
    cases o with
    | none => cases h
    | some o =>
      obtain ⟨p2, c', g1, g2⟩ := runs (p := o.1) (f := f) (l := l) h
      exact ⟨o.1, p2, o.2, c', rfl, g1, g2⟩

example : ∃ p1 p2 c c', exampleProject.exec (.change (trip 15).there {}) = .ok (some (p1, c)) ∧
    p1.exec (.change (trip 15).onward {}) = .ok (some (p2, c')) ∧ p2.tempos = exampleProject.tempos ∧ p2.notes.Perm exampleProject.notes ∧
    p2.bars.map (·.1) = [100, 1000, 2000, 2480, 2960] := by
  obtain ⟨p1, p2, c, c', h1, h2, h3⟩ := tripped (t := 15) (f := ticks)
    (l := ([100, 1200], [10, 20], [100, 1000, 2000, 2480, 2960])) (by decide +kernel)
  obtain ⟨-, -, -, g, g1, -⟩ := C83_back exampleProject p1 p2 (trip 15) {} {} c c' exampleProject_wf example_valid
    (fun n => List.Sublist.count_le n (by simp [trip, exampleProject])) (by decide) (by decide) (by decide)
    ⟨by simp [trip], by simp [trip], by simp [trip], by simp [trip]⟩ ⟨by decide, by decide, by decide⟩
    (fun e he => by
      simp only [trip, List.mem_cons, List.not_mem_nil, or_false] at he
      subst he
      exact ⟨⟨by decide, by decide, by decide⟩, by decide⟩) h1 h2
  refine ⟨p1, p2, c, c', h1, h2, g1.2 ?_, g, congrArg (fun x : List Nat × List Nat × List Nat => x.2.2) h3⟩
  intro e he q hq hk
  simp only [trip, List.mem_cons, List.not_mem_nil, or_false] at he
  subst he
  simp only [exampleProject, List.mem_cons, List.not_mem_nil, or_false] at hq
  rcases hq with rfl | rfl <;> simp at hk

example : ∃ q d, exampleProject.exec (.change ⟨[], [], [(⟨10, ⟨100⟩⟩, ⟨10, ⟨100⟩⟩)], [], []⟩ {}) = .ok (some (q, d)) ∧
    q.tempos = exampleProject.tempos ∧ q.bars.map (·.1) = [100, 1000, 2000] := by
  obtain ⟨q, d, h, h'⟩ := runs (p := exampleProject) (e := .change ⟨[], [], [(⟨10, ⟨100⟩⟩, ⟨10, ⟨100⟩⟩)], [], []⟩ {}) (f := ticks)
    (l := ([100, 1200], [10, 20], [100, 1000, 2000])) (by decide +kernel)
  have g := C83_still exampleProject q { tempos := [⟨10, ⟨100⟩⟩] } {} d exampleProject_wf example_valid (by simp) (by decide) (by decide)
    (by decide) (by decide) h
  exact ⟨q, d, h, g.1.tempos, congrArg (fun x : List Nat × List Nat × List Nat => x.2.2) h'⟩

end Klavier
