import Verif.Lemmas.Moving
import Verif.Props.Queries
import Verif.Props.Pitch
import Verif.Props.Values
import Verif.Props.Stretch

/-! # C84: moving the whole tune -/
set_option autoImplicit false
namespace Klavier
open Spec Project

private theorem note_dragged {d : Int} {n m : Note} (hp : ValidPitch n.pitch) (hf : Fits d n.baseStartTick)
    (h : n.drag d 0 = .ok m) : m = { n with baseStartTick := shift d n.baseStartTick } := by
  by_cases hs : n.pitch.scoreOffset ≤ 74
  · rw [C11_drag_note_partial n d 0 n.pitch hf.2.2.1 hf.2.2.2 (C03_zero_partial hp hs)] at h
    exact (Except.ok.inj h).symm
  · exfalso
    by_cases hi : (n.pitch.scoreOffset : Int) + 0 ≤ I32_MAX
    · have e := (C03_shift hp 0 (by simp only [I32_MIN]; omega) hi).1 (.inr (by omega))
      simp only [Note.drag, e, R_bind_ok, unwrapR] at h
      cases h
    · have e := C03_shift_overflow (p := n.pitch) 0 (.inr (by omega))
      simp only [Note.drag, e] at h
      cases h

private theorem tempo_dragged {d : Int} {n m : Tempo} (hv : 1 ≤ n.value.value ∧ n.value.value ≤ 999) (hf : Fits d n.startTick)
    (h : n.drag d 0 = .ok m) : m = { n with startTick := shift d n.startTick } := by
  obtain ⟨m', h1, h2, h3⟩ := C48_drag_partial n d 0 (by omega) (by omega) hf.2.2.1 hf.2.2.2
  rw [h1] at h
  obtain rfl := Except.ok.inj h
  obtain ⟨t, v⟩ := m'
  obtain ⟨v⟩ := v
  obtain ⟨u, w⟩ := n
  obtain ⟨w⟩ := w
  simp only [shift] at *
  obtain rfl : v = w := by omega
  congr 1
  omega

private theorem bag_moved {d : Int} {p : Project} (h : WF p) (hr : HasRoom d p) (hv : ValidValues p) {c : ModelChanges}
    (hc : AllDragged d p c) : (addNotes (removeNotes p.notes (c.notes.map (·.1))) (c.notes.map (·.2))).Perm (moved d p).notes := by
  have keyed : p.notes = (p.notes.map (·.2)).map (fun n => (n.startTick, n)) := by
    rw [List.map_map]
    refine (List.map_id _).symm.trans (List.map_congr_left fun q hq => ?_)
    exact Prod.ext (h.notesKeyed q hq).1 rfl
  have all : removeNotes p.notes (c.notes.map (·.1)) = [] := by
    refine removeNotes_all _ _ ?_
    rw [keyed]
    exact hc.notes.map _
  rw [all]
  refine (addNotes_perm _ _).trans ?_
  rw [List.append_nil, List.map_map]
  have e1 : c.notes.map ((fun n : Note => (n.startTick, n)) ∘ (·.2)) =
      (c.notes.map (·.1)).map (fun n => (shift d n.startTick, { n with baseStartTick := shift d n.baseStartTick })) := by
    rw [List.map_map]
    refine List.map_congr_left fun e he => ?_
    obtain ⟨q, hq, hqe⟩ := List.mem_map.1 (hc.notes.mem_iff.1 (List.mem_map.2 ⟨e, he, rfl⟩))
    have k := hr.notes q hq
    have pv := hv.pitches q hq
    rw [hqe] at k pv
    have := note_dragged pv k.1 (hc.notesTo e he)
    simp only [Function.comp, this, start_moved k.2 k.1]
  have e2 : (moved d p).notes =
      (p.notes.map (·.2)).map (fun n => (shift d n.startTick, { n with baseStartTick := shift d n.baseStartTick })) := by
    rw [List.map_map]
    refine List.map_congr_left fun q hq => ?_
    simp only [Function.comp, (h.notesKeyed q hq).1]
  rw [e1, e2]
  exact hc.notes.map _

private theorem moved_wf {d : Int} {p : Project} (h : WF p) (hr : HasRoom d p) : WF (moved d p) := by
  have key : ∀ {V : Type} (tick : V → Nat) (f : V → V) (s : List (Nat × V)), Keyed tick s → (∀ q ∈ s, Fits d q.1) →
      (∀ q ∈ s, tick (f q.2) = shift d (tick q.2)) → Keyed tick (later d f s) := by
    intro V tick f s hk hf ht q hq
    obtain ⟨r, hr, rfl⟩ := mem_later hq
    refine ⟨by simp only [ht r hr, (hk r hr).1], ?_⟩
    have := (hf r hr).2.2.2
    simp only [shift]
    omega
  have fn : ∀ q ∈ p.notes, Fits d q.1 := by
    intro q hq
    rw [(h.notesKeyed q hq).1]
    exact start_fits (hr.notes q hq).2
  refine ⟨?_, key Note.startTick (noteTo d) _ h.notesKeyed fn fun q hq => start_moved (hr.notes q hq).2 (hr.notes q hq).1,
    sorted_later (barTo d) h.bars hr.bars, key Bar.startTick (barTo d) _ h.barsKeyed hr.bars fun _ _ => rfl,
    sorted_later (tempoTo d) h.tempos hr.tempos, key Tempo.startTick (tempoTo d) _ h.temposKeyed hr.tempos fun _ _ => rfl,
    sorted_later (pedalTo d) h.dumpers hr.dumpers, key CtrlChg.startTick (pedalTo d) _ h.dumpersKeyed hr.dumpers fun _ _ => rfl,
    sorted_later (pedalTo d) h.softs hr.softs, key CtrlChg.startTick (pedalTo d) _ h.softsKeyed hr.softs fun _ _ => rfl⟩
  refine List.pairwise_map.2 (List.Pairwise.imp_of_mem (fun {a b} _ hb g => ?_) h.notes)
  exact (shift_le (fn b hb).2.2.1).2 g

private theorem moved_core (d : Int) (p : Project) (c : ModelChanges) (md : Metadata) (h : WF p) (hn : ValidNotes p) (hv : ValidValues p)
    (hr : HasRoom d p) (hb : p.bars ≠ []) (hcov : CoveredUpTo p (lastBarTick p.bars)) (hc : AllDragged d p c) :
    ∃ q e, p.exec (.change c md) = .ok (some (q, e)) ∧ Same q (moved d p) ∧ WF q ∧ ValidNotes q ∧ CoveredUpTo q (lastBarTick q.bars) := by
  have hbars : addItems Bar.startTick (removeItems Bar.startTick p.bars (c.bars.map (·.1))) (c.bars.map (·.2)) = (moved d p).bars := by
    refine store_moved _ (fun v => { v with startTick := shift d v.startTick }) h.bars h.barsKeyed hr.bars (fun _ _ => rfl) _ hc.bars ?_
    rintro e he ⟨q, hq, hqe⟩
    rw [hc.barsTo e he, Bar.drag, asU32_shift]
    rw [← hqe, ← (h.barsKeyed q hq).1]
    exact hr.bars q hq
  have htempos : addItems Tempo.startTick (removeItems Tempo.startTick p.tempos (c.tempos.map (·.1))) (c.tempos.map (·.2)) =
      (moved d p).tempos := by
    refine store_moved _ (fun v => { v with startTick := shift d v.startTick }) h.tempos h.temposKeyed hr.tempos (fun _ _ => rfl) _ hc.tempos ?_
    rintro e he ⟨q, hq, hqe⟩
    refine tempo_dragged (hqe ▸ hv.tempos q hq) ?_ (hc.temposTo e he)
    rw [← hqe, ← (h.temposKeyed q hq).1]
    exact hr.tempos q hq
  have hpedal : ∀ {s : Store CtrlChg} {l : List (CtrlChg × CtrlChg)}, SortedStore s → Keyed CtrlChg.startTick s → (∀ q ∈ s, Fits d q.1) →
      (l.map (·.1)).Perm (s.map (·.2)) → (∀ e ∈ l, e.2 = e.1.drag d) →
      addItems CtrlChg.startTick (removeItems CtrlChg.startTick s (l.map (·.1))) (l.map (·.2)) =
        later d (fun v => { v with startTick := shift d v.startTick }) s := by
    intro s l h1 h2 h3 h4 h5
    refine store_moved _ (fun v => { v with startTick := shift d v.startTick }) h1 h2 h3 (fun _ _ => rfl) _ h4 ?_
    rintro e he ⟨q, hq, hqe⟩
    rw [h5 e he, CtrlChg.drag, asU32_shift]
    rw [← hqe, ← (h2 q hq).1]
    exact h3 q hq
  have hdumpers := hpedal h.dumpers h.dumpersKeyed hr.dumpers hc.dumpers hc.dumpersTo
  have hsofts := hpedal h.softs h.softsKeyed hr.softs hc.softs hc.softsTo
  have hnotes := bag_moved h hr hv hc
  have same : Same (p.swap (changeFrom c) (changeTo c)) (moved d p) := ⟨rfl, rfl, rfl, hnotes, hbars, htempos, hdumpers, hsofts⟩
  have w := moved_wf h hr
  have vn : ValidNotes (moved d p) := by
    intro q hq
    obtain ⟨r, hr', rfl⟩ := List.mem_map.1 hq
    exact ⟨(hn r hr').duration, (hn r hr').rate⟩
  have last : lastBarTick (moved d p).bars = shift d (lastBarTick p.bars) := by
    simp only [lastBarTick, moved, List.getLast?_map]
    cases hl : p.bars.getLast? with
    | none => exact absurd (List.getLast?_eq_none_iff.1 hl) hb
    | some q => rfl
  have cov : CoveredUpTo (moved d p) (lastBarTick (moved d p).bars) := by
    rw [last]
    have hL : 0 ≤ (lastBarTick p.bars : Int) + d := by
      simp only [lastBarTick]
      cases hl : p.bars.getLast? with
      | none => exact absurd (List.getLast?_eq_none_iff.1 hl) hb
      | some q => exact (hr.bars q (List.mem_of_getLast? hl)).2.2.1
    have st : ∀ {V : Type} (f : V → V) (s : List (Nat × V)), (∀ q ∈ s, q.1 ≤ lastBarTick p.bars) →
        ∀ q ∈ later d f s, q.1 ≤ shift d (lastBarTick p.bars) := by
      intro V f s hs q hq
      obtain ⟨r, hr, rfl⟩ := mem_later hq
      exact (shift_le hL).2 (hs r hr)
    refine ⟨?_, st (tempoTo d) _ hcov.tempos, st (pedalTo d) _ hcov.dumpers, st (pedalTo d) _ hcov.softs⟩
    intro q hq l hl
    obtain ⟨r, hr', rfl⟩ := List.mem_map.1 hq
    have a := hcov.notes r hr' l hl
    have k := (start_fits (hr.notes r hr').2).2.2.1
    rw [← (h.notesKeyed r hr').1] at k
    simp only [shift]
    omega
  obtain ⟨r, hl⟩ := exists_latest w
  have rep : (moved d p).replenishBars = .ok (moved d p, []) := by
    refine (replenish_ok_iff w vn hl).2 ⟨0, ?_, ?_, by omega, ?_, ?_⟩
    · have := lastBarTick_le w
      omega
    · rw [Nat.zero_mul, Nat.add_zero]
      exact cov
    · simp [regularBars]
    · simp [regularBars]
  have w0 : WF (p.swap (changeFrom c) (changeTo c)) := by
    obtain ⟨n1, n2⟩ := notes_swap_wf h.notes h.notesKeyed (c.notes.map (·.1)) (c.notes.map (·.2))
    refine ⟨n1, n2, ?_, ?_, ?_, ?_, ?_, ?_, ?_, ?_⟩
    · exact same.bars ▸ w.bars
    · exact same.bars ▸ w.barsKeyed
    · exact same.tempos ▸ w.tempos
    · exact same.tempos ▸ w.temposKeyed
    · exact same.dumpers ▸ w.dumpers
    · exact same.dumpers ▸ w.dumpersKeyed
    · exact same.softs ▸ w.softs
    · exact same.softs ▸ w.softsKeyed
  have v0 : ValidNotes (p.swap (changeFrom c) (changeTo c)) := fun q hq => vn q (same.notes.mem_iff.1 hq)
  have hl0 : LatestValue (p.swap (changeFrom c) (changeTo c)).bars Bar.rhythm (p.swap (changeFrom c) (changeTo c)).rhythm
      (lastBarTick (p.swap (changeFrom c) (changeTo c)).bars) r := by
    rw [same.bars, same.rhythm]
    exact hl
  have rep0 : (p.swap (changeFrom c) (changeTo c)).replenishBars = .ok (p.swap (changeFrom c) (changeTo c), []) := by
    refine (replenish_ok_iff w0 v0 hl0).2 ⟨0, ?_, ?_, by omega, ?_, ?_⟩
    · have := lastBarTick_le w0
      omega
    · rw [Nat.zero_mul, Nat.add_zero, same.bars]
      exact covered_same (same_symm same) cov
    · simp [regularBars]
    · simp [regularBars]
  obtain ⟨e, he⟩ := (exec_change p _ c md).2 ⟨_, rep0⟩
  refine ⟨_, e, he, same, w0, v0, ?_⟩
  rw [same.bars]
  exact covered_same (same_symm same) cov

/-- C84: dragging everything moves the whole tune.  Every tick changes by the same amount and
nothing else changes; no bars are completed if there was a bar line and all things ended at
the last one. -/
theorem C84_moved (d : Int) (p : Project) (c : ModelChanges) (md : Metadata) (h : WF p) (hn : ValidNotes p) (hv : ValidValues p)
    (hr : HasRoom d p) (hb : p.bars ≠ []) (hcov : CoveredUpTo p (lastBarTick p.bars)) (hc : AllDragged d p c) :
    ∃ q e, p.exec (.change c md) = .ok (some (q, e)) ∧ Same q (moved d p) := by
  obtain ⟨q, e, h1, h2, -⟩ := moved_core d p c md h hn hv hr hb hcov hc
  exact ⟨q, e, h1, h2⟩

/-- C84: in the moved tune, tempo, pedals, time signature and key are at every tick what they
were at the tick it came from. -/
theorem C84_values (d : Int) (p q : Project) (t : Nat) (h : WF p) (hr : HasRoom d p) (hs : Same q (moved d p)) (ht : 0 ≤ (t : Int) + d) :
    q.tempoAt (shift d t) = p.tempoAt t ∧ q.dumperAt (shift d t) = p.dumperAt t ∧ q.softAt (shift d t) = p.softAt t ∧
      q.rhythmAt (shift d t) = p.rhythmAt t ∧ q.keyAt (shift d t) = p.keyAt t := by
  have w := moved_wf h hr
  have e1 : q.tempoAt (shift d t) = (moved d p).tempoAt (shift d t) := by simp only [Project.tempoAt, hs.tempos]
  have e2 : q.dumperAt (shift d t) = (moved d p).dumperAt (shift d t) := by simp only [Project.dumperAt, hs.dumpers]
  have e3 : q.softAt (shift d t) = (moved d p).softAt (shift d t) := by simp only [Project.softAt, hs.softs]
  have e4 : q.rhythmAt (shift d t) = (moved d p).rhythmAt (shift d t) := by simp only [Project.rhythmAt, hs.bars, hs.rhythm]
  have e5 : q.keyAt (shift d t) = (moved d p).keyAt (shift d t) := by simp only [Project.keyAt, hs.bars, hs.key]
  rw [e1, e2, e3, e4, e5]
  obtain ⟨a1, a2, a3⟩ := C16_tempo p h t
  obtain ⟨b1, b2, b3⟩ := C16_tempo _ w (shift d t)
  obtain ⟨⟨c1, c2, c3⟩, ⟨i1, i2, i3⟩⟩ := C16_pedals p h t
  obtain ⟨⟨f1, f2, f3⟩, ⟨g1, g2, g3⟩⟩ := C16_pedals _ w (shift d t)
  obtain ⟨⟨k1, k2, k3⟩, ⟨l1, l2, l3⟩⟩ := C16_rhythm_key p h t
  obtain ⟨⟨m1, m2, m3⟩, ⟨n1, n2, n3⟩⟩ := C16_rhythm_key _ w (shift d t)
  rw [a2, b2, c2, f2, i2, g2, k2, m2, l2, n2]
  refine ⟨?_, ?_, ?_, ?_, ?_⟩ <;> congr 1
  · exact latestValue_unique w.tempos b3 (latest_later (f := tempoTo d) (fun _ => rfl) ht hr.tempos a3)
  · exact latestValue_unique w.dumpers f3 (latest_later (f := pedalTo d) (fun _ => rfl) ht hr.dumpers c3)
  · exact latestValue_unique w.softs g3 (latest_later (f := pedalTo d) (fun _ => rfl) ht hr.softs i3)
  · exact latestValue_unique w.bars m3 (latest_later (f := barTo d) (fun _ => rfl) ht hr.bars k3)
  · exact latestValue_unique w.bars n3 (latest_later (f := barTo d) (fun _ => rfl) ht hr.bars l3)

/-- C84: in the moved tune, every tick is in the bar with the same number as before and, but
for the part before the first bar line, at the same distance from its beginning. -/
theorem C84_places (d : Int) (p q : Project) (t : Nat) (h : WF p) (hr : HasRoom d p) (hs : Same q (moved d p)) (ht : 0 ≤ (t : Int) + d) :
    ∃ loc loc', p.tickToLocation t = .ok loc ∧ q.tickToLocation (shift d t) = .ok loc' ∧ loc'.barNo = loc.barNo ∧
      loc'.offset = if loc.barNo = 0 then shift d loc.offset else loc.offset := by
  have w := moved_wf h hr
  have e : q.tickToLocation (shift d t) = (moved d p).tickToLocation (shift d t) := by simp only [Project.tickToLocation, hs.bars]
  rw [e]
  obtain ⟨n, h1, h2⟩ := tickToLocation_spec h.bars h.barsKeyed t
  obtain ⟨m, g1, g2⟩ := tickToLocation_spec w.bars w.barsKeyed (shift d t)
  obtain rfl := split_unique g1 (split_later (f := barTo d) ht h1)
  rcases h2 with ⟨a1, a2⟩ | ⟨i, r, a1, a2, a3, a4⟩
  · rcases g2 with ⟨-, b2⟩ | ⟨j, r', b1, -⟩
    · exact ⟨_, _, a2, b2, rfl, rfl⟩
    · omega
  · rcases g2 with ⟨b1, -⟩ | ⟨j, r', b1, b2, b3, b4⟩
    · omega
    · obtain rfl : j = i := by omega
      refine ⟨_, _, a4, b4, rfl, ?_⟩
      simp only
      rw [if_neg (by omega)]
      simp only [moved, List.getElem?_map, a2, Option.map_some, Option.some.injEq] at b2
      rw [← b2]
      have := (hr.bars r (List.mem_of_getElem? a2)).2.2.1
      simp only [shift]
      omega

/-- C84: the moved tune is played in the same order.  The first bar line must not be at tick 0
before or after the move, and the proviso about a D.C. without Segno is that of C82. -/
theorem C84_play (ip : Bool) (d : Int) (tune : Rhythm) (bars : List Bar) (hb : BarsOk bars)
    (hin : ∀ b ∈ bars, 0 < b.startTick ∧ 0 < (b.startTick : Int) + d ∧ (b.startTick : Int) + d < U32_MAX)
    (hd : ¬ Carries bars .Dc ∨ Carries bars .Segno ∨
      FirstAlike tune tune bars (bars.map (fun b => { b with startTick := shift d b.startTick })) (shiftLine d)) :
    performance ip tune (bars.map (fun b => { b with startTick := shift d b.startTick })) =
      outcomeAt (shiftLine d) (performance ip tune bars) := by
  have line : ∀ b ∈ bars, shiftLine d b.startTick = shift d b.startTick := by
    intro b hm
    have := hin b hm
    have := hb.2 b hm
    rw [shiftLine, if_neg (by omega), if_neg (by omega)]
  refine C82_lengths ip tune tune bars _ (shiftLine d) hb ⟨rfl, by simp [shiftLine, U32_MAX], ?_⟩ ?_ ?_
  · have pos : ∀ a, IsTick bars a → (a = 0 ∧ shiftLine d a = 0) ∨ (a = U32_MAX ∧ shiftLine d a = U32_MAX) ∨
        (0 < a ∧ a < U32_MAX ∧ 0 < (a : Int) + d ∧ (a : Int) + d < U32_MAX ∧ shiftLine d a = ((a : Int) + d).toNat) := by
      rintro a (rfl | rfl | ⟨x, hx, rfl⟩)
      · exact .inl ⟨rfl, rfl⟩
      · exact .inr (.inl ⟨rfl, by simp [shiftLine, U32_MAX]⟩)
      · exact .inr (.inr ⟨(hin x hx).1, hb.2 x hx, (hin x hx).2.1, (hin x hx).2.2, line x hx⟩)
    intro a b ha hb'
    have x := pos a ha
    have y := pos b hb'
    simp only [U32_MAX] at x y
    omega
  · have go : ∀ l : List Bar, (∀ b ∈ l, b ∈ bars) → Moved (shiftLine d) l (l.map (fun b => { b with startTick := shift d b.startTick })) := by
      intro l
      induction l with
      | nil => exact fun _ => .nil
      | cons x xs ih =>
        intro hl
        exact .cons _ _ _ _ (line x (hl x List.mem_cons_self)).symm rfl (ih fun b hm => hl b (List.mem_cons_of_mem _ hm))
    exact go bars fun _ hm => hm
  · exact hd

private theorem moved_back (d : Int) (p : Project) (hr : HasRoom d p) (h : WF p) :
    HasRoom (-d) (moved d p) ∧ moved (-d) (moved d p) = p := by
  have st : ∀ {V : Type} (f g : V → V) (s : List (Nat × V)), (∀ q ∈ s, Fits d q.1) → (∀ q ∈ s, g (f q.2) = q.2) →
      (∀ q ∈ later d f s, Fits (-d) q.1) ∧ later (-d) g (later d f s) = s := by
    intro V f g s hf hg
    constructor
    · intro q hq
      obtain ⟨r, hr, rfl⟩ := mem_later hq
      exact (fits_back (hf r hr)).1
    · rw [later, later, List.map_map]
      refine (List.map_congr_left fun q hq => ?_).trans (List.map_id _)
      exact Prod.ext (fits_back (hf q hq)).2 (hg q hq)
  have fn : ∀ q ∈ p.notes, Fits d q.1 := by
    intro q hq
    rw [(h.notesKeyed q hq).1]
    exact start_fits (hr.notes q hq).2
  have back : ∀ {V : Type} {tick : V → Nat} {s : List (Nat × V)}, Keyed tick s → (∀ q ∈ s, Fits d q.1) →
      ∀ q ∈ s, shift (-d) (shift d (tick q.2)) = tick q.2 := by
    intro V tick s hk hf q hq
    rw [← (hk q hq).1]
    exact (fits_back (hf q hq)).2
  have b := st (fun v : Bar => { v with startTick := shift d v.startTick }) (fun v => { v with startTick := shift (-d) v.startTick }) p.bars hr.bars
    (fun q hq => by simp only [back h.barsKeyed hr.bars q hq])
  have t := st (fun v : Tempo => { v with startTick := shift d v.startTick }) (fun v => { v with startTick := shift (-d) v.startTick }) p.tempos
    hr.tempos (fun q hq => by simp only [back h.temposKeyed hr.tempos q hq])
  have dd := st (fun v : CtrlChg => { v with startTick := shift d v.startTick }) (fun v => { v with startTick := shift (-d) v.startTick }) p.dumpers
    hr.dumpers (fun q hq => by simp only [back h.dumpersKeyed hr.dumpers q hq])
  have ss := st (fun v : CtrlChg => { v with startTick := shift d v.startTick }) (fun v => { v with startTick := shift (-d) v.startTick }) p.softs
    hr.softs (fun q hq => by simp only [back h.softsKeyed hr.softs q hq])
  have nn := st (fun v : Note => { v with baseStartTick := shift d v.baseStartTick })
    (fun v => { v with baseStartTick := shift (-d) v.baseStartTick }) p.notes fn
    (fun q hq => by simp only [(fits_back (hr.notes q hq).1).2])
  refine ⟨⟨?_, b.1, t.1, dd.1, ss.1⟩, ?_⟩
  · intro q hq
    obtain ⟨r, hr', rfl⟩ := List.mem_map.1 hq
    obtain ⟨k1, k2⟩ := hr.notes r hr'
    refine ⟨(fits_back k1).1, ?_⟩
    obtain ⟨a1, a2, a3, a4⟩ := k2
    obtain ⟨b1, b2, b3, b4⟩ := k1
    simp only [Fits, shift, U32_MAX] at *
    omega
  · have i1 := b.2
    have i2 := t.2
    have i3 := dd.2
    have i4 := ss.2
    have i5 := nn.2
    obtain ⟨_, _, _, _, _, _, _, _⟩ := p
    simp only [later] at i1 i2 i3 i4 i5
    simp only [moved, i1, i2, i3, i4, i5]

/-- C84: dragging everything and dragging everything back, the tune is what it was. -/
theorem C84_back (d : Int) (p q : Project) (c c' : ModelChanges) (md md' : Metadata) (e : ProjectCmd) (h : WF p) (hn : ValidNotes p)
    (hv : ValidValues p) (hr : HasRoom d p) (hb : p.bars ≠ []) (hcov : CoveredUpTo p (lastBarTick p.bars)) (hc : AllDragged d p c)
    (hq : p.exec (.change c md) = .ok (some (q, e))) (hc' : AllDragged (-d) q c') :
    ∃ p' e', q.exec (.change c' md') = .ok (some (p', e')) ∧ Same p' p := by
  obtain ⟨q', e', h1, same, w, v, cov⟩ := moved_core d p c md h hn hv hr hb hcov hc
  rw [hq] at h1
  obtain ⟨rfl, rfl⟩ := Prod.mk.inj (Option.some.inj (Except.ok.inj h1))
  obtain ⟨room, back⟩ := moved_back d p hr h
  have room' : HasRoom (-d) q :=
    ⟨fun a ha => room.notes a (same.notes.mem_iff.1 ha), same.bars ▸ room.bars, same.tempos ▸ room.tempos, same.dumpers ▸ room.dumpers,
      same.softs ▸ room.softs⟩
  have values : ValidValues q := by
    constructor
    · intro a ha
      obtain ⟨r, hr', rfl⟩ := List.mem_map.1 (same.notes.mem_iff.1 ha)
      exact hv.pitches r hr'
    · rw [same.tempos]
      intro a ha
      obtain ⟨r, hr', rfl⟩ := List.mem_map.1 ha
      exact hv.tempos r hr'
  have hb' : q.bars ≠ [] := by
    rw [same.bars]
    simpa [moved] using hb
  obtain ⟨p', e', g1, g2⟩ := C84_moved (-d) q c' md' w v values room' hb' cov hc'
  refine ⟨p', e', g1, ?_⟩
  have s2 : Same (moved (-d) q) p := by
    rw [← back]
    refine ⟨same.rhythm, same.key, same.grid, same.notes.map _, ?_, ?_, ?_, ?_⟩ <;> simp only [moved]
    · rw [same.bars]; rfl
    · rw [same.tempos]; rfl
    · rw [same.dumpers]; rfl
    · rw [same.softs]; rfl
  exact ⟨g2.rhythm.trans s2.rhythm, g2.key.trans s2.key, g2.grid.trans s2.grid, g2.notes.trans s2.notes, g2.bars.trans s2.bars,
    g2.tempos.trans s2.tempos, g2.dumpers.trans s2.dumpers, g2.softs.trans s2.softs⟩

/-! ### Examples and the limits -/

private def allMoved (d : Int) (p : Project) : ModelChanges where
  notes := p.notes.map (fun q => (q.2, noteTo d q.2))
  bars := p.bars.map (fun q => (q.2, q.2.drag d))
  tempos := p.tempos.map (fun q => (q.2, tempoTo d q.2))
  dumpers := p.dumpers.map (fun q => (q.2, q.2.drag d))
  softs := p.softs.map (fun q => (q.2, q.2.drag d))

private theorem example_dragged : AllDragged (-10) exampleProject (allMoved (-10) exampleProject) where
  notes := by simp [allMoved, List.map_map, Function.comp_def]
  bars := by simp [allMoved, List.map_map, Function.comp_def]
  tempos := by simp [allMoved, List.map_map, Function.comp_def]
  dumpers := by simp [allMoved, List.map_map, Function.comp_def]
  softs := by simp [allMoved, List.map_map, Function.comp_def]
  notesTo := by decide +kernel
  barsTo := by decide +kernel
  temposTo := by decide +kernel
  dumpersTo := by decide +kernel
  softsTo := by decide +kernel

private theorem example_room : HasRoom (-10) exampleProject where
  notes := by unfold Fits; decide +kernel
  bars := by unfold Fits; decide +kernel
  tempos := by unfold Fits; decide +kernel
  dumpers := by unfold Fits; decide +kernel
  softs := by unfold Fits; decide +kernel

private theorem example_notes (P : Note → Prop) (h1 : P exampleNote) (h2 : P { exampleNote with baseStartTick := 1200 }) :
    ∀ q ∈ exampleProject.notes, P q.2 := by
  intro q hq
  simp only [exampleProject, List.mem_cons, List.not_mem_nil, or_false] at hq
  rcases hq with rfl | rfl
  · exact h1
  · exact h2

private theorem example_lengths : ValidNotes exampleProject :=
  example_notes _ ⟨⟨by decide, by decide, by decide⟩, by decide⟩ ⟨⟨by decide, by decide, by decide⟩, by decide⟩

private theorem example_values : ValidValues exampleProject :=
  ⟨example_notes (fun n => ValidPitch n.pitch) ⟨by decide, by decide, by decide, by decide⟩ ⟨by decide, by decide, by decide, by decide⟩,
    by decide +kernel⟩

private theorem example_covered : CoveredUpTo exampleProject (lastBarTick exampleProject.bars) := by
  refine ⟨?_, by decide, by decide, by decide⟩
  intro q hq l hl
  simp only [exampleProject, List.mem_cons, List.not_mem_nil, or_false] at hq
  have e1 : exampleNote.tickLen = .ok 240 := by decide +kernel
  have e2 : ({ exampleNote with baseStartTick := 1200 } : Note).tickLen = .ok 240 := by decide +kernel
  rcases hq with rfl | rfl
  · rw [e1] at hl
    cases hl
    decide
  · rw [e2] at hl
    cases hl
    decide

/-- The tempo at tick 10 goes to tick 0, all else with it, and no bar is completed. -/
example : ∃ q e, exampleProject.exec (.change (allMoved (-10) exampleProject) {}) = .ok (some (q, e)) ∧
    q.tempos.map (·.1) = [0, 10] ∧ q.bars.map (·.1) = [90, 990, 1990] ∧ q.tempoAt 5 = exampleProject.tempoAt 15 := by
  obtain ⟨q, e, h1, h2⟩ := C84_moved (-10) exampleProject (allMoved (-10) exampleProject) {} exampleProject_wf example_lengths example_values
    example_room (by decide) example_covered example_dragged
  refine ⟨q, e, h1, ?_, ?_, (C84_values (-10) exampleProject q 15 exampleProject_wf example_room h2 (by decide)).1⟩
  · rw [h2.tempos]; decide
  · rw [h2.bars]; decide

/-- And back, with the notes selected in the other order. -/
private def andBack : ModelChanges :=
  { allMoved 10 (moved (-10) exampleProject) with notes := (allMoved 10 (moved (-10) exampleProject)).notes.reverse }

example : ∃ q e p' e', exampleProject.exec (.change (allMoved (-10) exampleProject) {}) = .ok (some (q, e)) ∧
    q.exec (.change andBack {}) = .ok (some (p', e')) ∧ Same p' exampleProject := by
  obtain ⟨q, e, h1, h2⟩ := C84_moved (-10) exampleProject (allMoved (-10) exampleProject) {} exampleProject_wf example_lengths example_values
    example_room (by decide) example_covered example_dragged
  have hc : AllDragged (- -10) q andBack := by
    refine ⟨?_, ?_, ?_, ?_, ?_, by decide +kernel, by decide +kernel, by decide +kernel, by decide +kernel, by decide +kernel⟩
    · refine List.Perm.trans ?_ (h2.notes.map _).symm
      rw [andBack, List.map_reverse]
      refine (List.reverse_perm _).trans ?_
      simp [allMoved, List.map_map, Function.comp_def]
    · rw [h2.bars]; simp [andBack, allMoved, List.map_map, Function.comp_def]
    · rw [h2.tempos]; simp [andBack, allMoved, List.map_map, Function.comp_def]
    · rw [h2.dumpers]; simp [andBack, allMoved, List.map_map, Function.comp_def]
    · rw [h2.softs]; simp [andBack, allMoved, List.map_map, Function.comp_def]
  obtain ⟨p', e', g1, g2⟩ := C84_back (-10) exampleProject q (allMoved (-10) exampleProject) andBack {} {} e exampleProject_wf example_lengths
    example_values example_room (by decide) example_covered example_dragged h1 hc
  exact ⟨q, e, p', e', h1, g1, g2⟩

/-- Bar 2 begins at tick 1000, and at tick 990 in the moved tune. -/
example : exampleProject.tickToLocation 1003 = .ok ⟨2, 3⟩ ∧ (moved (-10) exampleProject).tickToLocation 993 = .ok ⟨2, 3⟩ ∧
    (moved (-10) exampleProject).tickToLocation 40 = .ok ⟨0, 40⟩ := by decide +kernel

private def refrain : List Bar := [line 960 { start := true }, line 1920 { end_ := true }]

example : performance true ⟨4, .D4⟩ (refrain.map (fun b => { b with startTick := shift 240 b.startTick })) =
    .ok ([⟨0, 1200⟩, ⟨1200, 2160⟩, ⟨1200, 2160⟩, ⟨2160, U32_MAX⟩], []) := by
  rw [C84_play true 240 ⟨4, .D4⟩ refrain ⟨by simp [refrain, line], by decide⟩ (by decide) (.inl (by
    rintro ⟨x, hx, h⟩
    simp only [refrain, List.mem_cons, List.not_mem_nil, or_false] at hx
    rcases hx with rfl | rfl <;> revert h <;> decide))]
  decide +kernel

/-- C84, the provisos are needed.  A repeat that begins at tick 0 has nothing before it, but
once moved it has; a D.C. goes by the length of the first bar; and a note that is cut off at
tick 0 catches up when it is moved. -/
theorem C84_provisos (ip : Bool) :
    performance ip ⟨4, .D4⟩ [line 0 { start := true }, line 960 { end_ := true }] =
      .ok ([⟨0, 0⟩, ⟨0, 960⟩, ⟨0, 960⟩, ⟨960, U32_MAX⟩], []) ∧
    performance ip ⟨4, .D4⟩ [line 240 { start := true }, line 1200 { end_ := true }] =
      .ok ([⟨0, 240⟩, ⟨240, 1200⟩, ⟨240, 1200⟩, ⟨1200, U32_MAX⟩], []) ∧
    performance ip ⟨4, .D4⟩ [line 960 {}, line 2880 { dc := true }] = .ok ([⟨0, 2880⟩, ⟨0, U32_MAX⟩], []) ∧
    performance ip ⟨4, .D4⟩ [line 1200 {}, line 3120 { dc := true }] = .ok ([⟨0, 3120⟩, ⟨1200, U32_MAX⟩], []) ∧
    ∃ n m : Note, n.drag 100 0 = .ok m ∧ n.startTick = 0 ∧ m.startTick = 60 := by
  refine ⟨?_, ?_, ?_, ?_, { exampleNote with baseStartTick := 10, startTickTrimmer := ⟨-50, 0, 0, 0, -50⟩ },
    { exampleNote with baseStartTick := 110, startTickTrimmer := ⟨-50, 0, 0, 0, -50⟩ }, by decide +kernel, by decide, by decide⟩ <;>
  · cases ip <;> decide +kernel

end Klavier
