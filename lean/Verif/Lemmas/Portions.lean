import Verif.Lemmas.Edit
import Verif.Spec.Portions

set_option autoImplicit false
namespace Klavier
open Spec
namespace Project

/-- When completing the bars succeeds, and with which result. -/
theorem replenish_ok_iff {p p' : Project} {bs : List Bar} (h : WF p) (hv : ValidNotes p) {r : Rhythm}
    (hr : LatestValue p.bars Bar.rhythm p.rhythm (lastBarTick p.bars) r) :
    p.replenishBars = .ok (p', bs) ↔ ∃ k, lastBarTick p.bars + k * r.tickLen ≤ U32_MAX ∧
      CoveredUpTo p (lastBarTick p.bars + k * r.tickLen) ∧
      (∀ j < k, ¬ CoveredUpTo p (lastBarTick p.bars + j * r.tickLen)) ∧
      p' = { p with bars := p.bars ++ (regularBars (lastBarTick p.bars) r.tickLen k).map (fun b => (b.startTick, b)) } ∧
      bs = regularBars (lastBarTick p.bars) r.tickLen k := by
  have hz : { p with bars := p.bars ++ (regularBars (lastBarTick p.bars) r.tickLen 0).map (fun b => (b.startTick, b)) } = p := by
    simp [regularBars]
  have hL := lastBarTick_le h
  rcases replenish_spec h hv hr with ⟨⟨q, hq, l, hl, ho⟩, h2⟩ | ⟨h1, h2⟩ | ⟨h0, h1, h2⟩ | ⟨k, g1, g2, g3, g4, g5, g6⟩
  · rw [h2]
    constructor
    · intro h; cases h
    · rintro ⟨k, a1, a2, -⟩
      have := a2.notes q hq l hl
      omega
  · rw [h2]
    constructor
    · intro h
      cases h
      exact ⟨0, by simpa using hL, by simpa using h1, by simp, hz.symm, by simp [regularBars]⟩
    · rintro ⟨k, a1, a2, a3, rfl, rfl⟩
      obtain rfl : k = 0 := by
        rcases Nat.eq_zero_or_pos k with rfl | hk
        · rfl
        · exact absurd (by simpa using h1) (a3 0 hk)
      rw [hz]
      simp [regularBars]
  · rw [h2]
    constructor
    · intro h; cases h
    · rintro ⟨k, a1, a2, a3, -⟩
      rw [h1] at a2
      exact absurd (by simpa using a2) h0
  · constructor
    · intro hk
      by_cases hle : lastBarTick p.bars + k * r.tickLen ≤ U32_MAX
      · rw [g5 hle] at hk
        cases hk
        exact ⟨k, hle, g3, g4, rfl, rfl⟩
      · rw [g6 (by omega)] at hk; cases hk
    · rintro ⟨k', a1, a2, a3, rfl, rfl⟩
      obtain rfl : k = k' := by
        rcases Nat.lt_trichotomy k k' with hlt | rfl | hlt
        · exact absurd g3 (a3 k hlt)
        · rfl
        · exact absurd a2 (g4 k' hlt)
      exact g5 a1

theorem lastBarTick_regular (s : List (Nat × Bar)) (len k : Nat) :
    lastBarTick (s ++ (regularBars (lastBarTick s) len k).map (fun b => (b.startTick, b))) = lastBarTick s + k * len := by
  rcases Nat.eq_zero_or_pos k with rfl | hk
  · simp [regularBars]
  · obtain ⟨n, rfl⟩ : ∃ n, k = n + 1 := ⟨k - 1, by omega⟩
    conv => lhs; rw [lastBarTick]
    simp only [regularBars, List.range_succ, List.map_append, List.map_cons, List.map_nil]
    rw [← List.append_assoc, List.getLast?_append]
    simp

theorem regularBars_add (s len k j : Nat) :
    regularBars s len k ++ regularBars (s + k * len) len j = regularBars s len (k + j) := by
  induction j with
  | zero => simp [regularBars]
  | succ n ih =>
    have e : ∀ a m, regularBars a len (m + 1) = regularBars a len m ++ [{ startTick := a + (m + 1) * len }] := by
      intro a m
      simp [regularBars, List.range_succ]
    rw [e, ← List.append_assoc, ih, ← Nat.add_assoc, e]
    congr 3
    simp only [Nat.add_mul]
    omega

/-- The time signature in force does not change by plain bars put at the end. -/
theorem latest_regular {p : Project} (h : WF p) {r : Rhythm} (len k : Nat)
    (hr : LatestValue p.bars Bar.rhythm p.rhythm (lastBarTick p.bars) r) :
    LatestValue (p.bars ++ (regularBars (lastBarTick p.bars) len k).map (fun b => (b.startTick, b))) Bar.rhythm p.rhythm
      (lastBarTick p.bars + k * len) r := by
  have hn : ∀ q ∈ (regularBars (lastBarTick p.bars) len k).map (fun b => (b.startTick, b)), q.2.rhythm = none := by
    intro q hq
    simp only [regularBars, List.map_map, List.mem_map] at hq
    obtain ⟨i, -, rfl⟩ := hq
    rfl
  have hL := le_lastBarTick h
  rcases hr with ⟨h1, h2⟩ | ⟨q, hq, h1, h2, h3⟩
  · left
    refine ⟨?_, h2⟩
    intro q hq _
    rcases List.mem_append.1 hq with hq | hq
    · exact h1 q hq (hL q hq)
    · exact hn q hq
  · right
    refine ⟨q, List.mem_append_left _ hq, by omega, h2, ?_⟩
    intro q' hq' _ hs
    rcases List.mem_append.1 hq' with hq' | hq'
    · exact h3 q' hq' (hL q' hq') hs
    · exact absurd (hn q' hq') hs

theorem exists_latest {p : Project} (h : WF p) :
    ∃ r, LatestValue p.bars Bar.rhythm p.rhythm (lastBarTick p.bars) r := by
  obtain ⟨⟨r, -, hr⟩, -⟩ := C16_rhythm_key p h (lastBarTick p.bars)
  exact ⟨r, hr⟩

theorem covered_mono {p : Project} {x y : Nat} (hxy : x ≤ y) (h : CoveredUpTo p x) : CoveredUpTo p y :=
  ⟨fun q hq l hl => Nat.le_trans (h.notes q hq l hl) hxy, fun q hq => Nat.le_trans (h.tempos q hq) hxy,
    fun q hq => Nat.le_trans (h.dumpers q hq) hxy, fun q hq => Nat.le_trans (h.softs q hq) hxy⟩

theorem covered_bars (p : Project) (bars : Store Bar) (x : Nat) :
    CoveredUpTo p x ↔ CoveredUpTo ({ p with bars := bars } : Project) x :=
  ⟨fun h => ⟨h.notes, h.tempos, h.dumpers, h.softs⟩, fun h => ⟨h.notes, h.tempos, h.dumpers, h.softs⟩⟩

theorem least_covering {p : Project} {L len n : Nat} (h : CoveredUpTo p (L + n * len)) :
    ∃ k, k ≤ n ∧ CoveredUpTo p (L + k * len) ∧ ∀ j < k, ¬ CoveredUpTo p (L + j * len) := by
  induction n with
  | zero => exact ⟨0, by omega, h, by simp⟩
  | succ n ih =>
    by_cases hn : CoveredUpTo p (L + n * len)
    · obtain ⟨k, h1, h2⟩ := ih hn
      exact ⟨k, by omega, h2⟩
    · refine ⟨n + 1, by omega, h, ?_⟩
      intro j hj hc
      exact hn (covered_mono (Nat.add_le_add_left (Nat.mul_le_mul_right _ (by omega)) _) hc)

theorem replenish_wf {p p' : Project} {bs : List Bar} (h : WF p) (hr : p.replenishBars = .ok (p', bs)) : WF p' := by
  obtain ⟨h1, h2⟩ := replenish_shape h hr
  have := swap_wf h {} { bars := bs } ⟨fun b hb => (h2 b hb).2, by simp, by simp, by simp⟩
  rw [h1]
  exact this

/-- Completing the bars of `q2` after those of `q1` have been completed by `k` bars. -/
theorem replenish_after {q1 q2 : Project} (h1 : WF q1) (h2 : WF q2) (v2 : ValidNotes q2) (hrh : q2.rhythm = q1.rhythm) {r : Rhythm}
    (hr : LatestValue q1.bars Bar.rhythm q1.rhythm (lastBarTick q1.bars) r) (k : Nat) (p1 : Project) (bs : List Bar)
    (hp1 : q1.replenishBars = .ok (p1, bs))
    (he : p1 = { q1 with bars := q1.bars ++ (regularBars (lastBarTick q1.bars) r.tickLen k).map (fun b => (b.startTick, b)) })
    (p2 : Project) (bs' : List Bar) : ({ q2 with bars := p1.bars } : Project).replenishBars = .ok (p2, bs') ↔
      ∃ j, lastBarTick q1.bars + (k + j) * r.tickLen ≤ U32_MAX ∧
        CoveredUpTo q2 (lastBarTick q1.bars + (k + j) * r.tickLen) ∧
        (∀ i < j, ¬ CoveredUpTo q2 (lastBarTick q1.bars + (k + i) * r.tickLen)) ∧
        p2 = { q2 with bars := q1.bars ++ (regularBars (lastBarTick q1.bars) r.tickLen (k + j)).map (fun b => (b.startTick, b)) } ∧
        bs' = regularBars (lastBarTick q1.bars + k * r.tickLen) r.tickLen j := by
  have hw := replenish_wf h1 hp1
  have hw2 : WF ({ q2 with bars := p1.bars } : Project) :=
    ⟨h2.notes, h2.notesKeyed, hw.bars, hw.barsKeyed, h2.tempos, h2.temposKeyed, h2.dumpers, h2.dumpersKeyed, h2.softs, h2.softsKeyed⟩
  have hlt : lastBarTick p1.bars = lastBarTick q1.bars + k * r.tickLen := by rw [he]; exact lastBarTick_regular _ _ _
  have hl : LatestValue p1.bars Bar.rhythm q2.rhythm (lastBarTick p1.bars) r := by
    rw [hlt, he, hrh]
    exact latest_regular h1 _ _ hr
  rw [replenish_ok_iff hw2 (by exact v2) hl]
  simp only [hlt, ← covered_bars q2 p1.bars, Nat.add_assoc, ← Nat.add_mul]
  have hcat : ∀ j, p1.bars ++ (regularBars (lastBarTick q1.bars + k * r.tickLen) r.tickLen j).map (fun b => (b.startTick, b)) =
      q1.bars ++ (regularBars (lastBarTick q1.bars) r.tickLen (k + j)).map (fun b => (b.startTick, b)) := by
    intro j
    rw [he, ← regularBars_add, List.map_append, List.append_assoc]
  simp only [hcat]

/-- Completing the bars for a part of the content first makes no difference. -/
theorem replenish_twice {q1 q2 : Project} (h1 : WF q1) (h2 : WF q2) (v1 : ValidNotes q1) (v2 : ValidNotes q2)
    (hb : q2.bars = q1.bars) (hrh : q2.rhythm = q1.rhythm) (hc : ∀ x, CoveredUpTo q2 x → CoveredUpTo q1 x) (p2 : Project) :
    (∃ p1 bs bs', q1.replenishBars = .ok (p1, bs) ∧ ({ q2 with bars := p1.bars } : Project).replenishBars = .ok (p2, bs')) ↔
      ∃ bs, q2.replenishBars = .ok (p2, bs) := by
  obtain ⟨r, hr⟩ := exists_latest h1
  have hr2 : LatestValue q2.bars Bar.rhythm q2.rhythm (lastBarTick q2.bars) r := by rw [hb, hrh]; exact hr
  have key := replenish_after h1 h2 v2 hrh hr
  constructor
  · rintro ⟨p1, bs, bs', hp1, hp2⟩
    obtain ⟨k, a1, a2, a3, a4, a5⟩ := (replenish_ok_iff h1 v1 hr).1 hp1
    obtain ⟨j, b1, b2, b3, b4, b5⟩ := (key k p1 bs hp1 a4 p2 bs').1 hp2
    refine ⟨_, (replenish_ok_iff h2 v2 hr2).2 ⟨k + j, by rw [hb]; exact b1, by rw [hb]; exact b2, ?_, by rw [hb]; exact b4, rfl⟩⟩
    intro i hi hcov
    rw [hb] at hcov
    by_cases hik : i < k
    · exact a3 i hik (hc _ hcov)
    · obtain ⟨d, rfl⟩ : ∃ d, i = k + d := ⟨i - k, by omega⟩
      exact b3 d (by omega) hcov
  · rintro ⟨bs, hp2⟩
    obtain ⟨n, a1, a2, a3, a4, a5⟩ := (replenish_ok_iff h2 v2 hr2).1 hp2
    rw [hb] at a1 a2 a4
    obtain ⟨k, hk1, hk2, hk3⟩ : ∃ k, k ≤ n ∧ CoveredUpTo q1 (lastBarTick q1.bars + k * r.tickLen) ∧
        ∀ j < k, ¬ CoveredUpTo q1 (lastBarTick q1.bars + j * r.tickLen) := least_covering (hc _ a2)
    obtain ⟨d, rfl⟩ : ∃ d, n = k + d := ⟨n - k, by omega⟩
    have hle : lastBarTick q1.bars + k * r.tickLen ≤ U32_MAX := by
      rw [Nat.add_mul] at a1; omega
    have hp1 := (replenish_ok_iff (p' := { q1 with bars := q1.bars ++ (regularBars (lastBarTick q1.bars) r.tickLen k).map (fun b => (b.startTick, b)) })
      (bs := regularBars (lastBarTick q1.bars) r.tickLen k) h1 v1 hr).2 ⟨k, hle, hk2, hk3, rfl, rfl⟩
    refine ⟨_, _, _, hp1, (key k _ _ hp1 rfl p2 _).2 ⟨d, a1, a2, ?_, a4, rfl⟩⟩
    intro i hi hcov
    exact a3 (k + i) (by omega) (by rw [hb]; exact hcov)

/-! ### Selections -/

theorem swap_together (p : Project) (m n : Models) : p.swap {} (together m n) = (p.swap {} m).swap {} n := by
  simp only [swap, together, addItems, addNotes, removeItems, removeNotes, List.foldl_append, List.foldl_nil]

theorem remove_together (p : Project) (m n : Models) : p.swap (together m n) {} = (p.swap m {}).swap n {} := by
  simp only [swap, together, addItems, addNotes, removeItems, removeNotes, List.foldl_append, List.foldl_nil]

theorem exec_bulkAdd (p p' : Project) (m : Models) (md : Metadata) :
    (∃ c, p.exec (.bulkAdd m md) = .ok (some (p', c))) ↔ ∃ bs, (p.swap {} m).replenishBars = .ok (p', bs) := by
  have e : (p.swap {} m) = { p with
      notes := p.notes.bulkAdd (m.notes.map (fun n : Note => (n.startTick, n)))
      bars := (p.bars.bulkAdd (m.bars.map (fun b : Bar => (b.startTick, b)))).1
      tempos := (p.tempos.bulkAdd (m.tempos.map (fun b : Tempo => (b.startTick, b)))).1
      dumpers := (p.dumpers.bulkAdd (m.dumpers.map (fun b : CtrlChg => (b.startTick, b)))).1
      softs := (p.softs.bulkAdd (m.softs.map (fun b : CtrlChg => (b.startTick, b)))).1 } := by
    simp only [bulkAdd_notes, bulkAdd_fst]
    rfl
  simp only [exec, bulkAdd, R_bind_eq_ok]
  rw [e]
  constructor
  · rintro ⟨c, ⟨q, d⟩, ⟨⟨q2, bs⟩, h1, h2⟩, h3⟩
    cases h2; cases h3
    exact ⟨bs, h1⟩
  · rintro ⟨bs, h1⟩
    exact ⟨_, _, ⟨_, h1, rfl⟩, rfl⟩

theorem keys_addItems {V : Type} (tick : V → Nat) {s : Store V} (hs : SortedStore s) (l : List V) {q : Nat × V} (hq : q ∈ s) :
    ∃ q' ∈ addItems tick s l, q'.1 = q.1 := by
  have h := get?_addItems tick s l q.1
  rw [Store.get?_of_mem hs (show (q.1, q.2) ∈ s from hq)] at h
  cases hl : lastWith tick l q.1 with
  | none => rw [hl] at h; exact ⟨_, Store.mem_of_get? h, rfl⟩
  | some v => rw [hl] at h; exact ⟨_, Store.mem_of_get? h, rfl⟩

/-- What is covered after more has been added was covered before. -/
theorem covered_before {q : Project} (h : WF q) (m : Models) (x : Nat) (hc : CoveredUpTo (q.swap {} m) x) : CoveredUpTo q x := by
  refine ⟨?_, ?_, ?_, ?_⟩
  · intro a ha l hl
    exact hc.notes a ((addNotes_perm _ _).mem_iff.2 (List.mem_append_right _ ha)) l hl
  · intro a ha
    obtain ⟨b, hb, e⟩ := keys_addItems Tempo.startTick h.tempos m.tempos ha
    exact e ▸ hc.tempos b hb
  · intro a ha
    obtain ⟨b, hb, e⟩ := keys_addItems CtrlChg.startTick h.dumpers m.dumpers ha
    exact e ▸ hc.dumpers b hb
  · intro a ha
    obtain ⟨b, hb, e⟩ := keys_addItems CtrlChg.startTick h.softs m.softs ha
    exact e ▸ hc.softs b hb

theorem valid_swap {q : Project} (h : ValidNotes q) (m : Models) (hm : ∀ n ∈ m.notes, ValidLength n) : ValidNotes (q.swap {} m) := by
  intro a ha
  rcases List.mem_append.1 ((addNotes_perm _ _).mem_iff.1 ha) with ha | ha
  · obtain ⟨n, hn, rfl⟩ := List.mem_map.1 ha
    exact hm n hn
  · exact h a ha

/-- Bars present beforehand make no difference to what else is added. -/
theorem swap_bars (q : Project) (bars : Store Bar) (m : Models) (hm : m.bars = []) :
    ({ q with bars := bars } : Project).swap {} m = { q.swap {} m with bars := bars } := by
  simp only [swap, hm]
  rfl

/-! ### Order -/

theorem bagAdd_comm {V : Type} (s : Bag V) (k j : Nat) (v w : V) (h : k ≠ j) :
    (s.add k v).add j w = (s.add j w).add k v := by
  induction s with
  | nil => simp only [Bag.add]; split <;> split <;> first | rfl | omega
  | cons a s ih =>
    obtain ⟨i, u⟩ := a
    simp only [Bag.add]
    by_cases h1 : k < i <;> by_cases h2 : j < i <;> by_cases h3 : k < j <;>
      simp [Bag.add, h1, h2, h3, ih] <;> omega

theorem addNotes_add_comm (s : Bag Note) (n : Note) (l : List Note) (h : ∀ b ∈ l, n.startTick ≠ b.startTick) :
    addNotes (s.add n.startTick n) l = (addNotes s l).add n.startTick n := by
  induction l generalizing s with
  | nil => rfl
  | cons b l ih =>
    show addNotes ((s.add n.startTick n).add b.startTick b) l = (addNotes (s.add b.startTick b) l).add n.startTick n
    rw [bagAdd_comm _ _ _ _ _ (h b (by simp)), ih _ (fun x hx => h x (by simp [hx]))]

theorem addNotes_comm (s : Bag Note) (l l' : List Note) (h : ∀ a ∈ l, ∀ b ∈ l', a.startTick ≠ b.startTick) :
    addNotes (addNotes s l) l' = addNotes (addNotes s l') l := by
  induction l generalizing s with
  | nil => rfl
  | cons a l ih =>
    show addNotes (addNotes (s.add a.startTick a) l) l' = addNotes ((addNotes s l').add a.startTick a) l
    rw [ih _ (fun x hx => h x (by simp [hx])), addNotes_add_comm s a l' (h a (by simp))]

theorem addNotes_perm_comm (s : Bag Note) (l l' : List Note) :
    (addNotes (addNotes s l) l').Perm (addNotes (addNotes s l') l) := by
  refine ((addNotes_perm _ _).trans (List.Perm.append_left _ (addNotes_perm _ _))).trans ?_
  refine List.Perm.trans ?_ ((addNotes_perm _ _).trans (List.Perm.append_left _ (addNotes_perm _ _))).symm
  rw [← List.append_assoc, ← List.append_assoc]
  exact List.Perm.append_right _ List.perm_append_comm

theorem addItems_comm {V : Type} (tick : V → Nat) {s : Store V} (hs : SortedStore s) (l l' : List V)
    (h : ∀ a ∈ l, ∀ b ∈ l', tick a ≠ tick b) : addItems tick (addItems tick s l) l' = addItems tick (addItems tick s l') l := by
  refine Store.ext (sorted_addItems _ (sorted_addItems _ hs _) _) (sorted_addItems _ (sorted_addItems _ hs _) _) ?_
  intro k
  simp only [get?_addItems]
  cases h1 : lastWith tick l k with
  | none => simp
  | some a =>
    cases h2 : lastWith tick l' k with
    | none => simp
    | some b =>
      obtain ⟨a1, a2⟩ := lastWith_some h1
      obtain ⟨b1, b2⟩ := lastWith_some h2
      exact absurd (a2.trans b2.symm) (h a a1 b b1)

theorem swap_comm {p : Project} (h : WF p) {m n : Models} (ha : Apart m n) :
    Same ((p.swap {} m).swap {} n) ((p.swap {} n).swap {} m) :=
  ⟨rfl, rfl, rfl, addNotes_perm_comm _ _ _, addItems_comm _ h.bars _ _ ha.bars, addItems_comm _ h.tempos _ _ ha.tempos,
    addItems_comm _ h.dumpers _ _ ha.dumpers, addItems_comm _ h.softs _ _ ha.softs⟩

theorem covered_same {p q : Project} (h : Same p q) {x : Nat} (hc : CoveredUpTo p x) : CoveredUpTo q x :=
  ⟨fun a ha => hc.notes a (h.notes.mem_iff.2 ha), h.tempos ▸ hc.tempos, h.dumpers ▸ hc.dumpers, h.softs ▸ hc.softs⟩

theorem same_symm {p q : Project} (h : Same p q) : Same q p :=
  ⟨h.rhythm.symm, h.key.symm, h.grid.symm, h.notes.symm, h.bars.symm, h.tempos.symm, h.dumpers.symm, h.softs.symm⟩

/-- The order of notes does not matter to the completion of the bars. -/
theorem replenish_same {p q p' : Project} {bs : List Bar} (h1 : WF p) (h2 : WF q) (v1 : ValidNotes p) (hs : Same p q)
    (hr : p.replenishBars = .ok (p', bs)) :
    q.replenishBars = .ok ({ q with bars := p'.bars }, bs) ∧ p' = { p with bars := p'.bars } := by
  obtain ⟨r, hl⟩ := exists_latest h1
  have v2 : ValidNotes q := fun a ha => v1 a (hs.notes.mem_iff.2 ha)
  have hl2 : LatestValue q.bars Bar.rhythm q.rhythm (lastBarTick q.bars) r := by rw [← hs.bars, ← hs.rhythm]; exact hl
  obtain ⟨k, a1, a2, a3, rfl, rfl⟩ := (replenish_ok_iff h1 v1 hl).1 hr
  refine ⟨(replenish_ok_iff h2 v2 hl2).2 ⟨k, ?_, ?_, ?_, ?_, ?_⟩, rfl⟩
  · rw [← hs.bars]; exact a1
  · rw [← hs.bars]; exact covered_same hs a2
  · intro j hj hc
    rw [← hs.bars] at hc
    exact a3 j hj (covered_same (same_symm hs) hc)
  · rw [← hs.bars]
  · rw [← hs.bars]

theorem removeNotes_comm (s : Bag Note) (l l' : List Note) :
    removeNotes (removeNotes s l) l' = removeNotes (removeNotes s l') l := by
  have one : ∀ (s : Bag Note) (n : Note), removeNotes (s.remove n.startTick n) l' = (removeNotes s l').remove n.startTick n := by
    intro s n
    induction l' generalizing s with
    | nil => rfl
    | cons b l' ih =>
      show removeNotes ((s.remove n.startTick n).remove b.startTick b) l' = (removeNotes (s.remove b.startTick b) l').remove n.startTick n
      rw [← ih]
      simp only [Bag.remove]
      rw [List.erase_comm]
  induction l generalizing s with
  | nil => rfl
  | cons a l ih =>
    show removeNotes (removeNotes (s.remove a.startTick a) l) l' = removeNotes ((removeNotes s l').remove a.startTick a) l
    rw [ih, one]

theorem removeItems_comm {V : Type} (tick : V → Nat) {s : Store V} (hs : SortedStore s) (l l' : List V) :
    removeItems tick (removeItems tick s l) l' = removeItems tick (removeItems tick s l') l := by
  refine Store.ext (sorted_removeItems _ (sorted_removeItems _ hs _) _) (sorted_removeItems _ (sorted_removeItems _ hs _) _) ?_
  intro k
  rw [get?_removeItems _ (sorted_removeItems _ hs _), get?_removeItems _ hs, get?_removeItems _ (sorted_removeItems _ hs _),
    get?_removeItems _ hs]
  cases (lastWith tick l k).isSome <;> cases (lastWith tick l' k).isSome <;> rfl

end Project
end Klavier
