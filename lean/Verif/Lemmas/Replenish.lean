import Verif.Lemmas.Project
import Verif.Props.Queries

set_option autoImplicit false
namespace Klavier
open Spec

theorem regularBars_succ (start len k : Nat) :
    regularBars start len (k + 1) = { startTick := start + len } :: regularBars (start + len) len k := by
  simp only [regularBars, List.range_succ_eq_map, List.map_cons, List.map_map, Nat.zero_add, Nat.one_mul]
  congr 1
  apply List.map_congr_left
  intro i _
  simp only [Function.comp]
  congr 1
  rw [Nat.succ_eq_add_one, Nat.add_mul (i + 1) 1 len]
  omega

theorem newBars_spec (len E : Nat) (hlen : 0 < len) : ∀ (d L : Nat), E - L = d → L ≤ U32_MAX →
    ∃ k, E ≤ L + k * len ∧ (∀ j < k, L + j * len < E) ∧
      (L + k * len ≤ U32_MAX → Project.newBars len E L = .ok (regularBars L len k)) ∧
      (U32_MAX < L + k * len → Project.newBars len E L = .error .overflow) := by
  intro d
  induction d using Nat.strongRecOn with
  | _ d ih =>
    intro L hd hL
    by_cases h : L < E
    · by_cases hf : L + len ≤ U32_MAX
      · obtain ⟨k, h1, h2, h3, h4⟩ := ih (E - (L + len)) (by omega) (L + len) rfl hf
        have e : ∀ j, L + (j + 1) * len = L + len + j * len := by
          intro j; rw [Nat.add_mul]; omega
        refine ⟨k + 1, by rw [e]; exact h1, ?_, ?_, ?_⟩
        · intro j hj
          cases j with
          | zero => omega
          | succ j => rw [e]; exact h2 j (by omega)
        · rw [e]
          intro hle
          rw [Project.newBars, if_pos h, dif_neg (by omega), if_pos hf, h3 hle, regularBars_succ]
          rfl
        · rw [e]
          intro hgt
          rw [Project.newBars, if_pos h, dif_neg (by omega), if_pos hf, h4 hgt]
          rfl
      · refine ⟨(E - L + len - 1) / len, ?_, ?_, ?_, ?_⟩
        · have := Nat.div_add_mod (E - L + len - 1) len
          have := Nat.mod_lt (E - L + len - 1) hlen
          rw [Nat.mul_comm ((E - L + len - 1) / len) len]
          omega
        · intro j hj
          have h1 : j + 1 ≤ (E - L + len - 1) / len := hj
          rw [Nat.le_div_iff_mul_le hlen, Nat.add_mul] at h1
          omega
        · intro hle
          have h1 : 1 ≤ (E - L + len - 1) / len := by
            rw [Nat.le_div_iff_mul_le hlen]; omega
          have := Nat.mul_le_mul_right len h1
          omega
        · intro _
          rw [Project.newBars, if_pos h, dif_neg (by omega), if_neg hf]
    · refine ⟨0, by omega, by omega, ?_, by omega⟩
      intro _
      rw [Project.newBars, if_neg h]
      rfl

theorem newBars_zero {E L : Nat} (h : L < E) : Project.newBars 0 E L = .error .diverge := by
  rw [Project.newBars, if_pos h, dif_pos rfl]

theorem store_add_last {V : Type} {s : Store V} {k : Nat} (v : V) (h : ∀ q ∈ s, q.1 < k) :
    s.add k v = s ++ [(k, v)] := by
  induction s with
  | nil => rfl
  | cons q s ih =>
    have := h q (by simp)
    obtain ⟨a, b⟩ := q
    simp only at this
    simp only [Store.add]
    rw [if_neg (by omega), if_neg (by omega), ih (fun r hr => h r (by simp [hr]))]
    rfl

theorem addBars_regular (len : Nat) (hlen : 0 < len) (k : Nat) : ∀ (s : Store Bar) (L : Nat),
    (∀ q ∈ s, q.1 ≤ L) →
    Project.addBars s (regularBars L len k) = s ++ (regularBars L len k).map (fun b => (b.startTick, b)) := by
  induction k with
  | zero => intro s L _; simp [Project.addBars, regularBars]
  | succ k ih =>
    intro s L h
    rw [regularBars_succ]
    simp only [Project.addBars, List.foldl_cons] at ih ⊢
    rw [store_add_last _ (fun q hq => by have := h q hq; omega)]
    rw [ih]
    · simp
    · intro q hq
      rw [List.mem_append, List.mem_singleton] at hq
      rcases hq with hq | rfl
      · have := h q hq; omega
      · exact Nat.le_refl _

theorem getLast_max {V : Type} {s : Store V} (hs : s.Pairwise (fun a b => a.1 ≤ b.1)) (x : Nat) :
    (s.getLast?.map (·.1)).getD 0 ≤ x ↔ ∀ q ∈ s, q.1 ≤ x := by
  cases hz : s.getLast? with
  | none =>
    rw [List.getLast?_eq_none_iff] at hz
    simp [hz]
  | some z =>
    obtain ⟨l, hl⟩ := List.getLast?_eq_some_iff.1 hz
    subst hl
    rw [List.pairwise_append] at hs
    simp only [Option.map_some, Option.getD_some, List.mem_append, List.mem_singleton]
    constructor
    · rintro h q (hq | rfl)
      · exact Nat.le_trans (hs.2.2 q hq z (by simp)) h
      · exact h
    · intro h; exact h z (.inr rfl)

theorem SortedStore.le {V : Type} {s : Store V} (hs : SortedStore s) : s.Pairwise (fun a b => a.1 ≤ b.1) :=
  List.Pairwise.imp (fun h => Nat.le_of_lt h) hs

theorem replenish_unfold {p : Project} (h : WF p) : p.replenishBars = (do
    let noteEnd ← p.noteMaxEndTick
    let maxEndTick := max (max (max (noteEnd.getD 0) ((Project.maxTick p.tempos).getD 0))
      ((Project.maxTick p.dumpers).getD 0)) ((Project.maxTick p.softs).getD 0)
    if maxEndTick ≤ lastBarTick p.bars then pure (p, [])
    else do
      let r ← p.rhythmAt (lastBarTick p.bars)
      let bs ← Project.newBars r.tickLen maxEndTick (lastBarTick p.bars)
      pure ({ p with bars := Project.addBars p.bars bs }, bs)) := by
  cases hz : p.bars.getLast? with
  | none =>
    have e1 : p.lastBar = none := by simp only [Project.lastBar, Store.peekLast, hz]
    have e2 : lastBarTick p.bars = 0 := by simp only [lastBarTick, hz]; rfl
    simp only [Project.replenishBars, e1, e2]
  | some z =>
    have e1 : p.lastBar = some (p.bars.length - 1, z.2) := by simp only [Project.lastBar, Store.peekLast, hz]
    have e2 : lastBarTick p.bars = z.2.startTick := by
      simp only [lastBarTick, hz]; exact (h.barsKeyed z (List.mem_of_getLast? hz)).1
    simp only [Project.replenishBars, e1, e2]

theorem lastBarTick_le {p : Project} (h : WF p) : lastBarTick p.bars ≤ U32_MAX := by
  rw [lastBarTick, getLast_max (SortedStore.le h.bars)]
  exact fun q hq => (h.barsKeyed q hq).2

theorem le_lastBarTick {p : Project} (h : WF p) : ∀ q ∈ p.bars, q.1 ≤ lastBarTick p.bars := by
  have := (getLast_max (SortedStore.le h.bars) (lastBarTick p.bars)).1 (Nat.le_refl _)
  exact this

theorem noteEnd_covered {p : Project} (h : WF p) (hv : ValidNotes p) {o : Option Nat}
    (ho : p.noteMaxEndTick = .ok o) (x : Nat) :
    o.getD 0 ≤ x ↔ ∀ q ∈ p.notes, ∀ l, q.2.tickLen = .ok l → q.1 + l ≤ x := by
  by_cases hne : p.notes = []
  · have := (C17_max_end p h hv).1 hne
    rw [this] at ho
    cases ho
    simp [hne]
  · have hfit : ∀ q ∈ p.notes, ∀ l, q.2.tickLen = .ok l → q.1 + l ≤ U32_MAX := by
      intro q hq l hl
      apply Decidable.byContradiction
      intro hgt
      rw [noteMaxEnd_overflow h hv hq hl (by omega)] at ho
      cases ho
    obtain ⟨m, h1, h2, q, hq, l, hl, hm⟩ := noteMaxEnd_ok h hv hne hfit
    rw [h1] at ho
    cases ho
    simp only [Option.getD_some]
    constructor
    · intro hmx r hr l hl
      exact Nat.le_trans (h2 r hr l hl) hmx
    · intro hall
      have := hall q hq l hl
      omega

/-- What `replenish_bars` does, by cases. -/
theorem replenish_spec {p : Project} (h : WF p) (hv : ValidNotes p) {r : Rhythm}
    (hr : LatestValue p.bars Bar.rhythm p.rhythm (lastBarTick p.bars) r) :
    ((∃ q ∈ p.notes, ∃ l, q.2.tickLen = .ok l ∧ U32_MAX < q.1 + l) ∧ p.replenishBars = .error .overflow) ∨
    (CoveredUpTo p (lastBarTick p.bars) ∧ p.replenishBars = .ok (p, [])) ∨
    (¬ CoveredUpTo p (lastBarTick p.bars) ∧ r.tickLen = 0 ∧ p.replenishBars = .error .diverge) ∨
    ∃ k, 0 < r.tickLen ∧ 0 < k ∧ CoveredUpTo p (lastBarTick p.bars + k * r.tickLen) ∧
      (∀ j < k, ¬ CoveredUpTo p (lastBarTick p.bars + j * r.tickLen)) ∧
      (lastBarTick p.bars + k * r.tickLen ≤ U32_MAX → p.replenishBars =
        .ok ({ p with bars := p.bars ++ (regularBars (lastBarTick p.bars) r.tickLen k).map (fun b => (b.startTick, b)) },
          regularBars (lastBarTick p.bars) r.tickLen k)) ∧
      (U32_MAX < lastBarTick p.bars + k * r.tickLen → p.replenishBars = .error .overflow) := by
  cases hm : p.noteMaxEndTick with
  | error e =>
    left
    by_cases hne : p.notes = []
    · rw [(C17_max_end p h hv).1 hne] at hm
      cases hm
    · have : ∃ q ∈ p.notes, ∃ l, q.2.tickLen = .ok l ∧ U32_MAX < q.1 + l := by
        apply Classical.byContradiction
        intro hno
        obtain ⟨m, h1, -⟩ := noteMaxEnd_ok h hv hne (by
          intro q hq l hl
          apply Decidable.byContradiction
          intro hgt
          exact hno ⟨q, hq, l, hl, by omega⟩)
        rw [h1] at hm
        cases hm
      refine ⟨this, ?_⟩
      obtain ⟨q, hq, l, hl, hb⟩ := this
      simp only [Project.replenishBars, noteMaxEnd_overflow h hv hq hl hb]
      rfl
  | ok o =>
    right
    have hcov : ∀ x, max (max (max (o.getD 0) ((Project.maxTick p.tempos).getD 0))
        ((Project.maxTick p.dumpers).getD 0)) ((Project.maxTick p.softs).getD 0) ≤ x ↔ CoveredUpTo p x := by
      intro x
      have a := noteEnd_covered h hv hm x
      have b := getLast_max (SortedStore.le h.tempos) x
      have c := getLast_max (SortedStore.le h.dumpers) x
      have d := getLast_max (SortedStore.le h.softs) x
      simp only [Project.maxTick, Store.peekLast]
      rw [Nat.max_le, Nat.max_le, Nat.max_le, a, b, c, d]
      constructor
      · rintro ⟨⟨⟨h1, h2⟩, h3⟩, h4⟩; exact ⟨h1, h2, h3, h4⟩
      · rintro ⟨h1, h2, h3, h4⟩; exact ⟨⟨⟨h1, h2⟩, h3⟩, h4⟩
    have hra : p.rhythmAt (lastBarTick p.bars) = .ok r := by
      obtain ⟨⟨r', h1, h2⟩, -⟩ := C16_rhythm_key p h (lastBarTick p.bars)
      rw [h1, latestValue_unique h.bars h2 hr]
    rw [replenish_unfold h]
    simp only [hm, R_bind_ok]
    generalize max (max (max (o.getD 0) ((Project.maxTick p.tempos).getD 0))
        ((Project.maxTick p.dumpers).getD 0)) ((Project.maxTick p.softs).getD 0) = E at *
    by_cases hE : E ≤ lastBarTick p.bars
    · left
      rw [if_pos hE]
      exact ⟨(hcov _).1 hE, rfl⟩
    · right
      rw [if_neg hE, hra]
      simp only [R_bind_ok]
      by_cases h0 : r.tickLen = 0
      · left
        rw [h0, newBars_zero (by omega)]
        exact ⟨fun hc => hE ((hcov _).2 hc), rfl, rfl⟩
      · right
        obtain ⟨k, h1, h2, h3, h4⟩ := newBars_spec r.tickLen E (by omega) _ (lastBarTick p.bars) rfl (lastBarTick_le h)
        refine ⟨k, by omega, ?_, (hcov _).1 h1, ?_, ?_, ?_⟩
        · cases k with
          | zero => omega
          | succ k => omega
        · intro j hj hc
          have := h2 j hj
          have := (hcov _).2 hc
          omega
        · intro hle
          rw [h3 hle]
          simp only [R_bind_ok, R_pure]
          rw [addBars_regular _ (by omega) _ _ _ (le_lastBarTick h)]
        · intro hgt
          rw [h4 hgt]
          rfl

/-- A successful completion adds bars behind the last one (no other change). -/
theorem newBars_mem {len E : Nat} : ∀ (d L : Nat) {bs : List Bar}, E - L = d → Project.newBars len E L = .ok bs →
    ∀ b ∈ bs, L < b.startTick ∧ b.startTick ≤ U32_MAX := by
  intro d
  induction d using Nat.strongRecOn with
  | _ d ih =>
    intro L bs hd hb
    rw [Project.newBars] at hb
    split at hb
    · next h =>
      split at hb
      · cases hb
      · split at hb
        · next hl hf =>
          rw [R_bind_eq_ok] at hb
          obtain ⟨rest, h1, h2⟩ := hb
          cases h2
          intro b hb
          rcases List.mem_cons.1 hb with rfl | hb
          · simp only; omega
          · have := ih (E - (L + len)) (by omega) (L + len) rfl h1 b hb
            omega
        · cases hb
    · cases hb
      simp

theorem replenish_shape {p p' : Project} {bs : List Bar} (h : WF p) (hr : p.replenishBars = .ok (p', bs)) :
    p' = { p with bars := Project.addItems Bar.startTick p.bars bs } ∧
      ∀ b ∈ bs, lastBarTick p.bars < b.startTick ∧ b.startTick ≤ U32_MAX := by
  rw [replenish_unfold h] at hr
  rw [R_bind_eq_ok] at hr
  obtain ⟨o, -, hr⟩ := hr
  dsimp only at hr
  split at hr
  · cases hr
    exact ⟨rfl, by simp⟩
  · rw [R_bind_eq_ok] at hr
    obtain ⟨r, -, hr⟩ := hr
    rw [R_bind_eq_ok] at hr
    obtain ⟨bs', h1, hr⟩ := hr
    cases hr
    exact ⟨rfl, newBars_mem _ _ rfl h1⟩

end Klavier
