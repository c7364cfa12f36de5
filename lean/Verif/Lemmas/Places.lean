import Verif.Lemmas.Portions

set_option autoImplicit false
namespace Klavier
open Spec
namespace Project

/-- What completing the bars does when it succeeds, whatever the notes are. -/
theorem replenish_form {p p' : Project} {bs : List Bar} (h : WF p) (hr : p.replenishBars = .ok (p', bs)) :
    ∃ r k, LatestValue p.bars Bar.rhythm p.rhythm (lastBarTick p.bars) r ∧ (0 < k → 0 < r.tickLen) ∧
      lastBarTick p.bars + k * r.tickLen ≤ U32_MAX ∧
      p' = { p with bars := p.bars ++ (regularBars (lastBarTick p.bars) r.tickLen k).map (fun b => (b.startTick, b)) } ∧
      bs = regularBars (lastBarTick p.bars) r.tickLen k := by
  obtain ⟨⟨r, hra, hl⟩, -⟩ := C16_rhythm_key p h (lastBarTick p.bars)
  rw [replenish_unfold h, R_bind_eq_ok] at hr
  obtain ⟨o, -, hr⟩ := hr
  dsimp only at hr
  split at hr
  · cases hr
    exact ⟨r, 0, hl, by omega, by simpa using lastBarTick_le h, by simp [regularBars], by simp [regularBars]⟩
  · next hE =>
    rw [hra, R_bind_ok, R_bind_eq_ok] at hr
    obtain ⟨bs', h1, hr⟩ := hr
    cases hr
    by_cases h0 : r.tickLen = 0
    · rw [h0, newBars_zero (by omega)] at h1
      cases h1
    · obtain ⟨k, -, -, h3, h4⟩ := newBars_spec r.tickLen _ (by omega) _ (lastBarTick p.bars) rfl (lastBarTick_le h)
      by_cases hle : lastBarTick p.bars + k * r.tickLen ≤ U32_MAX
      · rw [h3 hle] at h1
        cases h1
        exact ⟨r, k, hl, fun _ => by omega, hle, by rw [addBars_regular _ (by omega) _ _ _ (le_lastBarTick h)], rfl⟩
      · rw [h4 (by omega)] at h1
        cases h1

theorem barStart_eq (s : List (Nat × Bar)) (len n : Nat) :
    barStart s len n = if n = 0 then 0 else if n ≤ s.length then (s[n - 1]?.map (·.1)).getD 0 else
      lastBarTick s + (n - s.length) * len := by
  cases n with
  | zero => cases s <;> rfl
  | succ n =>
    rw [if_neg (by omega)]
    cases s with
    | nil => simp [barStart, lastBarTick]
    | cons b s =>
      simp only [barStart, lastBarTick, Nat.add_sub_cancel]
      by_cases hn : n < (b :: s).length
      · rw [if_pos hn, if_pos (by omega), List.getElem?_eq_getElem hn]
        rfl
      · rw [if_neg hn, if_neg (by omega), List.getLast?_eq_some_getLast (by simp)]
        rfl

theorem regular_get (L len k i : Nat) (h : i < k) :
    ((regularBars L len k).map (fun b => (b.startTick, b)))[i]? = some (L + (i + 1) * len, { startTick := L + (i + 1) * len }) := by
  simp [regularBars, h]

theorem regular_length (L len k : Nat) : ((regularBars L len k).map (fun b => (b.startTick, b))).length = k := by
  simp [regularBars]

/-- Completed bars are where bars would have been counted without them. -/
theorem barStart_regular (s : List (Nat × Bar)) (len k n : Nat) :
    barStart (s ++ (regularBars (lastBarTick s) len k).map (fun b => (b.startTick, b))) len n = barStart s len n := by
  rw [barStart_eq, barStart_eq, lastBarTick_regular, List.length_append, regular_length]
  by_cases h0 : n = 0
  · rw [if_pos h0, if_pos h0]
  rw [if_neg h0, if_neg h0]
  by_cases h1 : n ≤ s.length
  · rw [if_pos h1, if_pos (by omega), List.getElem?_append_left (by omega)]
  · rw [if_neg h1]
    by_cases h2 : n ≤ s.length + k
    · rw [if_pos h2, List.getElem?_append_right (by omega), regular_get _ _ _ _ (by omega)]
      simp only [Option.map_some, Option.getD_some]
      congr 2
      omega
    · rw [if_neg h2]
      obtain ⟨d, rfl⟩ : ∃ d, n = s.length + k + d := ⟨n - (s.length + k), by omega⟩
      rw [show s.length + k + d - (s.length + k) = d by omega, show s.length + k + d - s.length = k + d by omega, Nat.add_mul]
      omega

theorem split_unique {V : Type} {s : Store V} {k n m : Nat} (h1 : SplitAt s k n) (h2 : SplitAt s k m) : n = m := by
  have : ∀ {n m}, SplitAt s k n → SplitAt s k m → ¬ n < m := by
    intro n m h1 h2 hlt
    have hm := h2.1
    have hg : s[n]? = some s[n] := List.getElem?_eq_getElem (by omega)
    have a := splitAt_get h1 n _ hg
    have b := splitAt_get h2 n _ hg
    omega
  have a := this h1 h2
  have b := this h2 h1
  omega

/-- The location of a tick, from the number of bar lines up to it. -/
theorem location_of_split {p : Project} (h : WF p) (len : Nat) {t n : Nat} (hs : SplitAt p.bars t n) :
    p.tickToLocation t = .ok ⟨n, t - barStart p.bars len n⟩ := by
  obtain ⟨n', hn, hc⟩ := tickToLocation_spec h.bars h.barsKeyed t
  obtain rfl := split_unique hs hn
  rcases hc with ⟨rfl, hc⟩ | ⟨m, q, rfl, hq, hqt, hc⟩
  · rw [hc, barStart_eq, if_pos rfl]
    rfl
  · rw [hc, barStart_eq, if_neg (by omega), if_pos hs.1, Nat.add_sub_cancel, hq]
    rfl

/-! ### Edits -/

theorem edit_setRhythm {p p' : Project} {e : Edit} {a b : Rhythm} (h : p.exec e = .ok (some (p', .setRhythm a b))) :
    ∃ r, e = .setRhythm r := by
  cases e with
  | setRhythm r => exact ⟨r, rfl⟩
  | setKey k => cases h
  | setGrid g => cases h
  | addBar x s => cases h
  | bulkRemove m md => cases h
  | tuplize ns =>
    simp only [exec, Project.tuplize] at h
    split at h
    · simp only [R_bind_eq_ok] at h
      obtain ⟨_, _, ⟨_, _⟩, _, h⟩ := h
      cases h
    · cases h
  | _ =>
    simp only [exec, addNote, addTempo, addDumper, addSoft, Project.bulkAdd, Project.change, R_bind_eq_ok] at h
    obtain ⟨_, ⟨⟨_, _⟩, _, h1⟩, h2⟩ := h
    cases h1
    cases h2

theorem edit_setKey {p p' : Project} {e : Edit} {a b : Key} (h : p.exec e = .ok (some (p', .setKey a b))) :
    ∃ r, e = .setKey r := by
  cases e with
  | setRhythm r => cases h
  | setKey k => exact ⟨k, rfl⟩
  | setGrid g => cases h
  | addBar x s => cases h
  | bulkRemove m md => cases h
  | tuplize ns =>
    simp only [exec, Project.tuplize] at h
    split at h
    · simp only [R_bind_eq_ok] at h
      obtain ⟨_, _, ⟨_, _⟩, _, h⟩ := h
      cases h
    · cases h
  | _ =>
    simp only [exec, addNote, addTempo, addDumper, addSoft, Project.bulkAdd, Project.change, R_bind_eq_ok] at h
    obtain ⟨_, ⟨⟨_, _⟩, _, h1⟩, h2⟩ := h
    cases h1
    cases h2

theorem rhythmAt_congr {p q : Project} (hb : p.bars = q.bars) (hr : p.rhythm = q.rhythm) (t : Nat) : p.rhythmAt t = q.rhythmAt t := by
  simp only [rhythmAt, hb, hr]

theorem keyAt_congr {p q : Project} (hb : p.bars = q.bars) (hr : p.key = q.key) (t : Nat) : p.keyAt t = q.keyAt t := by
  simp only [keyAt, hb, hr]

theorem locationToTick_congr {p q : Project} (hb : p.bars = q.bars) (hr : p.rhythm = q.rhythm) (loc : Location) :
    p.locationToTick loc = q.locationToTick loc := by
  simp only [locationToTick, lastBar, rhythmAt, hb, hr]

/-! ### A new bar line -/

theorem store_add_perm {V : Type} (s : Store V) (k : Nat) (v : V) (h : ∀ q ∈ s, q.1 ≠ k) : (s.add k v).Perm ((k, v) :: s) := by
  induction s with
  | nil => exact List.Perm.refl _
  | cons a s ih =>
    obtain ⟨i, w⟩ := a
    have h0 : i ≠ k := h (i, w) (by simp)
    simp only [Store.add]
    split
    · exact List.Perm.refl _
    · rw [if_neg (by omega)]
      exact ((ih (fun q hq => h q (by simp [hq]))).cons _).trans (List.Perm.swap _ _ _)

theorem split_count {V : Type} {s : Store V} {t n : Nat} (h : SplitAt s t n) : n = s.countP (fun q => decide (q.1 ≤ t)) := by
  obtain ⟨h1, h2, h3⟩ := h
  rw [← List.take_append_drop n s, List.countP_append, List.countP_eq_length.2 (by simpa using h2),
    List.countP_eq_zero.2 (by intro a ha; have := h3 a ha; simp only [decide_eq_true_eq]; omega), List.length_take]
  omega

/-- The location of a tick: the number of bar lines up to it, and the distance from the latest. -/
theorem location_count {p : Project} (h : WF p) (t : Nat) :
    ∃ o, p.tickToLocation t = .ok ⟨p.bars.countP (fun q => decide (q.1 ≤ t)), o⟩ ∧
      (((∀ q ∈ p.bars, t < q.1) ∧ o = t) ∨ ∃ q ∈ p.bars, q.1 ≤ t ∧ o = t - q.1 ∧ ∀ r ∈ p.bars, r.1 ≤ t → r.1 ≤ q.1) := by
  obtain ⟨n, hn, hc⟩ := tickToLocation_spec h.bars h.barsKeyed t
  rw [← split_count hn]
  rcases hc with ⟨rfl, hc⟩ | ⟨m, q, rfl, hq, hqt, hc⟩
  · exact ⟨t, hc, .inl ⟨split_zero hn, rfl⟩⟩
  · refine ⟨_, hc, .inr ?_⟩
    obtain ⟨q', e1, e2, e3, e4⟩ := split_last h.bars hn
    rw [hq] at e1
    obtain rfl := Option.some.inj e1
    exact ⟨q, e2, e3, rfl, e4⟩

end Project
end Klavier
