import Verif.Lemmas.Release
import Verif.Lemmas.Replenish

/-! # Completing the bars without overflow checks -/
set_option autoImplicit false
namespace Klavier
open Spec

theorem Store.add_mem {V : Type} (s : Store V) (k : Nat) (v : V) : (k, v) ∈ s.add k v := by
  induction s with
  | nil => simp [Store.add]
  | cons q s ih =>
    simp only [Store.add]
    split
    · simp
    · split
      · simp
      · exact List.mem_cons_of_mem _ ih

namespace Release

theorem replenish_eq {p : Project} (h : Keyed Bar.startTick p.bars) : replenishBars p = (do
    let noteEnd ← noteMaxEndTick p
    let maxEndTick := max (max (max (noteEnd.getD 0) ((Project.maxTick p.tempos).getD 0))
      ((Project.maxTick p.dumpers).getD 0)) ((Project.maxTick p.softs).getD 0)
    if maxEndTick ≤ lastBarTick p.bars then pure (p, [])
    else do
      let r ← p.rhythmAt (lastBarTick p.bars)
      let bs ← newBars r.tickLen maxEndTick (4294967296 + maxEndTick) (lastBarTick p.bars)
      pure ({ p with bars := Project.addBars p.bars bs }, bs)) := by
  cases hz : p.bars.getLast? with
  | none =>
    have e1 : p.lastBar = none := by simp only [Project.lastBar, Store.peekLast, hz]
    have e2 : lastBarTick p.bars = 0 := by simp only [lastBarTick, hz]; rfl
    simp only [replenishBars, e1, e2]
  | some z =>
    have e1 : p.lastBar = some (p.bars.length - 1, z.2) := by simp only [Project.lastBar, Store.peekLast, hz]
    have e2 : lastBarTick p.bars = z.2.startTick := by
      simp only [lastBarTick, hz]; exact (h z (List.mem_of_getLast? hz)).1
    simp only [replenishBars, e1, e2]

theorem maxEnd_ok_of : ∀ (l : List (Nat × Note)) (m : Nat), (∀ q ∈ l, ValidLength q.2) → ∃ e, maxEnd l m = .ok e
  | [], m, _ => ⟨m, rfl⟩
  | (t, n) :: l, m, hv => by
    obtain ⟨_, len, -, hl, -⟩ := C47_length n (hv (t, n) (by simp))
    have : noteTickLen n = .ok len := by
      rw [← hl]; exact agrees_tickLen n (by rw [hl]; intro h; cases h)
    obtain ⟨e, he⟩ := maxEnd_ok_of l (max m (add32 t len)) (fun q hq => hv q (by simp [hq]))
    exact ⟨e, by rw [maxEnd, this]; exact he⟩

theorem noteMaxEndTick_ok {p : Project} (hv : ValidNotes p) : ∃ m, noteMaxEndTick p = .ok m := by
  unfold noteMaxEndTick
  split
  · exact ⟨none, rfl⟩
  · rename_i t _ _
    simp only [C47_longest, R_bind_ok]
    obtain ⟨e, he⟩ := maxEnd_ok_of (p.notes.rangeFrom (asU32 (if (t : Int) - (3826 : Nat) < 0 then 0 else (t : Int) - (3826 : Nat)))) 0
      (fun q hq => hv q ((List.mem_filter.1 hq).1))
    exact ⟨some e, by rw [he]; rfl⟩

theorem newBars_even (len e : Nat) (hl : 2 ∣ len) (he : U32_MAX ≤ e) : ∀ (fuel b : Nat), b ≤ U32_MAX → 2 ∣ b →
    newBars len e fuel b = .error .diverge := by
  simp only [U32_MAX] at *
  intro fuel
  induction fuel with
  | zero => intro b hb h2; rw [newBars, if_pos (by omega)]
  | succ f ih =>
    intro b hb h2
    rw [newBars, if_pos (by omega)]
    split
    · rfl
    · rw [ih (add32 b len) (by unfold add32; omega) (by unfold add32; omega)]; rfl

end Release
end Klavier
