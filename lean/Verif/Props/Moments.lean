import Verif.Lemmas.Moments

/-! # C91: every moment of playing can be started from, in one way -/
set_option autoImplicit false
namespace Klavier
open Spec

/-- C91: in every score that is rendered and indexed, every moment `p` of playing, at
which tick `t` is played, is the start position of exactly one tick and iteration
from 1 to 5 (if `p + t` fits 32 bits). -/
theorem C91_every (ip : Bool) (tune : Rhythm) (bars : List Bar) (hb : BarsOk bars) (c : CompoundRegion)
    (w : List RenderRegionWarning) (cs : List Chunk) (h : renderRegion ip tune bars = .ok (c, w)) (hc : c.toChunks ip = .ok cs)
    (idx : Store Chunk) (hidx : Chunk.byAccumTick cs = .ok idx) (p t : Nat) (hp : (played cs)[p]? = some t)
    (hfit : p + t ≤ U32_MAX) :
    ∃ k, 1 ≤ k ∧ k ≤ 5 ∧ (PlayStartTick.new t k).toAccumTick idx = .ok (.ok p) ∧
      ∀ t' k', 1 ≤ k' → k' ≤ 5 → (PlayStartTick.new t' k').toAccumTick idx = .ok (.ok p) → t' = t ∧ k' = k := by
  have hok : ChunksOk cs := (render_general hb h hc).1
  obtain ⟨k, h1, h5, _, hocc⟩ := C49_selectable ip tune bars hb c w cs h hc p t hp
  refine ⟨k, h1, h5, ?_, fun t' k' h1' h5' ha => ?_⟩
  · obtain ⟨a, _⟩ := C36_position_partial cs hok idx hidx t k
    have hk : max 1 (min k 5) = k := by omega
    rw [hk] at a
    have hn : k ≤ (played cs).count t := by
      have hs : (played cs) = (played cs).take p ++ t :: (played cs).drop (p + 1) := by
        obtain ⟨hlt, he⟩ := List.getElem?_eq_some_iff.1 hp
        rw [← he, ← List.drop_eq_getElem_cons hlt, List.take_append_drop]
      rw [hs, List.count_append, List.count_cons_self]
      have := hocc.2
      omega
    obtain ⟨q, i, d, q1, q2, q3, _⟩ := a hn
    have := C36_unique _ _ _ _ _ hocc q1
    subst this
    exact q3 (by omega)
  · have o' := answer_occurrence hok hidx h1' h5' ha
    have ht : t' = t := by
      have := o'.1
      rw [hp] at this
      exact (Option.some.inj this).symm
    subst ht
    exact ⟨rfl, by rw [← o'.2, ← hocc.2]⟩

/-- C91: conversely every answer is a moment at which the tick asked for is played,
and a later iteration of a tick is later. -/
theorem C91_order (ip : Bool) (tune : Rhythm) (bars : List Bar) (hb : BarsOk bars) (c : CompoundRegion)
    (w : List RenderRegionWarning) (cs : List Chunk) (h : renderRegion ip tune bars = .ok (c, w)) (hc : c.toChunks ip = .ok cs)
    (idx : Store Chunk) (hidx : Chunk.byAccumTick cs = .ok idx) (t k p : Nat) (h1 : 1 ≤ k) (h5 : k ≤ 5)
    (ha : (PlayStartTick.new t k).toAccumTick idx = .ok (.ok p)) :
    (played cs)[p]? = some t ∧
    ∀ k' p', k < k' → k' ≤ 5 → (PlayStartTick.new t k').toAccumTick idx = .ok (.ok p') → p < p' := by
  have hok : ChunksOk cs := (render_general hb h hc).1
  have ho := answer_occurrence hok hidx h1 h5 ha
  exact ⟨ho.1, fun k' p' hk h5' ha' => occurrence_lt ho (answer_occurrence hok hidx (by omega) h5' ha') hk⟩

/-- C91: whether neighbouring chunks are merged before the index is made does not
matter: if there is an index of the chunks, there is one of the merged chunks, and
every start position that is answered (also by "not found") gets the same answer. -/
theorem C91_merged (ip : Bool) (tune : Rhythm) (bars : List Bar) (hb : BarsOk bars) (c : CompoundRegion)
    (w : List RenderRegionWarning) (cs : List Chunk) (h : renderRegion ip tune bars = .ok (c, w)) (hc : c.toChunks ip = .ok cs)
    (idx : Store Chunk) (hidx : Chunk.byAccumTick cs = .ok idx) :
    ∃ idx', Chunk.byAccumTick (Chunk.optimize cs) = .ok idx' ∧
      ∀ t k a, (PlayStartTick.new t k).toAccumTick idx = .ok a → (PlayStartTick.new t k).toAccumTick idx' = .ok a := by
  have hok : ChunksOk cs := (render_general hb h hc).1
  obtain ⟨rfl, hfit⟩ := byAccumTick_index hok hidx
  have hfit' : closedLength (Chunk.optimize cs) ≤ U32_MAX := by
    cases cs with
    | nil => exact hfit
    | cons x xs => exact Nat.le_trans (closedLength_merge xs x hok) hfit
  refine ⟨_, byAccumTick_exists (C50_optimized cs hok) hfit', fun t k a ha => ?_⟩
  have hs := hitList_optimize t 0 cs (fun x hx => (hok.1 x hx).1)
  rw [C36_any] at ha ⊢
  rw [accumIndex_hits] at ha ⊢
  cases he : (hitList t 0 cs)[max 1 (min k 5) - 1]? with
  | none =>
    rw [he] at ha
    have : (hitList t 0 (Chunk.optimize cs))[max 1 (min k 5) - 1]? = none := by
      rw [List.getElem?_eq_none_iff] at he ⊢
      rw [hs.1]
      exact he
    rw [this, hs.1]
    exact ha
  | some e =>
    rw [he] at ha
    simp only at ha
    obtain ⟨hlt, _⟩ := List.getElem?_eq_some_iff.1 he
    have hlt' : max 1 (min k 5) - 1 < (hitList t 0 (Chunk.optimize cs)).length := by rw [hs.1]; exact hlt
    have h2 := hs.2 _ e _ he (List.getElem?_eq_getElem hlt')
    rw [List.getElem?_eq_getElem hlt']
    simp only
    split at ha
    · rw [if_pos (by omega), h2.2]
      exact ha
    · cases ha

/-- A bar that is played twice, and what follows: the start positions of the bar, of
its second playing, and of what follows, with and without merging. -/
example (ip : Bool) : let bars : List Bar := [⟨96, none, none, RepeatSet.EMPTY.set .Start true⟩, ⟨192, none, none, RepeatSet.EMPTY.set .End true⟩]
    BarsOk bars ∧ ∃ c cs idx idx', renderRegion ip ⟨4, .D4⟩ bars = .ok (c, []) ∧ c.toChunks ip = .ok cs ∧
      Chunk.byAccumTick cs = .ok idx ∧ Chunk.byAccumTick (Chunk.optimize cs) = .ok idx' ∧ idx ≠ idx' ∧
      (PlayStartTick.new 100 1).toAccumTick idx = .ok (.ok 100) ∧ (PlayStartTick.new 100 2).toAccumTick idx = .ok (.ok 196) ∧
      (PlayStartTick.new 192 1).toAccumTick idx = .ok (.ok 288) ∧ (PlayStartTick.new 192 1).toAccumTick idx' = .ok (.ok 288) ∧
      (PlayStartTick.new 192 2).toAccumTick idx' = .ok (.error ⟨2, 1⟩) := by
  refine ⟨⟨by decide, by decide⟩, ⟨none, [.seq ⟨0, 96⟩, .rep ⟨96, 192⟩, .seq ⟨192, U32_MAX⟩]⟩,
    [⟨0, 96⟩, ⟨96, 192⟩, ⟨96, 192⟩, ⟨192, U32_MAX⟩], _, _, ?_, ?_, rfl, rfl, ?_, ?_, ?_, ?_, ?_, ?_⟩
  all_goals first | (cases ip <;> decide) | decide

/-- C91: the proviso is needed.  In the score that repeats the two ticks from 2^31 - 1
on, the moment 2^31 + 2, at which tick 2^31 is played the second time, is no answer:
asking for it panics. -/
theorem C91_proviso (ip : Bool) :
    let bars : List Bar := [⟨2 ^ 31 - 1, none, none, RepeatSet.EMPTY.set .Start true⟩, ⟨2 ^ 31 + 1, none, none, RepeatSet.EMPTY.set .End true⟩]
    BarsOk bars ∧ ∃ c cs idx, renderRegion ip ⟨4, .D4⟩ bars = .ok (c, []) ∧ c.toChunks ip = .ok cs ∧
      Chunk.byAccumTick cs = .ok idx ∧ (played cs)[2 ^ 31 + 2]? = some (2 ^ 31) ∧
      (PlayStartTick.new (2 ^ 31) 2).toAccumTick idx = .error .overflow ∧
      ∀ k, 1 ≤ k → k ≤ 5 → (PlayStartTick.new (2 ^ 31) k).toAccumTick idx ≠ .ok (.ok (2 ^ 31 + 2)) := by
  refine ⟨⟨by decide, by decide⟩,
    ⟨none, [.seq ⟨0, 2 ^ 31 - 1⟩, .rep ⟨2 ^ 31 - 1, 2 ^ 31 + 1⟩, .seq ⟨2 ^ 31 + 1, U32_MAX⟩]⟩,
    [⟨0, 2 ^ 31 - 1⟩, ⟨2 ^ 31 - 1, 2 ^ 31 + 1⟩, ⟨2 ^ 31 - 1, 2 ^ 31 + 1⟩, ⟨2 ^ 31 + 1, U32_MAX⟩], _, ?_, ?_, rfl, ?_, ?_, ?_⟩
  · cases ip <;> decide +kernel
  · cases ip <;> decide +kernel
  · simp only [played_cons]
    rw [List.getElem?_append_right (by rw [span_length]; omega), span_length,
      List.getElem?_append_right (by rw [span_length]; omega), span_length,
      List.getElem?_append_left (by rw [span_length]; omega)]
    have e : 2 ^ 31 + 2 - (2 ^ 31 - 1 - 0) - (2 ^ 31 + 1 - (2 ^ 31 - 1)) = 2 ^ 31 - (2 ^ 31 - 1) := by omega
    rw [e]
    exact span_get (by omega)
  · decide +kernel
  · intro k h1 h5
    have : k = 1 ∨ k = 2 ∨ k = 3 ∨ k = 4 ∨ k = 5 := by omega
    rcases this with rfl | rfl | rfl | rfl | rfl <;> decide +kernel

end Klavier
