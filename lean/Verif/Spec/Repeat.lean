import Verif.Model.Repeat

/-! # The playing order as a list of ticks -/
set_option autoImplicit false
namespace Klavier
namespace Spec

/-- The ticks from `a` up to, not including, `b`. -/
def span (a b : Nat) : List Nat := List.range' a (b - a)

/-- What is played, tick by tick. -/
def played (chunks : List Chunk) : List Nat := chunks.flatMap (fun c => span c.startTick c.endTick)

/-- Chunks as rendering produces them: none ends before it starts, all within 32
bits, and only the last may be open ended (`u32::MAX`). -/
def ChunksOk (chunks : List Chunk) : Prop :=
  (∀ c ∈ chunks, c.startTick ≤ c.endTick ∧ c.endTick ≤ U32_MAX) ∧
  ∀ c ∈ chunks.dropLast, c.endTick ≠ U32_MAX

/-- Position `p` of `l` holds the occurrence number `k` (counted from 1) of `t`. -/
def IsOccurrence (l : List Nat) (t k p : Nat) : Prop :=
  l[p]? = some t ∧ (l.take p).count t + 1 = k

end Spec
end Klavier
