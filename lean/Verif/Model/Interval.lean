import Verif.Model.Basic

/-!
# The external crate intervallum

The crate is not part of `/repo`.  An interval set is modelled by the list of its
maximal closed intervals in increasing order; union and intersection are those of
sets (proved in Lemmas/Interval).  What the crate does with a pair whose lower
bound exceeds its upper bound is not known here: it is the parameter `ip`
("inverted panics"), and every theorem holds for both values.
-/
set_option autoImplicit false
namespace Klavier

/-- `IntervalSet<u32>` -/
abbrev IntervalSet := List (Nat × Nat)

namespace IntervalSet

/-- A tick is in the set. -/
def has (s : IntervalSet) (t : Nat) : Bool := s.any (fun i => decide (i.1 ≤ t ∧ t ≤ i.2))

/-- Adds one interval (`lo ≤ hi`), joining what overlaps or touches. -/
def insert (lo hi : Nat) : IntervalSet → IntervalSet
  | [] => [(lo, hi)]
  | (a, b) :: s =>
    if hi + 1 < a then (lo, hi) :: (a, b) :: s
    else if b + 1 < lo then (a, b) :: insert lo hi s
    else insert (min lo a) (max hi b) s

/-- `Union::union` -/
def union (s t : IntervalSet) : IntervalSet := s.foldr (fun i u => insert i.1 i.2 u) t

/-- `Intersection::intersection` -/
def inter (s t : IntervalSet) : IntervalSet :=
  s.foldr (fun i u =>
    t.foldr (fun j u => if max i.1 j.1 ≤ min i.2 j.2 then insert (max i.1 j.1) (min i.2 j.2) u else u) u) []

/-- `to_interval_set` of a vector of pairs. -/
def ofPairs (ip : Bool) : List (Nat × Nat) → R IntervalSet
  | [] => .ok []
  | (lo, hi) :: l =>
    if lo ≤ hi then do
      let s ← ofPairs ip l
      pure (insert lo hi s)
    else if ip then .error .explicit
    else ofPairs ip l

end IntervalSet
end Klavier
