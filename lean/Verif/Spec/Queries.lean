import Verif.Spec.Store
import Verif.Spec.Values

/-! # Specification of the project queries -/
set_option autoImplicit false
namespace Klavier
namespace Spec

/-- `a` is the value carried by the latest item at or before `tick` that carries
one, or the default when there is none. -/
def LatestValue {V α : Type} (s : List (Nat × V)) (sel : V → Option α) (dflt : α) (tick : Nat) (a : α) : Prop :=
  ((∀ q ∈ s, q.1 ≤ tick → sel q.2 = none) ∧ a = dflt) ∨
  ∃ q ∈ s, q.1 ≤ tick ∧ sel q.2 = some a ∧ ∀ r ∈ s, r.1 ≤ tick → sel r.2 ≠ none → r.1 ≤ q.1

/-- Lexicographic order on locations. -/
def Before (l m : Location) : Prop := l.barNo < m.barNo ∨ (l.barNo = m.barNo ∧ l.offset < m.offset)

/-- Start of bar number `n`: bar 0 is the part before the first bar; beyond the
last bar, bars go on with the length `len`. -/
def barStart (bars : List (Nat × Bar)) (len n : Nat) : Nat :=
  match bars, n with
  | _, 0 => 0
  | [], n + 1 => (n + 1) * len
  | b :: bs, n + 1 => if n < (b :: bs).length then ((b :: bs)[n]?.getD b).1
    else ((b :: bs).getLast?.getD b).1 + (n + 1 - (b :: bs).length) * len

/-- The last bar's tick, 0 without bars. -/
def lastBarTick (bars : List (Nat × Bar)) : Nat := (bars.getLast?.map (·.1)).getD 0

/-- All notes have ended, and all tempos and pedals have taken place, by tick `x`. -/
structure CoveredUpTo (p : Project) (x : Nat) : Prop where
  notes : ∀ q ∈ p.notes, ∀ l, q.2.tickLen = .ok l → q.1 + l ≤ x
  tempos : ∀ q ∈ p.tempos, q.1 ≤ x
  dumpers : ∀ q ∈ p.dumpers, q.1 ≤ x
  softs : ∀ q ∈ p.softs, q.1 ≤ x

/-- `k` plain bars following tick `start` at distance `len`. -/
def regularBars (start len k : Nat) : List Bar :=
  (List.range k).map (fun i => { startTick := start + (i + 1) * len })

/-- All notes have parts built by the public constructors. -/
def ValidNotes (p : Project) : Prop := ∀ q ∈ p.notes, ValidLength q.2

end Spec
end Klavier
