import Verif.Model.Project

/-! # What it means for a store, a bag and a project to be in order -/
set_option autoImplicit false
namespace Klavier
namespace Spec

/-- Strictly increasing keys: sorted, one item per key. -/
def SortedStore {V : Type} (s : Store V) : Prop := s.Pairwise (fun a b => a.1 < b.1)

/-- Every item is stored under its own tick, a 32-bit number. -/
def Keyed {V : Type} (tick : V → Nat) (s : List (Nat × V)) : Prop :=
  ∀ p ∈ s, p.1 = tick p.2 ∧ p.1 ≤ U32_MAX

/-- Increasing keys (equal keys allowed). -/
def SortedBag {V : Type} (s : Bag V) : Prop := s.Pairwise (fun a b => a.1 ≤ b.1)

/-- A project in order. -/
structure WF (p : Project) : Prop where
  notes : SortedBag p.notes
  notesKeyed : Keyed Note.startTick p.notes
  bars : SortedStore p.bars
  barsKeyed : Keyed Bar.startTick p.bars
  tempos : SortedStore p.tempos
  temposKeyed : Keyed Tempo.startTick p.tempos
  dumpers : SortedStore p.dumpers
  dumpersKeyed : Keyed CtrlChg.startTick p.dumpers
  softs : SortedStore p.softs
  softsKeyed : Keyed CtrlChg.startTick p.softs

/-- Two projects a user cannot tell apart: equal except for the order of notes
sounding at the same tick. -/
structure Same (p q : Project) : Prop where
  rhythm : p.rhythm = q.rhythm
  key : p.key = q.key
  grid : p.grid = q.grid
  notes : p.notes.Perm q.notes
  bars : p.bars = q.bars
  tempos : p.tempos = q.tempos
  dumpers : p.dumpers = q.dumpers
  softs : p.softs = q.softs

end Spec
end Klavier
