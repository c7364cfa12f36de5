import Verif.Model.Project
import Verif.Spec.Store
import Verif.Spec.Pitch

/-! # Moving the whole tune -/
set_option autoImplicit false
namespace Klavier
namespace Spec

/-- The tick `d` later (earlier, if `d` is negative). -/
def shift (d : Int) (t : Nat) : Nat := ((t : Int) + d).toNat

/-- The tune with everything `d` later: all ticks differ, and nothing else does. -/
def moved (d : Int) (p : Project) : Project where
  rhythm := p.rhythm
  key := p.key
  grid := p.grid
  notes := p.notes.map (fun q => (shift d q.1, { q.2 with baseStartTick := shift d q.2.baseStartTick }))
  bars := p.bars.map (fun q => (shift d q.1, { q.2 with startTick := shift d q.2.startTick }))
  tempos := p.tempos.map (fun q => (shift d q.1, { q.2 with startTick := shift d q.2.startTick }))
  dumpers := p.dumpers.map (fun q => (shift d q.1, { q.2 with startTick := shift d q.2.startTick }))
  softs := p.softs.map (fun q => (shift d q.1, { q.2 with startTick := shift d q.2.startTick }))

/-- The change an editor makes when all things of the project are selected (in any order)
and dragged by `d`, the notes to no other pitch and the tempos to no other value. -/
structure AllDragged (d : Int) (p : Project) (c : ModelChanges) : Prop where
  notes : (c.notes.map (·.1)).Perm (p.notes.map (·.2))
  bars : (c.bars.map (·.1)).Perm (p.bars.map (·.2))
  tempos : (c.tempos.map (·.1)).Perm (p.tempos.map (·.2))
  dumpers : (c.dumpers.map (·.1)).Perm (p.dumpers.map (·.2))
  softs : (c.softs.map (·.1)).Perm (p.softs.map (·.2))
  notesTo : ∀ e ∈ c.notes, e.1.drag d 0 = .ok e.2
  barsTo : ∀ e ∈ c.bars, e.2 = e.1.drag d
  temposTo : ∀ e ∈ c.tempos, e.1.drag d 0 = .ok e.2
  dumpersTo : ∀ e ∈ c.dumpers, e.2 = e.1.drag d
  softsTo : ∀ e ∈ c.softs, e.2 = e.1.drag d

/-- The tick and the one `d` later are 32-bit numbers. -/
def Fits (d : Int) (t : Int) : Prop := 0 ≤ t ∧ t ≤ U32_MAX ∧ 0 ≤ t + d ∧ t + d ≤ U32_MAX

/-- There is room for the move: no tick leaves the 32-bit range, for a note neither the
written one nor the one that is played. -/
structure HasRoom (d : Int) (p : Project) : Prop where
  notes : ∀ q ∈ p.notes, Fits d q.2.baseStartTick ∧ Fits d (q.2.baseStartTick + q.2.startTickTrimmer.sum)
  bars : ∀ q ∈ p.bars, Fits d q.1
  tempos : ∀ q ∈ p.tempos, Fits d q.1
  dumpers : ∀ q ∈ p.dumpers, Fits d q.1
  softs : ∀ q ∈ p.softs, Fits d q.1

/-- Pitches and tempos as the public constructors build them. -/
structure ValidValues (p : Project) : Prop where
  pitches : ∀ q ∈ p.notes, ValidPitch q.2.pitch
  tempos : ∀ q ∈ p.tempos, 1 ≤ q.2.value.value ∧ q.2.value.value ≤ 999

/-- Where a tick of the score is when all bar lines are `d` later: beginning and end stay. -/
def shiftLine (d : Int) (t : Nat) : Nat := if t = 0 then 0 else if t = U32_MAX then U32_MAX else shift d t

end Spec
end Klavier
