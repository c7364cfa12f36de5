import Verif.Model.Project

/-! # Vocabulary: ticks of a selection -/
set_option autoImplicit false
namespace Klavier

/-- The ticks of all items of a selection. -/
def Models.ticks (m : Models) : List Nat :=
  m.notes.map (·.baseStartTick) ++ m.bars.map (·.startTick) ++ m.tempos.map (·.startTick)
    ++ m.dumpers.map (·.startTick) ++ m.softs.map (·.startTick)

/-- `f` is the earliest tick of a non-empty list of ticks. -/
def Earliest (l : List Nat) (f : Nat) : Prop := f ∈ l ∧ ∀ t ∈ l, f ≤ t

/-- Two selections with the same items in the same order, up to the ticks of the
items (compared with all ticks set to 0). -/
structure Models.SameButTicks (a b : Models) : Prop where
  notes : a.notes.map (fun n => { n with baseStartTick := 0 }) = b.notes.map (fun n => { n with baseStartTick := 0 })
  bars : a.bars.map (fun x => { x with startTick := 0 }) = b.bars.map (fun x => { x with startTick := 0 })
  tempos : a.tempos.map (fun t => { t with startTick := 0 }) = b.tempos.map (fun t => { t with startTick := 0 })
  dumpers : a.dumpers.map (fun c => { c with startTick := 0 }) = b.dumpers.map (fun c => { c with startTick := 0 })
  softs : a.softs.map (fun c => { c with startTick := 0 }) = b.softs.map (fun c => { c with startTick := 0 })

/-- The ticks at which the notes of a selection sound: base tick plus trim. -/
def Models.sounding (m : Models) : List Int :=
  m.notes.map (fun n => (n.baseStartTick : Int) + n.startTickTrimmer.sum)

end Klavier
