import Verif.Spec.Project
import Verif.Spec.Queries
import Verif.Spec.Tuple
import Verif.Model.Session

/-! # Projects and edits of an ordinary size -/
set_option autoImplicit false
namespace Klavier
namespace Spec

/-- A time signature the constructor of time signatures accepts. -/
def OrdinaryRhythm (r : Rhythm) : Prop := ∃ n d, Rhythm.valueOf n d = .ok r

/-- A note as the public constructors build it, starting at least five million ticks
before the end of 32 bits (4290000000 ticks are more than three months at 120 quarter
notes a minute). -/
structure OrdinaryNote (n : Note) : Prop where
  length : ValidLength n
  start : n.baseStartTick ≤ 4290000000
  trim : ValidTrimmer n.startTickTrimmer

/-- Items such a project is made of.  Bars may be anywhere. -/
structure OrdinaryItems (m : Models) : Prop where
  notes : ∀ n ∈ m.notes, OrdinaryNote n
  bars : ∀ b ∈ m.bars, b.startTick ≤ U32_MAX ∧ ∀ r, b.rhythm = some r → OrdinaryRhythm r
  tempos : ∀ t ∈ m.tempos, t.startTick ≤ 4290000000
  dumpers : ∀ c ∈ m.dumpers, c.startTick ≤ 4290000000
  softs : ∀ c ∈ m.softs, c.startTick ≤ 4290000000

/-- Everything in a project. -/
def contents (p : Project) : Models :=
  ⟨p.notes.map (·.2), p.bars.map (·.2), p.tempos.map (·.2), p.dumpers.map (·.2), p.softs.map (·.2)⟩

/-- A project in order, of ordinary items. -/
structure Ordinary (p : Project) : Prop where
  wf : WF p
  rhythm : OrdinaryRhythm p.rhythm
  items : OrdinaryItems (contents p)

/-- A selection of which a tuplet can be made: at most a thousand notes, not at the end of
the range, and if the tuplet has several members, their number does not leave 0 or 1 when
divided by 256. -/
structure OrdinaryTuplet (ns : List Note) : Prop where
  length : ns.length ≤ 1000
  start : ∀ n ∈ ns, n.baseStartTick ≤ 4287000000
  members : ∃ ts g, Starts ns ts ∧ CommonUnit ns g ∧
    ((ts.map (chordUnits ns)).sum / g < 2 ∨ 2 ≤ (ts.map (chordUnits ns)).sum / g % 256)

/-- An edit of ordinary items. -/
structure OrdinaryEdit (e : Edit) : Prop where
  introduced : OrdinaryItems (introduced e)
  withdrawn : OrdinaryItems (withdrawn e)
  rhythm : ∀ r, e = .setRhythm r → OrdinaryRhythm r
  tuplet : ∀ ns, e = .tuplize ns → OrdinaryTuplet ns

end Spec
end Klavier
