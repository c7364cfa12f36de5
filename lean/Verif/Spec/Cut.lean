import Verif.Model.Project
import Verif.Spec.Clipboard

/-! # Cutting, pasting and dragging -/
set_option autoImplicit false
namespace Klavier
namespace Spec

/-- The change an editor makes when the things of a selection are dragged by `d`, the notes
to no other pitch and the tempos to no other value. -/
structure DraggedBy (d : Int) (m : Models) (c : ModelChanges) : Prop where
  notes : c.notes.map (·.1) = m.notes
  bars : c.bars.map (·.1) = m.bars
  tempos : c.tempos.map (·.1) = m.tempos
  dumpers : c.dumpers.map (·.1) = m.dumpers
  softs : c.softs.map (·.1) = m.softs
  notesTo : ∀ e ∈ c.notes, e.1.drag d 0 = .ok e.2
  barsTo : ∀ e ∈ c.bars, e.2 = e.1.drag d
  temposTo : ∀ e ∈ c.tempos, e.1.drag d 0 = .ok e.2
  dumpersTo : ∀ e ∈ c.dumpers, e.2 = e.1.drag d
  softsTo : ∀ e ∈ c.softs, e.2 = e.1.drag d

/-- What an edit makes of the project, a panic included; the command it records is left out. -/
def resulting (r : R (Option (Project × ProjectCmd))) : R (Option Project) := r.map (fun o => o.map (·.1))

end Spec
end Klavier
