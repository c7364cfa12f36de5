import Verif.Model.Note

/-! # Changing notes otherwise than a tuplet does -/
set_option autoImplicit false
namespace Klavier
namespace Spec

/-- A change of notes that moves each by `k` ticks, keeps the lengths, and changes the rest
without regard to start and length (say, the pitch or the velocity). -/
def Rigidly (k : Nat) (f : Note → Note) : Prop :=
  ∀ (n : Note) (t : Nat) (d : Duration),
    f { n with baseStartTick := t, duration := d } = { f n with baseStartTick := t + k, duration := d }

/-- No two of the notes start together. -/
def NoChord (notes : List Note) : Prop := notes.Pairwise (fun a b => a.baseStartTick ≠ b.baseStartTick)

end Spec
end Klavier
