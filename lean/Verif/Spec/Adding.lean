import Verif.Spec.Jump

/-! # Adding a mark to a score -/
set_option autoImplicit false
namespace Klavier
namespace Spec

/-- The score with the mark `m` put on the bar line at tick `t`. -/
def marked (m : Repeat) (t : Nat) (bars : List Bar) : List Bar :=
  bars.map (fun x => if x.startTick = t then { x with repeats := x.repeats.set m true } else x)

/-- There is a bar line at `t`. -/
def LineAt (bars : List Bar) (t : Nat) : Prop := ∃ x ∈ bars, x.startTick = t

end Spec
end Klavier
