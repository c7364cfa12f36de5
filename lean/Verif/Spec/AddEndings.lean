import Verif.Spec.Adding

/-! # Adding numbered endings to a score -/
set_option autoImplicit false
namespace Klavier
namespace Spec

/-- The score with a Start put on the bar line at `s`, and every bar line from `v` to before `e`
given the number of its ending: 1 from `v` on, and one more from each of the ticks `ts` on. -/
def withEndings (s v : Nat) (ts : List Nat) (e : Nat) (bars : List Bar) : List Bar :=
  bars.map (fun x =>
    if x.startTick = s then { x with repeats := x.repeats.set .Start true }
    else if v ≤ x.startTick ∧ x.startTick < e then
      { x with repeats := x.repeats.set (endingMark ((v :: ts).countP (fun t => decide (t ≤ x.startTick)))) true }
    else x)

end Spec
end Klavier
