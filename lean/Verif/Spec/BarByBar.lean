import Verif.Spec.Stretch
import Verif.Spec.Repeat

/-! # Playing bar by bar -/
set_option autoImplicit false
namespace Klavier
namespace Spec

/-- Where the bar with a number begins: number 0 at tick 0, number `i + 1` at the `i`-th
bar line.  What follows the last bar line is a bar that ends at `u32::MAX`. -/
def barLine (bars : List Bar) : Nat → Nat
  | 0 => 0
  | i + 1 => match bars[i]? with
    | some x => x.startTick
    | none => U32_MAX

/-- The ticks of bars played one after the other. -/
def barsPlayed (bars : List Bar) (order : List Nat) : List Nat :=
  order.flatMap (fun i => span (barLine bars i) (barLine bars (i + 1)))

/-- How long they are together. -/
def barsLength (bars : List Bar) (order : List Nat) : Nat :=
  (order.map (fun i => barLine bars (i + 1) - barLine bars i)).sum

end Spec
end Klavier
