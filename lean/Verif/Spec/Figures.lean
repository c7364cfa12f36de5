import Verif.Spec.Score

/-! # The figures of docs/repeat/examples.md -/
set_option autoImplicit false
namespace Klavier
namespace Spec

/-- A bar line at tick `t` with the marks `s`. -/
def line (t : Nat) (s : RepeatSet) : Bar := ⟨t, none, none, s⟩

/-- The bars drawn between bar lines at the given ticks: bar 0 (A) from the start to
the first line, bar 1 (B) to the second, and so on. -/
def barTicks (lines : List Nat) (i : Nat) : List Nat := span ((0 :: lines).getD i 0) (lines.getD i U32_MAX)

/-- The bars played in an order. -/
def order (lines : List Nat) (bars : List Nat) : List Nat := bars.flatMap (barTicks lines)

/-- The names of the bars in the figures. -/
abbrev A := 0
abbrev B := 1
abbrev C := 2
abbrev D := 3
abbrev E := 4
abbrev F := 5
abbrev G := 6

end Spec
end Klavier
