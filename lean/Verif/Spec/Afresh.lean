import Verif.Spec.Score

/-! # Cutting a score at a Start -/
set_option autoImplicit false
namespace Klavier
namespace Spec

/-- No bar line has a mark that has to do with a jump. -/
def JumpFree (bars : List Bar) : Prop :=
  ∀ x ∈ bars, ¬ Has x .Dc ∧ ¬ Has x .Ds ∧ ¬ Has x .Fine ∧ ¬ Has x .Segno ∧ ¬ Has x .Coda

/-- `y` is at the place of `x` and has its marks but the Start. -/
def LosesStart (x y : Bar) : Prop := y.startTick = x.startTick ∧ ∀ m, Has y m ↔ Has x m ∧ m ≠ .Start

/-- `y` is at the place of `x` and has a Start and nothing else. -/
def StartAlone (x y : Bar) : Prop := y.startTick = x.startTick ∧ ∀ m, Has y m ↔ m = .Start

end Spec
end Klavier
