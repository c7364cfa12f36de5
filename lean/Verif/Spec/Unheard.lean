import Verif.Model.Bar

/-! # What of a score is not heard -/
set_option autoImplicit false
namespace Klavier
namespace Spec

/-- The bar line carries the number of an ending. -/
def Numbered (x : Bar) : Prop :=
  x.repeats.var1 = true ∨ x.repeats.var2 = true ∨ x.repeats.var3 = true ∨ x.repeats.var4 = true

instance (x : Bar) : Decidable (Numbered x) := by unfold Numbered; infer_instance

/-- Some bar line of the score carries the mark. -/
def Carries (bars : List Bar) (m : Repeat) : Prop := ∃ x ∈ bars, x.repeats.contains m = true

/-- The same bar lines with the same marks; keys and time signatures may differ,
except the time signature of a bar line at tick 0. -/
inductive SameMarks : List Bar → List Bar → Prop
  | nil : SameMarks [] []
  | cons (x y : Bar) (xs ys : List Bar) (tick : x.startTick = y.startTick) (marks : x.repeats = y.repeats)
      (opening : x.startTick = 0 → x.rhythm = y.rhythm) (rest : SameMarks xs ys) : SameMarks (x :: xs) (y :: ys)

end Spec
end Klavier
