import Verif.Spec.Jump

/-! # How playing moves through the score -/
set_option autoImplicit false
namespace Klavier
namespace Spec

/-- There is a bar line at `t` at which playing may go on elsewhere: one with an End, an
ending number, a Coda, a D.C. or a D.S. -/
def Leaves (bars : List Bar) (t : Nat) : Prop :=
  ∃ x ∈ bars, x.startTick = t ∧ (Has x .End ∨ endingNo x ≠ none ∨ Has x .Coda ∨ Has x .Dc ∨ Has x .Ds)

/-- Playing may go on at `t` from elsewhere: the beginning, a bar line with a Start, an
ending number, a Coda or a Segno, or, for a D.C. without a Segno, the end of the first
bar. -/
def Arrives (bars : List Bar) (t : Nat) : Prop :=
  t = 0 ∨ (∃ x ∈ bars, x.startTick = t ∧ (Has x .Start ∨ endingNo x ≠ none ∨ Has x .Coda ∨ Has x .Segno)) ∨
    (marks bars .Dc ≠ [] ∧ marks bars .Segno = [] ∧ firstBarEnd bars = some t)

/-- Playing may end at `t`: the end of the score, a bar line with a Fine, or one where
playing may leave. -/
def Stops (bars : List Bar) (t : Nat) : Prop :=
  t = U32_MAX ∨ (∃ x ∈ bars, x.startTick = t ∧ Has x .Fine) ∨ Leaves bars t

/-- The tick is in an ending other than the last one of its passage. -/
def LeftOut (ps : List Passage) (t : Nat) : Prop :=
  ∃ a ts b first last, Passage.endings a ts b ∈ ps ∧ ts.head? = some first ∧ ts.getLast? = some last ∧ first ≤ t ∧ t < last

end Spec
end Klavier
