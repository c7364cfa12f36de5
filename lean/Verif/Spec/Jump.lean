import Verif.Spec.RenderError

/-! # The jump of a score -/
set_option autoImplicit false
namespace Klavier
namespace Spec

/-- The score has a jump from `d` back to `target`: a D.S. to the Segno, or a D.C.
(A D.C. needs a first bar: with no bar line after tick 0 there is no jump.) -/
def Jump (tune : Rhythm) (bars : List Bar) (d target : Nat) : Prop :=
  (marks bars .Ds = [d] ∧ marks bars .Segno = [target]) ∨
    ∃ first, marks bars .Dc = [d] ∧ firstBarEnd bars = some first ∧ target = dcTarget tune bars first d

/-- What rendering warns of: nothing unless there is a D.C. with a first bar. -/
def jumpWarnings (bars : List Bar) : List RenderRegionWarning :=
  match marks bars .Dc, firstBarEnd bars with
  | [d], some _ => dcWarnings bars d
  | _, _ => []

/-- The bar line without Fine, Segno and Coda. -/
def withoutIdle (x : Bar) : Bar :=
  { x with repeats := ((x.repeats.set .Fine false).set .Segno false).set .Coda false }

end Spec
end Klavier
