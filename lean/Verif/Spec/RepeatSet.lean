import Verif.Model.Bar

/-! # Which repeat marks refuse which, and the sets one can build -/
set_option autoImplicit false
namespace Klavier
namespace Spec

/-- A numbered ending. -/
def isEnding : Repeat → Bool
  | .Var1 | .Var2 | .Var3 | .Var4 => true
  | _ => false

/-- `refuses new old`: a bar already carrying `old` does not accept `new`. -/
def refuses (new old : Repeat) : Bool :=
  match new with
  | .Start => old = .Dc || old = .Ds || isEnding old
  | .End => isEnding old
  | .Dc => old = .Start || old = .Ds || old = .Segno || isEnding old
  | .Ds => old = .Start || isEnding old
  | .Fine | .Segno | .Coda => false
  | .Var1 | .Var2 | .Var3 | .Var4 =>
    old = .Start || old = .End || old = .Dc || old = .Ds || old = .Segno ||
      (isEnding old && old != new)

/-- The sets obtainable through the public interface. -/
inductive Built : RepeatSet → Prop where
  | empty : Built RepeatSet.EMPTY
  | add {s s' r} : Built s → s.tryAdd r = .ok s' → Built s'
  | remove {s r} : Built s → Built (s.remove r)
  | removeRegions {s} : Built s → Built s.removeRegions

/-- Add marks one after the other, first mark first, stopping at a refusal. -/
def addAll : RepeatSet → List Repeat → Except RepeatSet RepeatSet
  | s, [] => .ok s
  | s, r :: rs =>
    match s.tryAdd r with
    | .ok s' => addAll s' rs
    | .error d => .error d

end Spec
end Klavier
