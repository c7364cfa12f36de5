import Verif.Spec.Repeat

/-! # Scores as sequences of passages

A grammar for bar lists: which marks delimit which passages, and what each
passage means.  Nothing here refers to how rendering works. -/
set_option autoImplicit false
namespace Klavier
namespace Spec

/-- The bar line carries the mark. -/
def Has (x : Bar) (m : Repeat) : Prop := x.repeats.contains m = true

instance (x : Bar) (m : Repeat) : Decidable (Has x m) := inferInstanceAs (Decidable (_ = true))

/-- The ending number (1 to 4) the bar line carries; the lowest, should it carry
several. -/
def endingNo (x : Bar) : Option Nat :=
  if Has x .Var1 then some 1
  else if Has x .Var2 then some 2
  else if Has x .Var3 then some 3
  else if Has x .Var4 then some 4
  else none

/-- A passage: played once, played twice, or with numbered endings: the common
part from `a`, then the endings beginning at the given ticks, the last one up to
`b`. -/
inductive Passage where
  | plain (a b : Nat)
  | repeated (a b : Nat)
  | endings (a : Nat) (starts : List Nat) (b : Nat)
  deriving DecidableEq, Repr

/-- How the present passage began: it is the first of the score (so a repeat may
begin here without a mark), it follows a closed repeat, or it was opened by a
Start mark. -/
inductive Mode where
  | first
  | plain
  | opened
  deriving DecidableEq, Repr

/-- A bar line inside a passage (not inside an ending). -/
def Quiet : Mode → Bar → Prop
  | .first, x => ¬ Has x .Start ∧ ¬ Has x .End ∧ endingNo x = none
  | .plain, x => ¬ Has x .Start ∧ ¬ Has x .End
  | .opened, x => ¬ Has x .Start ∧ ¬ Has x .End ∧ ¬ Has x .Dc ∧ ¬ Has x .Ds ∧ endingNo x = none

instance (m : Mode) (x : Bar) : Decidable (Quiet m x) := by
  cases m <;> unfold Quiet <;> infer_instance

/-- The bar line at which ending 1 begins. -/
def OpensEndings : Mode → Bar → Prop
  | .opened, x => ¬ Has x .Start ∧ ¬ Has x .End ∧ ¬ Has x .Dc ∧ ¬ Has x .Ds ∧ endingNo x = some 1
  | _, x => ¬ Has x .Start ∧ ¬ Has x .End ∧ endingNo x = some 1

/-- A further bar line at or inside ending `k`. -/
def InEnding (k : Nat) (x : Bar) : Prop :=
  ¬ Has x .End ∧ ¬ Has x .Dc ∧ ¬ Has x .Ds ∧ endingNo x = some k

/-- The bar lines of ending `k` and the following ones. Each ending has at least
one. -/
inductive Endings : Nat → List Bar → List Nat → Prop where
  | last {k : Nat} {x : Bar} {xs : List Bar} : (∀ y ∈ xs, InEnding k y) → Endings k (x :: xs) [x.startTick]
  | more {k : Nat} {x y : Bar} {xs ys : List Bar} {ts : List Nat} : (∀ y ∈ xs, InEnding k y) → InEnding (k + 1) y →
      Endings (k + 1) (y :: ys) ts → Endings k (x :: (xs ++ y :: ys)) (x.startTick :: ts)

/-- The Segno is not inside an ending that is left out on the second pass. -/
def SegnoOk (segno : Option Nat) (starts : List Nat) : Prop :=
  ∀ s first last, segno = some s → starts.head? = some first → starts.getLast? = some last → ¬ (first ≤ s ∧ s < last)

/-- How the passage after the bar line `x`, which closes a repeat, begins. -/
def after (x : Bar) : Mode := if Has x .Start then .opened else .plain

/-- `Reads segno m a bars ps`: with the present passage begun at tick `a` in mode
`m`, the bar lines still to come are notation for the passages `ps`.  The last
passage is plain and runs to the end of time (`u32::MAX`). -/
inductive Reads (segno : Option Nat) : Mode → Nat → List Bar → List Passage → Prop where
  /-- the rest is a plain passage -/
  | last {m : Mode} {a : Nat} {bars : List Bar} : m ≠ .opened → (∀ x ∈ bars, Quiet m x) →
      Reads segno m a bars [.plain a U32_MAX]
  /-- a plain passage up to a Start -/
  | start {m : Mode} {a : Nat} {inside rest : List Bar} {x : Bar} {ps : List Passage} : m ≠ .opened →
      (∀ x ∈ inside, Quiet m x) → Has x .Start → ¬ Has x .End →
      Reads segno .opened x.startTick rest ps →
      Reads segno m a (inside ++ x :: rest) (.plain a x.startTick :: ps)
  /-- a repeated passage up to an End -/
  | close {m : Mode} {a : Nat} {inside rest : List Bar} {x : Bar} {ps : List Passage} : m ≠ .plain →
      (∀ x ∈ inside, Quiet m x) → Has x .End →
      Reads segno (after x) x.startTick rest ps →
      Reads segno m a (inside ++ x :: rest) (.repeated a x.startTick :: ps)
  /-- a passage with endings, up to the first bar line without an ending number -/
  | endings {m : Mode} {a : Nat} {inside es rest : List Bar} {v x : Bar} {ts : List Nat} {ps : List Passage} :
      m ≠ .plain → (∀ x ∈ inside, Quiet m x) → OpensEndings m v → Endings 1 (v :: es) ts → SegnoOk segno ts →
      ¬ Has x .End → endingNo x = none →
      Reads segno (after x) x.startTick rest ps →
      Reads segno m a (inside ++ v :: (es ++ x :: rest)) (.endings a ts x.startTick :: ps)

/-- The parts of the endings beginning at `v`, then at the given ticks, up to `b`. -/
def endingParts (v : Nat) (ts : List Nat) (b : Nat) : List (List Nat) :=
  match ts with
  | [] => [span v b]
  | w :: ts => span v w :: endingParts w ts b

namespace Passage

def start : Passage → Nat
  | .plain a _ => a
  | .repeated a _ => a
  | .endings a _ _ => a

def stop : Passage → Nat
  | .plain _ b => b
  | .repeated _ b => b
  | .endings _ _ b => b

/-- What is played with all repeats. -/
def full : Passage → List Nat
  | .plain a b => span a b
  | .repeated a b => span a b ++ span a b
  | .endings a (v :: ts) b => (endingParts v ts b).flatMap (fun e => span a v ++ e)
  | .endings _ [] _ => []

/-- What is played on the second pass: a repeat once, of the endings the last. -/
def once : Passage → List Nat
  | .plain a b => span a b
  | .repeated a b => span a b
  | .endings a (v :: ts) b => span a v ++ span ((v :: ts).getLastD v) b
  | .endings _ [] _ => []

/-- What is played before a jump at tick `d`: everything with its repeats, up to
`d`. -/
def upTo (d : Nat) (p : Passage) : List Nat := if p.stop ≤ d then p.full else span p.start d

/-- The tick `d` is not in the midst of a repeat or of endings. -/
def Outside (d : Nat) : Passage → Prop
  | .plain _ _ => True
  | p => d ≤ p.start ∨ p.stop ≤ d

end Passage

/-- The ticks of the bar lines carrying a mark, in order. -/
def marks (bars : List Bar) (m : Repeat) : List Nat := (bars.filter (fun x => x.repeats.contains m)).map (·.startTick)

/-- Bars as a bar store holds them: one per tick, in order, below `u32::MAX`. -/
def BarsOk (bars : List Bar) : Prop :=
  bars.Pairwise (fun x y => x.startTick < y.startTick) ∧ ∀ x ∈ bars, x.startTick < U32_MAX

/-- At most one D.C. or D.S., at most one Fine and Segno, at most two Codas. -/
def MarksOk (bars : List Bar) : Prop :=
  (marks bars .Dc).length + (marks bars .Ds).length ≤ 1 ∧ (marks bars .Fine).length ≤ 1 ∧
    (marks bars .Segno).length ≤ 1 ∧ (marks bars .Coda).length ≤ 2

/-- The tick at which the first bar ends: the first bar line after tick 0. -/
def firstBarEnd (bars : List Bar) : Option Nat := (bars.map (·.startTick)).find? (fun t => decide (0 < t))

/-- The time signature at tick 0: that of a bar line there, else that of the tune. -/
def openingRhythm (tune : Rhythm) (bars : List Bar) : Rhythm :=
  ((bars.find? (fun x => decide (x.startTick = 0))).bind (·.rhythm)).getD tune

/-- The bar lines at tick 0 neither open nor close anything. -/
def QuietStart (bars : List Bar) : Prop :=
  ∀ x ∈ bars, x.startTick = 0 → ¬ Has x .Start ∧ ¬ Has x .End ∧ endingNo x = none

/-- The tick up to which the second pass runs: Fine, or the end of the score. -/
def endTick (bars : List Bar) : Nat := (marks bars .Fine).headD U32_MAX

/-- The tick is within the second pass, which runs from the target of the jump to
the end, leaving out what is between the first and the second Coda. -/
def inSecondPass (target : Nat) (bars : List Bar) (t : Nat) : Prop :=
  match marks bars .Coda with
  | [leave, resume] => (target ≤ t ∧ t < leave) ∨ (resume ≤ t ∧ t < endTick bars)
  | _ => target ≤ t ∧ t < endTick bars

instance (target : Nat) (bars : List Bar) (t : Nat) : Decidable (inSecondPass target bars t) := by
  unfold inSecondPass
  split <;> infer_instance

/-- The Codas fit the second pass: the first is not at tick 0, the second not
after the end.  (With `ip` also: the first is after the target, the second before
the end.) -/
def CodasOk (ip : Bool) (target : Nat) (bars : List Bar) : Prop :=
  match marks bars .Coda with
  | [leave, resume] => 0 < leave ∧ resume ≤ endTick bars ∧ (ip = true → target < leave ∧ resume < endTick bars)
  | _ => True

instance (ip : Bool) (target : Nat) (bars : List Bar) : Decidable (CodasOk ip target bars) := by
  unfold CodasOk
  split <;> infer_instance

/-- A D.C. warns of a Segno, and of a lone Coda. -/
def dcWarnings (bars : List Bar) (d : Nat) : List RenderRegionWarning :=
  (marks bars .Segno).map (fun s => .segnoAndDcFound s d) ++
    match marks bars .Coda with
    | [o] => [.orphanCodaFound o]
    | _ => []

/-- Where a D.C. at tick `d` goes back to when there is no Segno, `first` being the
length of the first bar and `full` that of a full one (see C33). -/
def dcReturn (full first d : Nat) : Nat := if first = full ∨ (0 < d ∧ 2 * first = full) then 0 else first

/-- The target of a D.C.: the Segno if there is one. -/
def dcTarget (tune : Rhythm) (bars : List Bar) (first d : Nat) : Nat :=
  (marks bars .Segno).headD (dcReturn (openingRhythm tune bars).tickLen first d)

/-- The length of the bar that ends at tick `d`. -/
def barBefore (bars : List Bar) (d : Nat) : Nat :=
  d - ((bars.map (·.startTick)).filter (fun t => decide (t < d))).getLastD 0

/-- Where a D.C. should go back to according to docs/repeat/order.md: to the top,
unless the first bar is an upbeat and the D.C. bar is a full one; then to the
second bar. -/
def documentedReturn (full first dcBar : Nat) : Nat := if first < full ∧ dcBar = full then first else 0

/-! ## Writing a piece down -/

namespace Passage

def IsPlain : Passage → Prop
  | .plain _ _ => True
  | _ => False

def IsRepeated : Passage → Prop
  | .repeated _ _ => True
  | _ => False

instance (p : Passage) : Decidable p.IsPlain := by unfold IsPlain; split <;> infer_instance
instance (p : Passage) : Decidable p.IsRepeated := by unfold IsRepeated; split <;> infer_instance

/-- Every part has positive length, and there are one to four endings. -/
def Proper : Passage → Prop
  | .plain a b => a < b
  | .repeated a b => a < b
  | .endings a ts b => ts ≠ [] ∧ ts.length ≤ 4 ∧ (∀ t ∈ ts, a < t ∧ t < b) ∧ ts.Pairwise (· < ·)

end Passage

/-- `Piece a ps`: the passages follow each other from `a` on, the last one is
plain and runs to the end, and no two plain ones are neighbours (they would be
one). -/
def Piece : Nat → List Passage → Prop
  | _, [] => False
  | a, [p] => p = .plain a U32_MAX
  | a, p :: q :: ps => p.start = a ∧ p.Proper ∧ p.stop < U32_MAX ∧ ¬ (p.IsPlain ∧ q.IsPlain) ∧ Piece p.stop (q :: ps)

/-- The mark of ending `k`. -/
def endingMark : Nat → Repeat
  | 1 => .Var1
  | 2 => .Var2
  | 3 => .Var3
  | _ => .Var4

/-- One bar line at the beginning of each ending. -/
def endingBars (k : Nat) : List Nat → List Bar
  | [] => []
  | t :: ts => { startTick := t, repeats := RepeatSet.EMPTY.set (endingMark k) true } :: endingBars (k + 1) ts

/-- The bar lines within a passage. -/
def innerBars : Passage → List Bar
  | .endings _ ts _ => endingBars 1 ts
  | _ => []

/-- The bar line between two passages: End if the first is a repeated one, Start
unless the second is plain. -/
def boundary (p q : Passage) : Bar where
  startTick := p.stop
  repeats := (RepeatSet.EMPTY.set .End (decide p.IsRepeated)).set .Start (!decide q.IsPlain)

/-- The piece written down with the fewest bar lines. -/
def notate : List Passage → List Bar
  | [] => []
  | [p] => innerBars p
  | p :: q :: ps => innerBars p ++ boundary p q :: notate (q :: ps)

/-- One mark, and two. -/
def mark1 (a : Repeat) : RepeatSet := RepeatSet.EMPTY.set a true
def mark2 (a b : Repeat) : RepeatSet := (mark1 a).set b true

/-- Rendering the score gives these warnings and plays these ticks in this order. -/
def Plays (ip : Bool) (tune : Rhythm) (bars : List Bar) (warnings : List RenderRegionWarning) (order : List Nat) : Prop :=
  ∃ c cs, renderRegion ip tune bars = .ok (c, warnings) ∧ c.toChunks ip = .ok cs ∧ played cs = order

end Spec
end Klavier
