import Verif.Spec.Score

/-! # What the errors of rendering say about the score -/
set_option autoImplicit false
namespace Klavier
namespace Spec

/-- The bar lines end inside a repeat opened by the Start mark at tick `s`. -/
def Open (bars : List Bar) (s : Nat) : Prop :=
  ∃ l y r, bars = l ++ y :: r ∧ y.startTick = s ∧ Has y .Start ∧ ∀ z ∈ r, Quiet .opened z

/-- After the bar lines `l`, ending 1 begins at `v`: in the first passage of the
score, or in one opened by a Start. -/
def BeginsEndings (l : List Bar) (v : Bar) : Prop :=
  ((∀ z ∈ l, Quiet .first z) ∧ OpensEndings .first v) ∨ ((∃ s, Open l s) ∧ OpensEndings .opened v)

/-- The bar lines end inside endings beginning at the ticks `ts`. -/
def InEndings (bars : List Bar) (ts : List Nat) : Prop :=
  ∃ l v r, bars = l ++ v :: r ∧ BeginsEndings l v ∧ Endings 1 (v :: r) ts

/-- The bar lines end in a plain passage that follows a repeat or endings closed at
tick `s`. -/
def Closed (bars : List Bar) (s : Nat) : Prop :=
  ∃ l y r, bars = l ++ y :: r ∧ y.startTick = s ∧ ¬ Has y .Start ∧
    (Has y .End ∨ (endingNo y = none ∧ ∃ ts, InEndings l ts)) ∧ ∀ z ∈ r, Quiet .plain z

/-- The ticks of the jumps, in order (twice if a bar line has both D.C. and D.S.). -/
def jumpTicks (bars : List Bar) : List Nat :=
  bars.flatMap (fun x => (if Has x .Dc then [x.startTick] else []) ++ (if Has x .Ds then [x.startTick] else []))

/-- The score has the fault that the error reports, at the bar line it reports. -/
def Describes (bars : List Bar) : RenderRegionError → Prop
  | .duplicatedRepeatStart t => ∃ pre x rest s, bars = pre ++ x :: rest ∧ x.startTick = t ∧ Has x .Start ∧ ¬ Has x .End ∧
      Open pre s
  | .orphanRepeatEnd t => ∃ pre x rest s, bars = pre ++ x :: rest ∧ x.startTick = t ∧ Has x .End ∧ Closed pre s
  | .noRepeatEnd s => Open bars s
  | .variationNotClosed t => ∃ ts, InEndings bars ts ∧ ts.getLast? = some t
  | .repeatInVariation t => ∃ pre x rest ts, bars = pre ++ x :: rest ∧ x.startTick = t ∧ Has x .End ∧ InEndings pre ts
  | .dcDsWhileRepeat t => ∃ pre x rest s, bars = pre ++ x :: rest ∧ x.startTick = t ∧ (Has x .Dc ∨ Has x .Ds) ∧ ¬ Has x .Start ∧
      ¬ Has x .End ∧ Open pre s
  | .dcDsWhileVariation t => ∃ pre x rest ts, bars = pre ++ x :: rest ∧ x.startTick = t ∧ (Has x .Dc ∨ Has x .Ds) ∧
      ¬ Has x .End ∧ endingNo x ≠ none ∧ InEndings pre ts
  | .invalidRegionIndex t actual expected => ∃ pre x rest, bars = pre ++ x :: rest ∧ x.startTick = t ∧
      endingNo x = some actual.value ∧ actual ≠ expected ∧ ¬ Has x .End ∧
      ((expected = .VI1 ∧ ¬ Has x .Start ∧
          ((∀ z ∈ pre, Quiet .first z) ∨ (¬ Has x .Dc ∧ ¬ Has x .Ds ∧ ∃ s, Open pre s))) ∨
        (¬ Has x .Dc ∧ ¬ Has x .Ds ∧ ∃ ts, InEndings pre ts ∧ expected.value = ts.length + 1 ∧ actual.value ≠ ts.length))
  | .segnoWhileVariation t => ∃ pre x rest ts s first last, bars = pre ++ x :: rest ∧ x.startTick = t ∧ endingNo x = none ∧
      ¬ Has x .End ∧ InEndings pre ts ∧ s ∈ marks bars .Segno ∧ ts.head? = some first ∧ ts.getLast? = some last ∧ first ≤ s ∧ s < last
  | .duplicatedSegno a b => (marks bars .Segno).take 2 = [a, b]
  | .duplicatedFine a b => (marks bars .Fine).take 2 = [a, b]
  | .duplicatedDsDc a b => (jumpTicks bars).take 2 = [a, b]
  | .moreThanTwoCodas a b c => (marks bars .Coda).take 3 = [a, b, c]
  | .noSegnoForDs d => marks bars .Ds = [d] ∧ marks bars .Segno = []
  | .onlyOneCoda t => marks bars .Coda = [t] ∧ marks bars .Ds ≠ []
  | .codaAfterFine f t e => marks bars .Coda = [f, t] ∧ marks bars .Fine = [e] ∧ e < t ∧ jumpTicks bars ≠ []
  | _ => False

/-- The jump, if any, and its Codas fit (see `CodasOk`). A D.S. needs a Segno and
no or two Codas; with a D.C. and no Segno, twice the first bar must fit 32 bits. -/
def JumpOk (ip : Bool) (tune : Rhythm) (bars : List Bar) : Prop :=
  (∀ d, marks bars .Ds = [d] → ∃ s, marks bars .Segno = [s] ∧ (marks bars .Coda).length ≠ 1 ∧ CodasOk ip s bars) ∧
  (∀ d first, marks bars .Dc = [d] → firstBarEnd bars = some first →
    (marks bars .Segno = [] → (if d = 0 then 0 else first) + first ≤ U32_MAX) ∧
      CodasOk ip (dcTarget tune bars first d) bars)

/-- An ending number below 4 after four endings. -/
def FifthEnding (bars : List Bar) : Prop :=
  ∃ pre x rest ts, bars = pre ++ x :: rest ∧ InEndings pre ts ∧ ts.length = 4 ∧ endingNo x ≠ none ∧
    endingNo x ≠ some 4 ∧ ¬ Has x .End ∧ ¬ Has x .Dc ∧ ¬ Has x .Ds

/-- A first bar of 2^31 ticks or more, with a D.C. and no Segno. -/
def LongFirstBar (bars : List Bar) : Prop :=
  ∃ d first, marks bars .Dc = [d] ∧ 0 < d ∧ marks bars .Segno = [] ∧ firstBarEnd bars = some first ∧ U32_MAX < 2 * first

/-- A jump and two Codas, the first at tick 0 or (if `ip`) not after the target, or
(if `ip`) the second at the end. -/
def CodasMisplaced (ip : Bool) (tune : Rhythm) (bars : List Bar) : Prop :=
  ∃ leave resume target, marks bars .Coda = [leave, resume] ∧
    ((∃ d, marks bars .Ds = [d] ∧ marks bars .Segno = [target]) ∨
     (∃ d first, marks bars .Dc = [d] ∧ firstBarEnd bars = some first ∧ target = dcTarget tune bars first d)) ∧
    (leave = 0 ∨ (ip = true ∧ (leave ≤ target ∨ resume = endTick bars)))

/-- The arrangements on which rendering panics. -/
def PanicProne (ip : Bool) (tune : Rhythm) (bars : List Bar) : Prop :=
  FifthEnding bars ∨ LongFirstBar bars ∨ CodasMisplaced ip tune bars

/-! ## Several faults at once -/

/-- What can keep a score from being rendered: a fault that is reported, or an
arrangement on which rendering panics. -/
inductive Trouble where
  | err (e : RenderRegionError)
  | fifthEnding
  | longFirstBar
  | codasMisplaced
  deriving DecidableEq, Repr

namespace Trouble

/-- The score has the trouble. -/
def In (ip : Bool) (tune : Rhythm) (bars : List Bar) : Trouble → Prop
  | .err e => Describes bars e
  | .fifthEnding => FifthEnding bars
  | .longFirstBar => LongFirstBar bars
  | .codasMisplaced => CodasMisplaced ip tune bars

/-- Which of the troubles that come to light at the same time counts: first the
marks given too often (jumps, Fine, Segno, Coda), then the repeats and endings, and
at the end of the score unclosed repeats and endings, the target of the jump, the
Codas. -/
def rank : Trouble → Nat
  | .err (.duplicatedDsDc _ _) => 0
  | .err (.duplicatedFine _ _) => 1
  | .err (.duplicatedSegno _ _) => 2
  | .err (.moreThanTwoCodas _ _ _) => 3
  | .err (.noRepeatEnd _) => 5
  | .err (.variationNotClosed _) => 5
  | .err (.noSegnoForDs _) => 6
  | .longFirstBar => 6
  | .err (.onlyOneCoda _) => 7
  | .err (.codaAfterFine _ _ _) => 7
  | .codasMisplaced => 8
  | .err _ => 4
  | .fifthEnding => 4

/-- The trouble has come to light when `n` bar lines have been read. (Whether a
repeat is left open, and whether the jump fits, is known at the end only.) -/
def SeenAfter (ip : Bool) (tune : Rhythm) (bars : List Bar) (n : Nat) (t : Trouble) : Prop :=
  n ≤ bars.length ∧ t.In ip tune (bars.take n) ∧ (5 ≤ t.rank → n = bars.length)

/-- Reading bar line by bar line, no other trouble comes to light before `t`. -/
def IsFirst (ip : Bool) (tune : Rhythm) (bars : List Bar) (t : Trouble) : Prop :=
  ∃ n, t.SeenAfter ip tune bars n ∧
    ∀ n' (t' : Trouble), t'.SeenAfter ip tune bars n' → n < n' ∨ (n = n' ∧ t.rank ≤ t'.rank)

end Trouble

end Spec
end Klavier
