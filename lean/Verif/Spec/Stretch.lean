import Verif.Spec.Score
import Verif.Spec.Unheard

/-! # The same score with bars of other lengths -/
set_option autoImplicit false
namespace Klavier
namespace Spec

/-- The tick is the beginning or the end of the score, or that of a bar line. -/
def IsTick (bars : List Bar) (t : Nat) : Prop := t = 0 ∨ t = U32_MAX ∨ ∃ x ∈ bars, x.startTick = t

/-- `φ` tells where the ticks of the score go.  Beginning and end stay, and the order is
kept. -/
structure KeepsOrder (φ : Nat → Nat) (bars : List Bar) : Prop where
  first : φ 0 = 0
  last : φ U32_MAX = U32_MAX
  order : ∀ a b, IsTick bars a → IsTick bars b → (φ a < φ b ↔ a < b)

/-- The same marks on bar lines at the ticks `φ` tells.  Keys and time signatures may
differ. -/
inductive Moved (φ : Nat → Nat) : List Bar → List Bar → Prop
  | nil : Moved φ [] []
  | cons (x y : Bar) (xs ys : List Bar) (tick : y.startTick = φ x.startTick) (marks : y.repeats = x.repeats)
      (rest : Moved φ xs ys) : Moved φ (x :: xs) (y :: ys)

/-- A D.C. without a Segno goes by the length of the first bar, compared with that of a
full one: both scores have such a first bar, or neither. -/
def FirstAlike (tune tune' : Rhythm) (bars bars' : List Bar) (φ : Nat → Nat) : Prop :=
  ∀ first, firstBarEnd bars = some first →
    let full := (openingRhythm tune bars).tickLen
    let full' := (openingRhythm tune' bars').tickLen
    (φ first = full' ↔ first = full) ∧ (2 * φ first = full' ↔ 2 * first = full) ∧ (2 * φ first ≤ U32_MAX ↔ 2 * first ≤ U32_MAX)

/-- The chunk between the same bar lines in the other score. -/
def chunkAt (φ : Nat → Nat) (c : Chunk) : Chunk := ⟨φ c.startTick, φ c.endTick⟩

/-- The same warning about the other score. -/
def warningAt (φ : Nat → Nat) : RenderRegionWarning → RenderRegionWarning
  | .segnoAndDcFound s d => .segnoAndDcFound (φ s) (φ d)
  | .orphanCodaFound c => .orphanCodaFound (φ c)

/-- The same error in the other score. -/
def errorAt (φ : Nat → Nat) : RenderRegionError → RenderRegionError
  | .duplicatedRepeatStart t => .duplicatedRepeatStart (φ t)
  | .duplicatedSegno a b => .duplicatedSegno (φ a) (φ b)
  | .duplicatedDsDc a b => .duplicatedDsDc (φ a) (φ b)
  | .duplicatedFine a b => .duplicatedFine (φ a) (φ b)
  | .orphanRepeatEnd t => .orphanRepeatEnd (φ t)
  | .fineWithoutDsDc t => .fineWithoutDsDc (φ t)
  | .segnoWithoutDs t => .segnoWithoutDs (φ t)
  | .codaWithoutDsDc a b => .codaWithoutDsDc (φ a) (φ b)
  | .noRepeatEnd t => .noRepeatEnd (φ t)
  | .invalidRegionIndex t a e => .invalidRegionIndex (φ t) a e
  | .repeatInVariation t => .repeatInVariation (φ t)
  | .variationNotClosed t => .variationNotClosed (φ t)
  | .repeatOrVariationOnDc t => .repeatOrVariationOnDc (φ t)
  | .repeatOrVariationOnDs t => .repeatOrVariationOnDs (φ t)
  | .fineNotAfterSegno a b => .fineNotAfterSegno (φ a) (φ b)
  | .noSegnoForDs t => .noSegnoForDs (φ t)
  | .moreThanTwoCodas a b c => .moreThanTwoCodas (φ a) (φ b) (φ c)
  | .onlyOneCoda t => .onlyOneCoda (φ t)
  | .dcDsWhileRepeat t => .dcDsWhileRepeat (φ t)
  | .dcDsWhileVariation t => .dcDsWhileVariation (φ t)
  | .segnoWhileVariation t => .segnoWhileVariation (φ t)
  | .codaAfterFine a b c => .codaAfterFine (φ a) (φ b) (φ c)

/-- What is played of a score, with the warnings. -/
def performance (ip : Bool) (tune : Rhythm) (bars : List Bar) : RR (List Chunk × List RenderRegionWarning) := do
  let (c, w) ← renderRegion ip tune bars
  let chunks ← liftR (c.toChunks ip)
  pure (chunks, w)

/-- The same outcome for the other score: a panic is the same panic. -/
def outcomeAt (φ : Nat → Nat) : RR (List Chunk × List RenderRegionWarning) → RR (List Chunk × List RenderRegionWarning)
  | .ok (cs, w) => .ok (cs.map (chunkAt φ), w.map (warningAt φ))
  | .error (.err e) => .error (.err (errorAt φ e))
  | .error (.panic p) => .error (.panic p)

end Spec
end Klavier
