import Verif.Model.Values

/-! # note.rs -/
set_option autoImplicit false
namespace Klavier

/-- src/note.rs:32-43 `Note` -/
structure Note where
  baseStartTick : Nat
  pitch : Pitch
  duration : Duration
  tie : Bool
  tied : Bool
  baseVelocity : Velocity
  startTickTrimmer : Trimmer
  durationTrimmer : RateTrimmer
  velocityTrimmer : Trimmer
  channel : Channel
  deriving DecidableEq, Repr

namespace Note

/-- src/note.rs:73-76 `Note::start_tick` (`i64` sum, cast to `u32`) -/
def startTick (n : Note) : Nat :=
  let tick := (n.baseStartTick : Int) + n.startTickTrimmer.sum
  if tick < 0 then 0 else asU32 tick

/-- src/note.rs:79-81 `Note::tick_len` -/
def tickLen (n : Note) : R Nat := do
  let l ← n.duration.tickLength
  pure (n.durationTrimmer.apply l)

/-- src/note.rs:83-90 `Note::up_score_offset` -/
def upScoreOffset (n : Note) : R (Except PitchError Note) := do
  let r ← n.pitch.up
  pure (r.map (fun p => { n with pitch := p }))

/-- src/note.rs:92-99 `Note::down_score_offset` -/
def downScoreOffset (n : Note) : R (Except PitchError Note) := do
  let r ← n.pitch.down
  pure (r.map (fun p => { n with pitch := p }))

/-- src/note.rs:101-106 `Note::with_duration` -/
def withDuration (n : Note) (d : Duration) : Note := { n with duration := d }

/-- src/note.rs:108-118 `Note::with_duration_numerator` -/
def withDurationNumerator (n : Note) (num : NoteValue) : Note :=
  { n with duration := if n.duration.numerator ≠ num then n.duration.withNumerator num else n.duration }

/-- src/note.rs:120-138 `Note::with_tick_added` -/
def withTickAdded (n : Note) (delta : Int) (isTrim : Bool) : R (Except TickError Note) :=
  let tick := (n.baseStartTick : Int) + delta
  if tick < 0 then .ok (.error .minus)
  else if isTrim then do
    let t ← n.startTickTrimmer.added delta
    pure (.ok { n with startTickTrimmer := t })
  else .ok (.ok { n with baseStartTick := asU32 tick })

/-- src/note.rs:140-148 `Note::drag` -/
def drag (n : Note) (tickDelta scoreDelta : Int) : R Note := do
  let r ← n.pitch.withScoreOffsetDelta scoreDelta
  let p ← unwrapR r
  pure { n with baseStartTick := asU32 (n.baseStartTick + tickDelta), pitch := p }

/-- src/note.rs:150-162 `Note::add_dots` -/
def addDots (n : Note) (k : Int) : R (Except Int Note) := do
  let d ← chkI32 (n.duration.dots + k)
  if d < 0 ∨ 7 < d then pure (.error d)
  else do
    let dots ← unwrapO (Dots.fromValue d.toNat)
    pure (.ok { n with duration := n.duration.withDots dots })

/-- src/note.rs:164-171 -/
def toggleSharp (n : Note) : Except PitchError Note :=
  n.pitch.toggleSharp.map (fun p => { n with pitch := p })

/-- src/note.rs:173-180 -/
def toggleFlat (n : Note) : Except PitchError Note :=
  n.pitch.toggleFlat.map (fun p => { n with pitch := p })

/-- src/note.rs:182-189 -/
def toggleNatural (n : Note) : Except PitchError Note :=
  n.pitch.toggleNatural.map (fun p => { n with pitch := p })

/-- src/note.rs:191-213 `Note::toggle_tie` -/
def toggleTie (n : Note) : Note :=
  if !n.tie && !n.tied then { n with tie := true, tied := false }
  else if n.tie && !n.tied then { n with tie := false, tied := true }
  else if !n.tie && n.tied then { n with tie := true, tied := true }
  else { n with tie := false, tied := false }

/-- src/note.rs:220-226 `Note::velocity` -/
def velocity (n : Note) : Velocity :=
  let v := (n.baseVelocity.value : Int) + n.velocityTrimmer.sum
  if v < 0 then ⟨0⟩ else if 127 < v then ⟨127⟩ else Velocity.new v.toNat

/-- src/note.rs:251-253 `Note::LONGEST_TICK_LEN`: the tick length of a whole
note with seven dots, times `2.0 as u32`; the model computes the same
expression (`PercentU16::MAX.to_f32() as u32` included). -/
def longestTickLen : R Nat := do
  let l ← Duration.tickLength ⟨.Whole, 2, 7⟩
  pure (l * (Percent.MAX.toF32.asI32).toNat)

end Note
end Klavier
