import Verif.Model.Bar
import Verif.Model.Store
import Verif.Model.Interval

/-! # repeat.rs, global_repeat.rs, play_iter.rs, play_start_tick.rs -/
set_option autoImplicit false
namespace Klavier

/-! ## repeat.rs: chunks -/

/-- src/repeat.rs:12-16 `Chunk` -/
structure Chunk where
  startTick : Nat
  endTick : Nat
  deriving DecidableEq, Repr

namespace Chunk

/-- src/repeat.rs:41-48, the loop of `Chunk::optimize` -/
def optimizeFrom (cur : Chunk) : List Chunk → List Chunk
  | [] => [cur]
  | next :: z =>
    if cur.endTick = next.startTick then optimizeFrom ⟨cur.startTick, next.endTick⟩ z
    else cur :: optimizeFrom next z

/-- src/repeat.rs:33-52 `Chunk::optimize` -/
def optimize : List Chunk → List Chunk
  | [] => []
  | c :: z => optimizeFrom c z

/-- src/repeat.rs:54-56 `Chunk::contains` -/
def contains (c : Chunk) (tick : Nat) : Bool := decide (c.startTick ≤ tick ∧ tick < c.endTick)

/-- src/repeat.rs:58-60 `Chunk::len` -/
def len (c : Chunk) : R Nat := subU32 c.endTick c.startTick

/-- src/repeat.rs:66-71, the loop of `by_accum_tick` -/
def byAccumLoop (offset : Nat) (buf : Store Chunk) : List Chunk → R (Store Chunk)
  | [] => .ok buf
  | c :: cs => do
    let buf := buf.add offset c
    let offset ← if c.endTick ≠ U32_MAX then do
        let l ← c.len
        addU32 offset l
      else pure offset
    byAccumLoop offset buf cs

/-- src/repeat.rs:62-74 `Chunk::by_accum_tick` -/
def byAccumTick (chunks : List Chunk) : R (Store Chunk) := byAccumLoop 0 [] chunks

end Chunk

/-! ## play_iter.rs, play_start_tick.rs -/

/-- src/play_start_tick.rs:4-7 `PlayStartTick`; a `PlayIter` is represented by its
number (Model/Values). -/
structure PlayStartTick where
  tick : Nat
  iter : Nat
  deriving DecidableEq, Repr

/-- src/play_start_tick.rs:10-14 `ToAccumTickError::CannotFind` -/
structure CannotFind where
  specifiedIter : Nat
  maxIter : Nat
  deriving DecidableEq, Repr

namespace PlayStartTick

/-- src/play_start_tick.rs:17-21 `new` -/
def new (tick iter : Nat) : PlayStartTick := ⟨tick, PlayIter.new iter⟩

/-- src/play_start_tick.rs:24-35, the loop; `cur` is a `u8` -/
def loop (p : PlayStartTick) (cur : Nat) : List (Nat × Chunk) → R (Except CannotFind Nat)
  | [] => do
    let m ← subU32 cur 1
    pure (.error ⟨p.iter, m⟩)
  | (accum, chunk) :: cs =>
    if chunk.contains p.tick then
      if cur = p.iter then do
        let a ← addU32 accum p.tick
        let a ← subU32 a chunk.startTick
        pure (.ok a)
      else if cur + 1 ≤ 255 then loop p (cur + 1) cs else .error .overflow
    else loop p cur cs

/-- src/play_start_tick.rs:23-36 `to_accum_tick` -/
def toAccumTick (p : PlayStartTick) (chunks : List (Nat × Chunk)) : R (Except CannotFind Nat) :=
  p.loop 1 chunks

end PlayStartTick

/-! ## Errors -/

/-- src/repeat.rs:332-356 `RenderRegionError` -/
inductive RenderRegionError where
  | duplicatedRepeatStart (tick : Nat)
  | duplicatedSegno (t0 t1 : Nat)
  | duplicatedDsDc (t0 t1 : Nat)
  | duplicatedFine (t0 t1 : Nat)
  | orphanRepeatEnd (tick : Nat)
  | fineWithoutDsDc (tick : Nat)
  | segnoWithoutDs (tick : Nat)
  | codaWithoutDsDc (t0 t1 : Nat)
  | noRepeatEnd (tick : Nat)
  | invalidRegionIndex (tick : Nat) (actual expected : VarIndex)
  | repeatInVariation (tick : Nat)
  | variationNotClosed (tick : Nat)
  | repeatOrVariationOnDc (tick : Nat)
  | repeatOrVariationOnDs (tick : Nat)
  | fineNotAfterSegno (segnoTick fineTick : Nat)
  | noSegnoForDs (dsTick : Nat)
  | moreThanTwoCodas (t0 t1 t2 : Nat)
  | onlyOneCoda (tick : Nat)
  | dcDsWhileRepeat (tick : Nat)
  | dcDsWhileVariation (tick : Nat)
  | segnoWhileVariation (tick : Nat)
  | codaAfterFine (codaFrom codaTo fine : Nat)
  deriving DecidableEq, Repr

/-- How rendering can end without a value: a panic or a reported error. -/
inductive Fail where
  | panic (p : Panic)
  | err (e : RenderRegionError)
  deriving DecidableEq, Repr

/-- A function that may panic or report a `RenderRegionError`. -/
abbrev RR (α : Type) := Except Fail α

/-- A function that can only panic, used where errors are possible. -/
def liftR {α : Type} : R α → RR α
  | .ok a => .ok a
  | .error p => .error (.panic p)

/-- `return Err(report!(e))` -/
def fail {α : Type} (e : RenderRegionError) : RR α := .error (.err e)

/-! ## global_repeat.rs -/

/-- src/global_repeat.rs:6-10 `Coda` -/
inductive Coda where
  | one (tick : Nat)
  | two (fromTick toTick : Nat)
  deriving DecidableEq, Repr

/-- src/global_repeat.rs:12-16 `DsDc` -/
inductive DsDc where
  | dc (tick len : Nat)
  | ds (tick : Nat)
  deriving DecidableEq, Repr

/-- src/global_repeat.rs:18-25 `DsDc::tick` -/
def DsDc.tick : DsDc → Nat
  | .dc t _ => t
  | .ds t => t

/-- src/global_repeat.rs:27-31 `RenderRegionWarning` -/
inductive RenderRegionWarning where
  | segnoAndDcFound (segnoTick dcTick : Nat)
  | orphanCodaFound (codaTick : Nat)
  deriving DecidableEq, Repr

/-- src/global_repeat.rs:33-42 `GlobalRepeatBuilder` -/
structure GlobalRepeatBuilder where
  dsDc : Option DsDc := none
  fine : Option Nat := none
  segno : Option Nat := none
  coda : Option Coda := none
  firstBarLen : Option Nat := none
  topRhythm : Rhythm
  warnings : List RenderRegionWarning := []
  deriving DecidableEq, Repr

/-- src/global_repeat.rs:44-51 `GlobalRepeat` -/
structure GlobalRepeat where
  dsDc : DsDc
  fine : Option Nat
  segno : Nat
  coda : Option (Nat × Nat)
  iter1 : IntervalSet
  deriving DecidableEq, Repr

namespace GlobalRepeatBuilder

/-- src/global_repeat.rs:68-78 `new` -/
def new (r : Rhythm) : GlobalRepeatBuilder := { topRhythm := r }

/-- src/global_repeat.rs:80-91 `adding_dc` -/
def addingDc (g : GlobalRepeatBuilder) (tick len : Nat) : RR GlobalRepeatBuilder :=
  match g.dsDc with
  | none => .ok { g with dsDc := some (.dc tick len) }
  | some (.dc prev _) => fail (.duplicatedDsDc prev tick)
  | some (.ds prev) => fail (.duplicatedDsDc prev tick)

/-- src/global_repeat.rs:93-104 `adding_ds` -/
def addingDs (g : GlobalRepeatBuilder) (tick : Nat) : RR GlobalRepeatBuilder :=
  match g.dsDc with
  | none => .ok { g with dsDc := some (.ds tick) }
  | some (.dc prev _) => fail (.duplicatedDsDc prev tick)
  | some (.ds prev) => fail (.duplicatedDsDc prev tick)

/-- src/global_repeat.rs:106-115 `adding_fine` -/
def addingFine (g : GlobalRepeatBuilder) (tick : Nat) : RR GlobalRepeatBuilder :=
  match g.fine with
  | some prev => fail (.duplicatedFine prev tick)
  | none => .ok { g with fine := some tick }

/-- src/global_repeat.rs:117-126 `adding_segno` -/
def addingSegno (g : GlobalRepeatBuilder) (tick : Nat) : RR GlobalRepeatBuilder :=
  match g.segno with
  | some prev => fail (.duplicatedSegno prev tick)
  | none => .ok { g with segno := some tick }

/-- src/global_repeat.rs:128-141 `adding_coda` -/
def addingCoda (g : GlobalRepeatBuilder) (tick : Nat) : RR GlobalRepeatBuilder :=
  match g.coda with
  | none => .ok { g with coda := some (.one tick) }
  | some (.one prev) => .ok { g with coda := some (.two prev tick) }
  | some (.two f t) => fail (.moreThanTwoCodas f t tick)

/-- src/global_repeat.rs:152-160, the first part of `on_bar` -/
def noteFirstBar (g : GlobalRepeatBuilder) (bar : Bar) : GlobalRepeatBuilder :=
  match g.firstBarLen with
  | some _ => g
  | none =>
    if bar.startTick = 0 then
      match bar.rhythm with
      | some r => { g with topRhythm := r }
      | none => g
    else { g with firstBarLen := some bar.startTick }

/-- `if bar.repeats.contains(..) { self.adding_..()? }` -/
def addIf (b : Bool) (f : GlobalRepeatBuilder → RR GlobalRepeatBuilder) (g : GlobalRepeatBuilder) :
    RR GlobalRepeatBuilder :=
  if b then f g else .ok g

/-- src/global_repeat.rs:148-179 `on_bar` -/
def onBar (g : GlobalRepeatBuilder) (bar : Bar) : RR GlobalRepeatBuilder := do
  let tick := bar.startTick
  let g ← addIf (bar.repeats.contains .Dc) (fun g => g.addingDc tick (g.firstBarLen.getD 0)) (g.noteFirstBar bar)
  let g ← addIf (bar.repeats.contains .Ds) (fun g => g.addingDs tick) g
  let g ← addIf (bar.repeats.contains .Fine) (fun g => g.addingFine tick) g
  let g ← addIf (bar.repeats.contains .Segno) (fun g => g.addingSegno tick) g
  addIf (bar.repeats.contains .Coda) (fun g => g.addingCoda tick) g

/-- src/global_repeat.rs:181-191 `check_coda_pos` -/
def checkCodaPos (codaFrom codaTo : Nat) (fine : Option Nat) : RR Unit :=
  match fine with
  | some fine => if fine < codaTo then fail (.codaAfterFine codaFrom codaTo fine) else .ok ()
  | none => .ok ()

/-- src/global_repeat.rs:193-207 `to_interval_set` -/
def toIntervalSet (ip : Bool) (startTick : Nat) (fine : Option Nat) (coda : Option (Nat × Nat)) : R IntervalSet :=
  let endTick := fine.getD U32_MAX
  match coda with
  | some (codaFrom, codaTo) => do
    let a ← subU32 codaFrom 1
    let b ← subU32 endTick 1
    IntervalSet.ofPairs ip [(startTick, a), (codaTo, b)]
  | none =>
    if endTick ≤ startTick then .ok []
    else do
      let b ← subU32 endTick 1
      IntervalSet.ofPairs ip [(startTick, b)]

/-- src/global_repeat.rs:222-229, where a D.C. goes back to when there is no
Segno. -/
def implicitSegno (g : GlobalRepeatBuilder) (len firstBarLen : Nat) : R Nat := do
  let r := g.topRhythm.tickLen
  let s ← addU32 len firstBarLen
  if s = r then pure 0
  else if len = r ∧ firstBarLen = r then pure 0
  else pure firstBarLen

/-- src/global_repeat.rs:218-230, the target of a D.C. and the warnings so far -/
def dcSegno (g : GlobalRepeatBuilder) (tick len firstBarLen : Nat) : RR (Nat × List RenderRegionWarning) :=
  match g.segno with
  | some s => .ok (s, g.warnings ++ [.segnoAndDcFound s tick])
  | none => do
    let s ← liftR (g.implicitSegno len firstBarLen)
    pure (s, g.warnings)

/-- src/global_repeat.rs:231-241, the Codas of a D.C. and the warnings so far -/
def dcCoda (g : GlobalRepeatBuilder) (warnings : List RenderRegionWarning) :
    RR (Option (Nat × Nat) × List RenderRegionWarning) :=
  match g.coda with
  | none => .ok (none, warnings)
  | some (.one o) => .ok (none, warnings ++ [.orphanCodaFound o])
  | some (.two f t) => do
    checkCodaPos f t g.fine
    pure (some (f, t), warnings)

/-- src/global_repeat.rs:256-259, the target of a D.S. -/
def dsSegno (g : GlobalRepeatBuilder) (tick : Nat) : RR Nat :=
  match g.segno with
  | some s => .ok s
  | none => fail (.noSegnoForDs tick)

/-- src/global_repeat.rs:260-269, the Codas of a D.S. -/
def dsCoda (g : GlobalRepeatBuilder) : RR (Option (Nat × Nat)) :=
  match g.coda with
  | none => .ok none
  | some (.one t) => fail (.onlyOneCoda t)
  | some (.two f t) => do
    checkCodaPos f t g.fine
    pure (some (f, t))

/-- src/global_repeat.rs:209-294 `build` -/
def build (ip : Bool) (g : GlobalRepeatBuilder) : RR (Option GlobalRepeat × List RenderRegionWarning) :=
  match g.dsDc with
  | none => .ok (none, g.warnings)
  | some (.dc tick len) =>
    match g.firstBarLen with
    | none => .ok (none, g.warnings)
    | some firstBarLen => do
      let (segno, warnings) ← g.dcSegno tick len firstBarLen
      let (coda, warnings) ← g.dcCoda warnings
      let s ← liftR (toIntervalSet ip segno g.fine coda)
      pure (some ⟨.dc tick len, g.fine, segno, coda, s⟩, warnings)
  | some (.ds tick) => do
    let segno ← g.dsSegno tick
    let coda ← g.dsCoda
    let s ← liftR (toIntervalSet ip segno g.fine coda)
    pure (some ⟨.ds tick, g.fine, segno, coda, s⟩, g.warnings)

end GlobalRepeatBuilder

/-! ## repeat.rs: regions -/

/-- src/repeat.rs:122-125 `SequenceRegion`: the range `start..stop` -/
structure SequenceRegion where
  start : Nat
  stop : Nat
  deriving DecidableEq, Repr

/-- src/repeat.rs:89-101 `SimpleRegion`: the three implementors that are ever
built (`NullRegion`, 103-120, is never built). -/
inductive SimpleRegion where
  | seq (r : SequenceRegion)
  | rep (r : SequenceRegion)
  | var (common : SequenceRegion) (variations : List SequenceRegion)
  deriving DecidableEq, Repr

/-- src/repeat.rs:82-87 `RenderPhase` -/
inductive RenderPhase where
  | nonDcDs
  | iter0 (dcDsTick : Nat)
  | iter1 (g : GlobalRepeat)
  deriving DecidableEq, Repr

namespace SequenceRegion

/-- src/repeat.rs:150-152 `to_iter1_interval_set` -/
def iter1Set (ip : Bool) (r : SequenceRegion) : R IntervalSet := do
  let e ← subU32 r.stop 1
  IntervalSet.ofPairs ip [(r.start, e)]

/-- src/repeat.rs:146-148 `to_chunks` -/
def toChunks (r : SequenceRegion) : List Chunk := [⟨r.start, r.stop⟩]

end SequenceRegion

namespace SimpleRegion

/-- src/repeat.rs:150-152, 185-187 and 241-245 `to_iter1_interval_set` -/
def iter1Set (ip : Bool) : SimpleRegion → R IntervalSet
  | .seq r => r.iter1Set ip
  | .rep r => r.iter1Set ip
  | .var common vs => do
    let a ← common.iter1Set ip
    match vs.getLast? with
    | none => .error .overflow
    | some v => do
      let b ← v.iter1Set ip
      pure (a.union b)

/-- The chunks of the sections, src/repeat.rs:97-99 -/
def sectionChunks : IntervalSet → R (List Chunk)
  | [] => .ok []
  | (lo, hi) :: s => do
    let e ← addU32 hi 1
    let cs ← sectionChunks s
    pure (⟨lo, e⟩ :: cs)

/-- src/repeat.rs:92-100 `to_iter1_chunks` -/
def iter1Chunks (ip : Bool) (r : SimpleRegion) (g : GlobalRepeat) : R (List Chunk) := do
  let s ← r.iter1Set ip
  sectionChunks (g.iter1.inter s)

/-- src/repeat.rs:250-259, the function `full` of a variation region -/
def fullVariations (common : SequenceRegion) (vs : List SequenceRegion) : List Chunk :=
  vs.flatMap (fun v => common.toChunks ++ v.toChunks)

/-- src/repeat.rs:156-172, 191-215 and 249-277 `render_chunks` -/
def renderChunks (ip : Bool) (r : SimpleRegion) (phase : RenderPhase) : R (List Chunk) :=
  match r with
  | .seq q =>
    match phase with
    | .nonDcDs => .ok [⟨q.start, q.stop⟩]
    | .iter0 d =>
      if q.stop ≤ d then .ok [⟨q.start, q.stop⟩]
      else if q.start < d ∧ d < q.stop then .ok [⟨q.start, d⟩]
      else .ok []
    | .iter1 g => r.iter1Chunks ip g
  | .rep q =>
    match phase with
    | .nonDcDs => .ok (q.toChunks ++ q.toChunks)
    | .iter0 d =>
      if q.stop ≤ d then .ok (q.toChunks ++ q.toChunks)
      else if q.stop < d ∧ d < q.stop then .error .explicit
      else .ok []
    | .iter1 g => r.iter1Chunks ip g
  | .var common vs =>
    match phase with
    | .nonDcDs => .ok (fullVariations common vs)
    | .iter0 d =>
      if d ≤ common.start then .ok []
      else match vs.getLast? with
        | none => .error .unwrap
        | some v => if d < v.stop then .error .explicit else .ok (fullVariations common vs)
    | .iter1 g => r.iter1Chunks ip g

end SimpleRegion

/-- src/repeat.rs:280-284 `CompoundRegion` -/
structure CompoundRegion where
  globalRepeat : Option GlobalRepeat
  regions : List SimpleRegion
  deriving DecidableEq, Repr

namespace CompoundRegion

/-- The loops of `to_chunks`: the chunks of all regions in one phase. -/
def renderAll (ip : Bool) (phase : RenderPhase) : List SimpleRegion → R (List Chunk)
  | [] => .ok []
  | r :: rs => do
    let a ← r.renderChunks ip phase
    let b ← renderAll ip phase rs
    pure (a ++ b)

/-- src/repeat.rs:287-309 `to_chunks` -/
def toChunks (ip : Bool) (c : CompoundRegion) : R (List Chunk) :=
  match c.globalRepeat with
  | some gr => do
    let a ← renderAll ip (.iter0 gr.dsDc.tick) c.regions
    let b ← renderAll ip (.iter1 gr) c.regions
    pure (a ++ b)
  | none => renderAll ip .nonDcDs c.regions

end CompoundRegion

namespace CompoundRegion

/-- src/repeat.rs:312-315, the fold -/
def unionAll (ip : Bool) (u : IntervalSet) : List SimpleRegion → R IntervalSet
  | [] => .ok u
  | r :: rs => do
    let s ← r.iter1Set ip
    unionAll ip (u.union s) rs

/-- src/repeat.rs:311-318 `to_iter1_interval_set` -/
def iter1Set (ip : Bool) (c : CompoundRegion) : R IntervalSet := do
  let u ← unionAll ip [] c.regions
  pure (match c.globalRepeat with
    | some gr => u.inter gr.iter1
    | none => u)

end CompoundRegion

/-! ## repeat.rs: rendering -/

/-- src/repeat.rs:321-330 `RenderRegionState` -/
inductive RenderState where
  | idle
  | seq (startTick : Nat)
  | repeatStart (startTick : Nat)
  | variation (startTick : Nat) (regionStartTicks : List Nat)
  deriving DecidableEq, Repr

/-- src/repeat.rs:368-376, the loop of `create_variation`: the variations from
`tick` on. -/
def variationsFrom (tick : Nat) (ts : List Nat) (endTick : Nat) : List SequenceRegion :=
  match ts with
  | [] => [⟨tick, endTick⟩]
  | t :: ts => ⟨tick, t⟩ :: variationsFrom t ts endTick

/-- src/repeat.rs:367-381 `create_variation` -/
def createVariation (startTick : Nat) (ts : List Nat) (endTick : Nat) : R SimpleRegion :=
  match ts with
  | [] => .error .unwrap
  | t :: ts => .ok (.var ⟨startTick, t⟩ (variationsFrom t ts endTick))

/-- src/repeat.rs:467-471, the Segno check when a variation is closed at `tick` -/
def checkSegno (segno : Option Nat) (ts : List Nat) (tick : Nat) : RR Unit :=
  match segno with
  | none => .ok ()
  | some sg =>
    match ts.head?, ts.getLast? with
    | some a, some b => if a ≤ sg ∧ sg < b then fail (.segnoWhileVariation tick) else .ok ()
    | _, _ => .error (.panic .index)

/-- src/repeat.rs:396-481, one step: the regions pushed and the new state.
`segno` is that of the builder after this bar.  (The u8 sum `current_idx + 1` is
taken without its overflow check: there are never more than four endings, so it
is at most 5; `Verif.Lemmas.Render` relies on no larger value.) -/
def renderStep (segno : Option Nat) (state : RenderState) (bar : Bar) : RR (List SimpleRegion × RenderState) :=
  let tick := bar.startTick
  let has := bar.repeats.contains
  match state with
  | .idle =>
    if has .Start ∧ has .End then .ok ([.rep ⟨0, tick⟩], .repeatStart tick)
    else if has .End then .ok ([.rep ⟨0, tick⟩], .seq tick)
    else if has .Start then .ok ([.seq ⟨0, tick⟩], .repeatStart tick)
    else match bar.repeats.regionIndex with
      | some idx =>
        if idx ≠ .VI1 then fail (.invalidRegionIndex tick idx .VI1)
        else .ok ([], .variation 0 [tick])
      | none => .ok ([], state)
  | .seq s =>
    if has .End then fail (.orphanRepeatEnd tick)
    else if has .Start then .ok ([.seq ⟨s, tick⟩], .repeatStart tick)
    else .ok ([], state)
  | .repeatStart s =>
    if has .Start ∧ has .End then .ok ([.rep ⟨s, tick⟩], .repeatStart tick)
    else if has .End then .ok ([.rep ⟨s, tick⟩], .seq tick)
    else if has .Start then fail (.duplicatedRepeatStart tick)
    else if has .Dc ∨ has .Ds then fail (.dcDsWhileRepeat tick)
    else match bar.repeats.regionIndex with
      | some idx =>
        if idx ≠ .VI1 then fail (.invalidRegionIndex tick idx .VI1)
        else .ok ([], .variation s [tick])
      | none => .ok ([], state)
  | .variation s ts =>
    if has .End then fail (.repeatInVariation tick)
    else match bar.repeats.regionIndex with
      | some ri =>
        if has .Dc ∨ has .Ds then fail (.dcDsWhileVariation tick)
        else
          let cur := ts.length % 256
          if ri.value = cur then .ok ([], state)
          else if ri.value = cur + 1 then .ok ([], .variation s (ts ++ [tick]))
          else match VarIndex.fromValue (cur + 1) with
            | .ok e => fail (.invalidRegionIndex tick ri e)
            | .error _ => .error (.panic .unwrap)
      | none => do
        checkSegno segno ts tick
        let v ← liftR (createVariation s ts tick)
        pure ([v], if has .Start then .repeatStart tick else .seq tick)

/-- src/repeat.rs:388-482, the loop.  (`is_auftakt`, 390-394, is never read.) -/
def renderLoop (g : GlobalRepeatBuilder) (state : RenderState) :
    List Bar → RR (GlobalRepeatBuilder × List SimpleRegion × RenderState)
  | [] => .ok (g, [], state)
  | bar :: bars => do
    let g ← g.onBar bar
    let (rs, state) ← renderStep g.segno state bar
    let (g, rs', state) ← renderLoop g state bars
    pure (g, rs ++ rs', state)

/-- src/repeat.rs:366-500 `render_region` -/
def renderRegion (ip : Bool) (tuneRhythm : Rhythm) (bars : List Bar) :
    RR (CompoundRegion × List RenderRegionWarning) := do
  let (g, regions, state) ← renderLoop (GlobalRepeatBuilder.new tuneRhythm) .idle bars
  match state with
  | .idle => do
    let (gr, w) ← g.build ip
    pure (⟨gr, regions ++ [.seq ⟨0, U32_MAX⟩]⟩, w)
  | .seq s => do
    let (gr, w) ← g.build ip
    pure (⟨gr, regions ++ [.seq ⟨s, U32_MAX⟩]⟩, w)
  | .repeatStart s => fail (.noRepeatEnd s)
  | .variation _ ts =>
    match ts.getLast? with
    | some t => fail (.variationNotClosed t)
    | none => .error (.panic .unwrap)

end Klavier
