import Verif.Model.Release
import Verif.Spec.Release

/-! # Agreement of the two builds -/
set_option autoImplicit false
namespace Klavier
namespace Release

theorem agrees_refl {α : Type} (c : R α) : Agrees c c := fun _ => rfl

theorem agrees_bind {α β : Type} {c r : R α} {f g : α → R β} (h : Agrees c r)
    (k : ∀ a, Agrees (f a) (g a)) : Agrees (c >>= f) (r >>= g) := by
  intro hne
  cases c with
  | error e =>
    have : r = .error e := h (by intro hc; apply hne; cases hc; rfl)
    subst this; rfl
  | ok a =>
    have : r = .ok a := h (by intro hc; cases hc)
    subst this; exact k a hne

/-- A step that stops at an overflow or gives `y`. -/
def Step {α : Type} (c : R α) (y : α) : Prop := c = .error .overflow ∨ c = .ok y

theorem agrees_step {α β : Type} {c : R α} {y : α} {f : α → R β} {r : R β} (h : Step c y)
    (k : c = .ok y → Agrees (f y) r) : Agrees (c >>= f) r := by
  intro hne
  cases h with
  | inl h => subst h; exact absurd rfl hne
  | inr h => have := k h; subst h; exact this hne

theorem agrees_of_step {α : Type} {c : R α} {y : α} (h : Step c y) : Agrees c (.ok y) := by
  intro hne
  cases h with
  | inl h => exact absurd h hne
  | inr h => exact h.symm

theorem step_chkI32 (x : Int) : Step (chkI32 x) (wrapI32 x) := by
  unfold Step chkI32 wrapI32
  by_cases h : I32_MIN ≤ x ∧ x ≤ I32_MAX
  · right; rw [if_pos h]; congr 1; simp only [I32_MIN, I32_MAX] at h; omega
  · left; rw [if_neg h]

theorem step_chkI16 (x : Int) : Step (chkI16 x) (wrapI16 x) := by
  unfold Step chkI16 wrapI16
  by_cases h : I16_MIN ≤ x ∧ x ≤ I16_MAX
  · right; rw [if_pos h]; congr 1; simp only [I16_MIN, I16_MAX] at h; omega
  · left; rw [if_neg h]

theorem step_chkI64 (x : Int) : Step (chkI64 x) (wrapI64 x) := by
  unfold Step chkI64 wrapI64
  by_cases h : I64_MIN ≤ x ∧ x ≤ I64_MAX
  · right; rw [if_pos h]; congr 1; simp only [I64_MIN, I64_MAX] at h; omega
  · left; rw [if_neg h]

theorem step_addU32 (a b : Nat) : Step (addU32 a b) (add32 a b) := by
  unfold Step addU32 add32
  by_cases h : a + b ≤ U32_MAX
  · right; rw [if_pos h]; congr 1; simp only [U32_MAX] at h; omega
  · left; rw [if_neg h]

theorem step_mulU32 (a b : Nat) : Step (Tuple.mulU32 a b) (mul32 a b) := by
  unfold Step Tuple.mulU32 mul32
  by_cases h : a * b ≤ U32_MAX
  · right; rw [if_pos h]; congr 1; simp only [U32_MAX] at h; omega
  · left; rw [if_neg h]

theorem step_addUsize (a b : Nat) : Step (addUsize a b) (add64 a b) := by
  unfold Step addUsize add64
  by_cases h : a + b ≤ USIZE_MAX
  · right; rw [if_pos h]; congr 1; simp only [USIZE_MAX] at h; omega
  · left; rw [if_neg h]

theorem step_mulUsize (a b : Nat) : Step (mulUsize a b) (mul64 a b) := by
  unfold Step mulUsize mul64
  by_cases h : a * b ≤ USIZE_MAX
  · right; rw [if_pos h]; congr 1; simp only [USIZE_MAX] at h; omega
  · left; rw [if_neg h]

theorem step_subU32 (a b : Nat) : Step (subU32 a b) (sub32 a b) := by
  unfold Step subU32 sub32
  by_cases h : b ≤ a
  · right; rw [if_pos h, if_pos h]
  · left; rw [if_neg h]

theorem step_subUsize (a b : Nat) : Step (subU32 a b) (sub64 a b) := by
  unfold Step subU32 sub64
  by_cases h : b ≤ a
  · right; rw [if_pos h, if_pos h]
  · left; rw [if_neg h]

/-! ## Pitches -/

theorem agrees_solfaAddAssign (s : Solfa) (x : Int) : Agrees (s.addAssign x) (solfaAddAssign s x) :=
  agrees_step (step_chkI32 _) (fun _ => agrees_refl _)

theorem agrees_solfaSubAssign (s : Solfa) (x : Int) : Agrees (s.subAssign x) (solfaSubAssign s x) :=
  agrees_step (step_chkI32 _) (fun _ => agrees_refl _)

theorem agrees_octaveOf (v : Int) : Agrees (Octave.valueOf v) (octaveOf v) :=
  agrees_step (step_chkI32 _) (fun _ => agrees_refl _)

theorem agrees_octaveAddAssign (o : Octave) (x : Int) : Agrees (o.addAssign x) (octaveAddAssign o x) :=
  agrees_step (step_chkI32 _) (fun _ => agrees_bind (agrees_octaveOf _) (fun _ => agrees_refl _))

theorem agrees_octaveSubAssign (o : Octave) (x : Int) : Agrees (o.subAssign x) (octaveSubAssign o x) :=
  agrees_step (step_chkI32 _) (fun _ => agrees_bind (agrees_octaveOf _) (fun _ => agrees_refl _))

theorem agrees_octaveAdd (a b : Octave) : Agrees (a.add b) (octaveAdd a b) :=
  agrees_step (step_chkI32 _) (fun _ => agrees_bind (agrees_octaveOf _) (fun _ => agrees_refl _))

theorem agrees_delta (p : Pitch) (d : Int) : Agrees (p.withScoreOffsetDelta d) (withScoreOffsetDelta p d) :=
  agrees_step (step_chkI32 _) (fun _ => agrees_refl _)

theorem agrees_up (p : Pitch) : Agrees p.up (pitchUp p) := by
  unfold Pitch.up pitchUp
  split
  · split
    · exact agrees_bind (agrees_octaveAddAssign _ _) (fun _ => agrees_refl _)
    · exact agrees_refl _
  · exact agrees_bind (agrees_solfaAddAssign _ _) (fun _ => agrees_refl _)

theorem agrees_down (p : Pitch) : Agrees p.down (pitchDown p) := by
  unfold Pitch.down pitchDown
  split
  · split
    · exact agrees_bind (agrees_octaveSubAssign _ _) (fun _ => agrees_refl _)
    · exact agrees_refl _
  · exact agrees_bind (agrees_solfaSubAssign _ _) (fun _ => agrees_refl _)

/-! ## Values -/

theorem agrees_tickLength (d : Duration) : Agrees d.tickLength (tickLength d) := by
  unfold Duration.tickLength tickLength
  simp only
  split
  · exact agrees_refl _
  · by_cases h : 32 ≤ d.dots
    · rw [if_pos h]; intro hc; exact absurd rfl hc
    · rw [if_neg h]
      have : d.dots % 32 = d.dots := Nat.mod_eq_of_lt (by omega)
      rw [this]; exact agrees_refl _

theorem agrees_durationMin (d e : Duration) : Agrees (d.min e) (durationMin d e) :=
  agrees_bind (agrees_tickLength _) (fun _ => agrees_bind (agrees_tickLength _) (fun _ => agrees_refl _))

theorem agrees_fromArray (a b c d : Int) : Agrees (Trimmer.fromArray a b c d) (.ok (trimmerFromArray a b c d)) :=
  agrees_step (step_chkI16 _) (fun _ => agrees_step (step_chkI16 _) (fun _ =>
    agrees_step (step_chkI16 _) (fun _ => agrees_refl _)))

theorem agrees_fromVec (vs : List Int) : Agrees (Trimmer.fromVec vs) (trimmerFromVec vs) :=
  agrees_bind (agrees_refl _) (fun _ => agrees_bind (agrees_refl _) (fun _ => agrees_bind (agrees_refl _) (fun _ =>
    agrees_bind (agrees_refl _) (fun _ => agrees_fromArray _ _ _ _))))

theorem agrees_updated (t : Trimmer) (f : Int × Int × Int × Int → Int × Int × Int × Int) :
    Agrees (t.updated f) (.ok (trimmerUpdated t f)) := by
  unfold Trimmer.updated trimmerUpdated
  exact agrees_fromArray _ _ _ _

theorem agrees_addSlot (v tick : Int) : Agrees (Trimmer.addSlot v tick) (.ok (addSlot v tick)) := by
  unfold Trimmer.addSlot
  refine agrees_step (step_chkI32 _) (fun _ => ?_)
  unfold addSlot
  simp only
  split
  · exact agrees_refl _
  · split <;> exact agrees_refl _

theorem agrees_addSlots : ∀ (vs : List Int) (tick : Int),
    Agrees (Trimmer.addSlots vs tick) (.ok (addSlots vs tick))
  | [], _ => agrees_refl _
  | v :: vs, tick => by
    unfold Trimmer.addSlots addSlots
    intro hne
    have h := agrees_addSlot v tick
    cases hc : Trimmer.addSlot v tick with
    | error e =>
      have he : e ≠ .overflow := by
        intro he; apply hne; rw [hc, he]; rfl
      have := h (by rw [hc]; intro h'; cases h'; exact he rfl)
      rw [hc] at this; cases this
    | ok q =>
      have hq := h (by rw [hc]; intro h'; cases h')
      rw [hc] at hq
      cases hq
      rw [hc] at hne
      generalize addSlot v tick = q at hne ⊢
      obtain ⟨v', c⟩ := q
      cases c with
      | none => rfl
      | some c =>
        have ih := agrees_addSlots vs c
        show Except.ok (v' :: addSlots vs c) = (Trimmer.addSlots vs c >>= fun vs' => pure (v' :: vs'))
        have hne' : (Trimmer.addSlots vs c >>= fun vs' => (pure (v' :: vs') : R (List Int))) ≠ .error .overflow := hne
        exact agrees_bind (r := .ok (addSlots vs c)) (g := fun vs' => pure (v' :: vs')) ih (fun _ => agrees_refl _) hne'

theorem agrees_added (t : Trimmer) (x : Int) : Agrees (t.added x) (trimmerAdded t x) :=
  agrees_bind (r := .ok (addSlots [t.v0, t.v1, t.v2, t.v3] x)) (agrees_addSlots _ _) (fun _ => agrees_refl _)

theorem agrees_tempoDrag (t : Tempo) (a b : Int) : Agrees (t.drag a b) (tempoDrag t a b) :=
  agrees_step (step_chkI32 _) (fun _ => agrees_refl _)

theorem agrees_snap (g : Grid) (x : Int) : Agrees (g.snap x) (snap g x) := by
  unfold Grid.snap snap
  simp only
  by_cases hi : ((g.value : Nat) : Int) = 0
  · rw [if_pos hi]
    split
    · exact agrees_step (step_chkI64 _) (fun _ => agrees_refl _)
    · exact agrees_step (step_chkI64 _) (fun _ => agrees_refl _)
  · rw [if_neg hi]
    split
    · exact agrees_step (step_chkI64 _) (fun _ => agrees_of_step (step_chkI64 _))
    · exact agrees_step (step_chkI64 _) (fun _ => agrees_of_step (step_chkI64 _))

/-! ## Notes -/

theorem agrees_tickLen (n : Note) : Agrees n.tickLen (noteTickLen n) :=
  agrees_bind (agrees_tickLength _) (fun _ => agrees_refl _)

theorem agrees_withTickAdded (n : Note) (d : Int) (b : Bool) : Agrees (n.withTickAdded d b) (noteWithTickAdded n d b) := by
  unfold Note.withTickAdded noteWithTickAdded
  simp only
  split
  · exact agrees_refl _
  · split
    · exact agrees_bind (agrees_added _ _) (fun _ => agrees_refl _)
    · exact agrees_refl _

theorem agrees_noteDrag (n : Note) (a b : Int) : Agrees (n.drag a b) (noteDrag n a b) :=
  agrees_bind (agrees_delta _ _) (fun _ => agrees_refl _)

theorem agrees_addDots (n : Note) (k : Int) : Agrees (n.addDots k) (addDots n k) :=
  agrees_step (step_chkI32 _) (fun _ => agrees_refl _)

/-! ## Tuplets -/

theorem step_numeratorUnit (d : Duration) : Step (Tuple.numeratorUnit d) (numeratorUnit d) := by
  unfold Step Tuple.numeratorUnit numeratorUnit
  simp only
  by_cases h : 32 ≤ d.dots
  · left; rw [if_pos h]
  · right; rw [if_neg h, Nat.mod_eq_of_lt (by omega : d.dots < 32)]

theorem agrees_tupleAdd (cur : Option Tuple.Elem) (n : Note) : Agrees (Tuple.add cur n) (tupleAdd cur n) := by
  unfold Tuple.add tupleAdd
  cases cur with
  | none => exact agrees_refl _
  | some e =>
    simp only
    split
    · exact agrees_refl _
    · exact agrees_bind (agrees_durationMin _ _) (fun _ => agrees_refl _)

theorem agrees_group : ∀ (ns : List Note) (cur : Option Tuple.Elem), Agrees (Tuple.group ns cur) (group ns cur)
  | [], none => agrees_refl _
  | [], some _ => agrees_refl _
  | n :: ns, cur => by
    unfold Tuple.group group
    exact agrees_step (step_numeratorUnit _) (fun _ => agrees_bind (agrees_tupleAdd _ _) (fun _ =>
      agrees_bind (agrees_group ns _) (fun _ => agrees_refl _)))

theorem step_gcdUnits : ∀ ns : List Note, Step (Tuple.gcdUnits ns) (gcdUnits ns)
  | [] => .inr rfl
  | n :: ns => by
    unfold Tuple.gcdUnits gcdUnits
    cases step_numeratorUnit n.duration with
    | inl h => left; rw [h]; rfl
    | inr h =>
      rw [h]
      cases step_gcdUnits ns with
      | inl h => left; rw [h]; rfl
      | inr h =>
        right
        rw [h]
        cases gcdUnits ns <;> rfl

theorem agrees_totalTickUnit : ∀ (es : List Tuple.Elem) (acc : Nat × Nat),
    Agrees (Tuple.totalTickUnit es acc) (totalTickUnit es acc)
  | [], _ => agrees_refl _
  | e :: es, (a, b) => by
    unfold Tuple.totalTickUnit totalTickUnit
    exact agrees_bind (agrees_tickLength _) (fun _ => agrees_step (step_addU32 _ _) (fun _ =>
      agrees_step (step_numeratorUnit _) (fun _ => agrees_step (step_addU32 _ _) (fun _ =>
        agrees_totalTickUnit es _))))

theorem agrees_place (s t w d : Nat) : ∀ (ns : List Note) (u : Nat),
    Agrees (Tuple.place s t w d ns u) (place s t w d ns u)
  | [], _ => agrees_refl _
  | n :: ns, u => by
    unfold Tuple.place place
    refine agrees_step (step_mulU32 _ _) (fun _ => ?_)
    by_cases hw : w = 0
    · rw [if_pos hw, if_pos hw]; exact agrees_refl _
    · rw [if_neg hw, if_neg hw]
      exact agrees_step (step_addU32 _ _) (fun _ => agrees_step (step_numeratorUnit _) (fun _ =>
        agrees_step (step_addU32 _ _) (fun _ => agrees_bind (agrees_place s t w d ns _) (fun _ => agrees_refl _))))

theorem agrees_tuplize (ns : List Note) : Agrees (Tuple.tuplize ns) (tuplize ns) := by
  unfold Tuple.tuplize tuplize
  split
  · rename_i h; simp only [h]; exact agrees_refl _
  · rename_i f m h
    simp only [h]
    refine agrees_bind (agrees_group _ _) (fun es => agrees_step (step_gcdUnits _) (fun _ => ?_))
    cases hg : gcdUnits (f :: m) with
    | none => exact agrees_refl _
    | some g =>
      simp only
      refine agrees_bind (agrees_totalTickUnit _ _) (fun q => ?_)
      obtain ⟨a, b⟩ := q
      simp only
      split
      · exact agrees_refl _
      · split
        · exact agrees_refl _
        · exact agrees_step (step_mulU32 _ _) (fun _ => agrees_bind (agrees_refl _) (fun _ => agrees_place _ _ _ _ _ _))

/-! ## Projects -/

theorem agrees_maxEnd : ∀ (l : List (Nat × Note)) (m : Nat), Agrees (Project.maxEnd l m) (maxEnd l m)
  | [], _ => agrees_refl _
  | (t, n) :: l, m => by
    unfold Project.maxEnd maxEnd
    exact agrees_bind (agrees_tickLen _) (fun _ => agrees_step (step_addU32 _ _) (fun _ => agrees_maxEnd l _))

theorem agrees_noteMaxEndTick (p : Project) : Agrees p.noteMaxEndTick (noteMaxEndTick p) := by
  unfold Project.noteMaxEndTick noteMaxEndTick
  split
  · rename_i h; simp only [h]; exact agrees_refl _
  · rename_i h; simp only [h]
    exact agrees_bind (agrees_refl _) (fun _ => agrees_bind (agrees_maxEnd _ _) (fun _ => agrees_refl _))

theorem agrees_newBars (len m : Nat) : ∀ (fuel b : Nat), m ≤ fuel + b →
    Agrees (Project.newBars len m b) (newBars len m fuel b)
  | 0, b, h => by
    unfold Project.newBars newBars
    rw [if_neg (by omega : ¬ b < m), if_neg (by omega : ¬ b < m)]; exact agrees_refl _
  | fuel + 1, b, h => by
    unfold Project.newBars newBars
    by_cases hb : b < m
    · rw [if_pos hb, if_pos hb]
      by_cases hl : len = 0
      · rw [dif_pos hl, if_pos hl]; exact agrees_refl _
      · rw [dif_neg hl, if_neg hl]
        by_cases ho : b + len ≤ U32_MAX
        · rw [if_pos ho]
          have : add32 b len = b + len := by unfold add32; simp only [U32_MAX] at ho; omega
          rw [this]
          exact agrees_bind (agrees_newBars len m fuel (b + len) (by omega)) (fun _ => agrees_refl _)
        · rw [if_neg ho]; intro hc; exact absurd rfl hc
    · rw [if_neg hb, if_neg hb]; exact agrees_refl _

theorem agrees_extend (p : Project) (m b : Nat) :
    Agrees (if m ≤ b then pure (p, []) else do
        let r ← p.rhythmAt b
        let bs ← Project.newBars r.tickLen m b
        pure ({ p with bars := Project.addBars p.bars bs }, bs))
      (if m ≤ b then pure (p, []) else do
        let r ← p.rhythmAt b
        let bs ← newBars r.tickLen m (4294967296 + m) b
        pure ({ p with bars := Project.addBars p.bars bs }, bs)) := by
  by_cases h : m ≤ b
  · rw [if_pos h, if_pos h]; exact agrees_refl _
  · rw [if_neg h, if_neg h]
    exact agrees_bind (agrees_refl _) (fun r =>
      agrees_bind (agrees_newBars _ _ _ _ (by omega)) (fun _ => agrees_refl _))

theorem agrees_replenish (p : Project) : Agrees p.replenishBars (replenishBars p) := by
  unfold Project.replenishBars replenishBars
  exact agrees_bind (agrees_noteMaxEndTick _) (fun e => agrees_extend _ _ _)

theorem agrees_exec (p : Project) (e : Edit) : Agrees (p.exec e) (exec p e) := by
  cases e with
  | setRhythm | setKey | setGrid | addBar | bulkRemove => exact agrees_refl _
  | addNote => exact agrees_bind (agrees_bind (agrees_replenish _) (fun _ => agrees_refl _)) (fun _ => agrees_refl _)
  | addTempo => exact agrees_bind (agrees_bind (agrees_replenish _) (fun _ => agrees_refl _)) (fun _ => agrees_refl _)
  | addDumper => exact agrees_bind (agrees_bind (agrees_replenish _) (fun _ => agrees_refl _)) (fun _ => agrees_refl _)
  | addSoft => exact agrees_bind (agrees_bind (agrees_replenish _) (fun _ => agrees_refl _)) (fun _ => agrees_refl _)
  | bulkAdd => exact agrees_bind (agrees_bind (agrees_replenish _) (fun _ => agrees_refl _)) (fun _ => agrees_refl _)
  | change => exact agrees_bind (agrees_bind (agrees_replenish _) (fun _ => agrees_refl _)) (fun _ => agrees_refl _)
  | tuplize ns =>
    show Agrees (p.tuplize ns) (projectTuplize p ns)
    unfold Project.tuplize projectTuplize
    split
    · exact agrees_bind (agrees_tuplize _) (fun _ => agrees_bind (agrees_replenish _) (fun _ => agrees_refl _))
    · exact agrees_refl _

theorem agrees_session : ∀ (os : List Op) (s : Session), Agrees (s.run os) (sessionRun s os)
  | [], _ => agrees_refl _
  | o :: os, s => by
    unfold Session.run sessionRun
    refine agrees_bind ?_ (fun _ => agrees_session os _)
    cases o with
    | edit e => exact agrees_bind (agrees_exec _ _) (fun _ => agrees_refl _)
    | undo => exact agrees_refl _
    | redo => exact agrees_refl _

theorem agrees_locationToTick (p : Project) (loc : Location) :
    Agrees (p.locationToTick loc) (locationToTick p loc) := by
  unfold Project.locationToTick locationToTick
  split
  · exact agrees_refl _
  · split
    · exact agrees_refl _
    · split
      · exact agrees_bind (agrees_refl _) (fun _ => agrees_step (step_addUsize _ _) (fun _ => agrees_refl _))
      · simp only
        cases p.lastBar with
        | none => exact agrees_step (step_mulUsize _ _) (fun _ => agrees_step (step_addUsize _ _) (fun _ => agrees_refl _))
        | some q =>
          exact agrees_bind (agrees_refl _) (fun _ => agrees_step (step_subUsize _ _) (fun _ =>
            agrees_step (step_subUsize _ _) (fun _ => agrees_step (step_mulUsize _ _) (fun _ =>
              agrees_step (step_addUsize _ _) (fun _ => agrees_step (step_addUsize _ _) (fun _ => agrees_refl _))))))

theorem agrees_tickToLocation (p : Project) (tick : Nat) :
    Agrees (p.tickToLocation tick) (tickToLocation p tick) := by
  unfold Project.tickToLocation tickToLocation
  split
  · exact agrees_refl _
  · split
    · rename_i h; simp only [h]; exact agrees_refl _
    · rename_i h; simp only [h]
      split
      · exact agrees_refl _
      · exact agrees_bind (agrees_refl _) (fun _ => agrees_step (step_subU32 _ _) (fun _ => agrees_refl _))

/-! ## Playing order -/

theorem agrees_byAccumLoop : ∀ (cs : List Chunk) (o : Nat) (buf : Store Chunk),
    Agrees (Chunk.byAccumLoop o buf cs) (.ok (byAccumLoop o buf cs))
  | [], _, _ => agrees_refl _
  | c :: cs, o, buf => by
    unfold Chunk.byAccumLoop byAccumLoop
    by_cases h : c.endTick ≠ U32_MAX
    · simp only [if_pos h]
      exact agrees_step (step_subU32 c.endTick c.startTick) (fun _ => agrees_step (step_addU32 _ _) (fun _ =>
        agrees_byAccumLoop cs _ _))
    · simp only [if_neg h]
      exact agrees_byAccumLoop cs _ _

theorem agrees_byAccumTick (cs : List Chunk) : Agrees (Chunk.byAccumTick cs) (.ok (byAccumTick cs)) :=
  agrees_byAccumLoop cs 0 []

theorem agrees_startLoop (p : PlayStartTick) : ∀ (l : List (Nat × Chunk)) (cur : Nat),
    Agrees (p.loop cur l) (.ok (startLoop p cur l))
  | [], cur => by
    unfold PlayStartTick.loop startLoop
    cases cur with
    | zero => intro h; exact absurd rfl h
    | succ n => exact agrees_step (y := n) (.inr rfl) (fun _ => agrees_refl _)
  | (a, c) :: l, cur => by
    unfold PlayStartTick.loop startLoop
    split
    · split
      · exact agrees_step (step_addU32 _ _) (fun _ => agrees_step (step_subU32 _ _) (fun _ => agrees_refl _))
      · by_cases h : cur + 1 ≤ 255
        · rw [if_pos h, Nat.mod_eq_of_lt (by omega : cur + 1 < 256)]; exact agrees_startLoop p l _
        · rw [if_neg h]; intro hc; exact absurd rfl hc
    · exact agrees_startLoop p l _

theorem agrees_toAccumTick (p : PlayStartTick) (l : List (Nat × Chunk)) :
    Agrees (p.toAccumTick l) (.ok (toAccumTick p l)) := agrees_startLoop p l 1

/-! ## Rendering -/

theorem agreesRR_refl {α : Type} (c : RR α) : AgreesRR c c := fun _ => rfl

theorem agreesRR_bind {α β : Type} {c r : RR α} {f g : α → RR β} (h : AgreesRR c r)
    (k : ∀ a, AgreesRR (f a) (g a)) : AgreesRR (c >>= f) (r >>= g) := by
  intro hne
  cases c with
  | error e =>
    have : r = .error e := h (by intro hc; apply hne; cases hc; rfl)
    subst this; rfl
  | ok a =>
    have : r = .ok a := h (by intro hc; cases hc)
    subst this; exact k a hne

theorem agreesRR_lift {α : Type} {c r : R α} (h : Agrees c r) : AgreesRR (liftR c) (liftR r) := by
  intro hne
  rw [h (by intro hc; apply hne; rw [hc]; rfl)]

theorem agrees_toIntervalSet (ip : Bool) (s : Nat) (fine : Option Nat) (coda : Option (Nat × Nat)) :
    Agrees (GlobalRepeatBuilder.toIntervalSet ip s fine coda) (toIntervalSet ip s fine coda) := by
  unfold GlobalRepeatBuilder.toIntervalSet toIntervalSet
  cases coda with
  | some q => exact agrees_step (step_subU32 _ _) (fun _ => agrees_step (step_subU32 _ _) (fun _ => agrees_refl _))
  | none =>
    simp only
    split
    · exact agrees_refl _
    · exact agrees_step (step_subU32 _ _) (fun _ => agrees_refl _)

theorem agrees_implicitSegno (g : GlobalRepeatBuilder) (a b : Nat) :
    Agrees (g.implicitSegno a b) (.ok (implicitSegno g a b)) := by
  unfold GlobalRepeatBuilder.implicitSegno
  refine agrees_step (step_addU32 _ _) (fun _ => ?_)
  unfold implicitSegno
  simp only
  split
  · exact agrees_refl _
  · split <;> exact agrees_refl _

theorem agrees_dcSegno (g : GlobalRepeatBuilder) (t a b : Nat) :
    AgreesRR (g.dcSegno t a b) (.ok (dcSegno g t a b)) := by
  unfold GlobalRepeatBuilder.dcSegno dcSegno
  cases g.segno with
  | some s => exact agreesRR_refl _
  | none =>
    exact agreesRR_bind (r := liftR (.ok (implicitSegno g a b))) (g := fun s => pure (s, g.warnings))
      (agreesRR_lift (agrees_implicitSegno g a b)) (fun _ => agreesRR_refl _)

theorem agrees_build (ip : Bool) (g : GlobalRepeatBuilder) : AgreesRR (g.build ip) (build ip g) := by
  unfold GlobalRepeatBuilder.build build
  cases g.dsDc with
  | none => exact agreesRR_refl _
  | some d =>
    cases d with
    | dc t len =>
      simp only
      cases g.firstBarLen with
      | none => exact agreesRR_refl _
      | some f =>
        exact agreesRR_bind (r := .ok (dcSegno g t len f)) (agrees_dcSegno g t len f) (fun q =>
          agreesRR_bind (agreesRR_refl _) (fun c =>
            agreesRR_bind (agreesRR_lift (agrees_toIntervalSet _ _ _ _)) (fun _ => agreesRR_refl _)))
    | ds t =>
      exact agreesRR_bind (agreesRR_refl _) (fun q => agreesRR_bind (agreesRR_refl _) (fun c =>
        agreesRR_bind (agreesRR_lift (agrees_toIntervalSet _ _ _ _)) (fun _ => agreesRR_refl _)))

theorem agrees_renderRegion (ip : Bool) (r : Rhythm) (bars : List Bar) :
    AgreesRR (Klavier.renderRegion ip r bars) (renderRegion ip r bars) := by
  unfold Klavier.renderRegion renderRegion
  refine agreesRR_bind (agreesRR_refl _) (fun q => ?_)
  obtain ⟨g, rs, st⟩ := q
  cases st with
  | idle => exact agreesRR_bind (agrees_build _ _) (fun _ => agreesRR_refl _)
  | seq s => exact agreesRR_bind (agrees_build _ _) (fun _ => agreesRR_refl _)
  | repeatStart s => exact agreesRR_refl _
  | variation s ts => exact agreesRR_refl _

theorem agrees_sequenceSet (ip : Bool) (r : SequenceRegion) : Agrees (r.iter1Set ip) (sequenceSet ip r) :=
  agrees_step (step_subU32 _ _) (fun _ => agrees_refl _)

theorem agrees_iter1Set (ip : Bool) (r : SimpleRegion) : Agrees (r.iter1Set ip) (iter1Set ip r) := by
  cases r with
  | seq q => exact agrees_sequenceSet _ _
  | rep q => exact agrees_sequenceSet _ _
  | var c vs =>
    unfold SimpleRegion.iter1Set iter1Set
    refine agrees_bind (agrees_sequenceSet _ _) (fun a => ?_)
    cases vs.getLast? with
    | none => intro h; exact absurd rfl h
    | some v => exact agrees_bind (agrees_sequenceSet _ _) (fun _ => agrees_refl _)

theorem step_sectionChunks : ∀ s : IntervalSet, Step (SimpleRegion.sectionChunks s) (sectionChunks s)
  | [] => .inr rfl
  | (lo, hi) :: s => by
    unfold SimpleRegion.sectionChunks sectionChunks
    cases step_addU32 hi 1 with
    | inl h => left; rw [h]; rfl
    | inr h =>
      rw [h]
      cases step_sectionChunks s with
      | inl h => left; rw [h]; rfl
      | inr h => right; rw [h]; rfl

theorem agrees_renderChunks (ip : Bool) (r : SimpleRegion) (ph : RenderPhase) :
    Agrees (r.renderChunks ip ph) (renderChunks ip r ph) := by
  cases ph with
  | nonDcDs => exact agrees_refl _
  | iter0 d => exact agrees_refl _
  | iter1 g =>
    have h : Agrees (r.iter1Chunks ip g) (iter1Chunks ip r g) :=
      agrees_bind (agrees_iter1Set _ _) (fun _ => agrees_of_step (step_sectionChunks _))
    cases r
    · exact h
    · exact h
    · exact h

theorem agrees_renderAll (ip : Bool) (ph : RenderPhase) : ∀ rs : List SimpleRegion,
    Agrees (CompoundRegion.renderAll ip ph rs) (renderAll ip ph rs)
  | [] => agrees_refl _
  | r :: rs => agrees_bind (agrees_renderChunks _ _ _) (fun _ =>
      agrees_bind (agrees_renderAll ip ph rs) (fun _ => agrees_refl _))

theorem agrees_toChunks (ip : Bool) (c : CompoundRegion) : Agrees (c.toChunks ip) (toChunks ip c) := by
  unfold CompoundRegion.toChunks toChunks
  cases c.globalRepeat with
  | none => exact agrees_renderAll _ _ _
  | some g => exact agrees_bind (agrees_renderAll _ _ _) (fun _ => agrees_bind (agrees_renderAll _ _ _) (fun _ => agrees_refl _))

end Release
end Klavier
