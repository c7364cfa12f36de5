import Verif.Lemmas.Stretch
import Verif.Lemmas.Unheard
import Verif.Spec.Figures

/-! # C82: bars of other lengths -/
set_option autoImplicit false
namespace Klavier
open Spec Stretch GlobalRepeatBuilder

private theorem isTick_order {φ : Nat → Nat} {bars : List Bar} (h : KeepsOrder φ bars) : Order φ (IsTick bars) :=
  ⟨.inl rfl, .inr (.inl rfl), h.first, h.last, h.order⟩

private theorem isTick_le {φ : Nat → Nat} {bars : List Bar} (hb : BarsOk bars) (h : KeepsOrder φ bars) (t : Nat) (ht : IsTick bars t) :
    t ≤ U32_MAX ∧ φ t ≤ U32_MAX := by
  have h1 : t ≤ U32_MAX := by
    rcases ht with rfl | rfl | ⟨x, hx, rfl⟩
    · exact Nat.zero_le _
    · exact Nat.le_refl _
    · exact Nat.le_of_lt (hb.2 x hx)
  refine ⟨h1, ?_⟩
  have := h.order U32_MAX t (.inr (.inl rfl)) ht
  rw [h.last] at this
  omega

private theorem moved_mem {φ : Nat → Nat} {bars bars' : List Bar} (h : Moved φ bars bars') : ∀ y ∈ bars', ∃ x ∈ bars, y.startTick = φ x.startTick := by
  induction h with
  | nil => simp
  | cons x y xs ys t _ _ ih =>
    intro z hz
    rcases List.mem_cons.1 hz with rfl | hz
    · exact ⟨x, by simp, t⟩
    · obtain ⟨w, hw, e⟩ := ih z hz
      exact ⟨w, by simp [hw], e⟩

private theorem moved_sorted {φ : Nat → Nat} {bars bars' : List Bar} (h : Moved φ bars bars')
    (hs : bars.Pairwise (fun x y => x.startTick < y.startTick))
    (ho : ∀ x ∈ bars, ∀ y ∈ bars, x.startTick < y.startTick → φ x.startTick < φ y.startTick) :
    bars'.Pairwise (fun x y => x.startTick < y.startTick) := by
  induction h with
  | nil => exact .nil
  | cons x y xs ys t _ hr ih =>
    obtain ⟨h1, h2⟩ := List.pairwise_cons.1 hs
    refine .cons ?_ (ih h2 fun a ha b hb => ho a (by simp [ha]) b (by simp [hb]))
    intro z hz
    obtain ⟨w, hw, e⟩ := moved_mem hr z hz
    rw [t, e]
    exact ho x (by simp) w (by simp [hw]) (h1 w hw)

/-- The implied target of a D.C. -/
private theorem implicit_alike {φ : Nat → Nat} {bars : List Bar} (o : Order φ (IsTick bars)) {g g' : GlobalRepeatBuilder}
    {f l l' : Nat} (hf : IsTick bars f) (hl : l = 0 ∧ l' = 0 ∨ l = f ∧ l' = φ f)
    (h : (φ f = g'.topRhythm.tickLen ↔ f = g.topRhythm.tickLen) ∧ (2 * φ f = g'.topRhythm.tickLen ↔ 2 * f = g.topRhythm.tickLen) ∧
      (2 * φ f ≤ U32_MAX ↔ 2 * f ≤ U32_MAX)) (hb : f ≤ U32_MAX ∧ φ f ≤ U32_MAX) :
    AlikeR (M φ (IsTick bars)) (g.implicitSegno l f) (g'.implicitSegno l' (φ f)) := by
  obtain ⟨h1, h2, h3⟩ := h
  have hp := o.pos ⟨hf, rfl⟩
  unfold implicitSegno addU32
  rcases hl with ⟨rfl, rfl⟩ | ⟨rfl, rfl⟩
  · simp only [Nat.zero_add, hb, if_true]
    change AlikeR _ (if f = g.topRhythm.tickLen then _ else _) (if φ f = g'.topRhythm.tickLen then _ else _)
    simp only [h1]
    split
    · exact .ok o.m0
    · rw [if_neg (by omega), if_neg (by omega)]
      exact .ok ⟨hf, rfl⟩
  · rw [← Nat.two_mul, ← Nat.two_mul]
    by_cases e : 2 * l ≤ U32_MAX
    · rw [if_pos e, if_pos (h3.2 e)]
      change AlikeR _ (if 2 * l = g.topRhythm.tickLen then _ else _) (if 2 * φ l = g'.topRhythm.tickLen then _ else _)
      simp only [h1, h2, and_self]
      split
      · exact .ok o.m0
      · split
        · exact .ok o.m0
        · exact .ok ⟨hf, rfl⟩
    · rw [if_neg e, if_neg (mt h3.1 e)]
      exact .panic _

private theorem jumpOf_dc {bars : List Bar} {t l : Nat} (h : jumpOf bars = some (.dc t l)) :
    Carries bars .Dc ∧ l = if t = 0 then 0 else (firstBarEnd bars).getD 0 := by
  unfold jumpOf at h
  split at h
  · rename_i d _ e
    simp only [Option.some.injEq, DsDc.dc.injEq] at h
    obtain ⟨rfl, h⟩ := h
    refine ⟨?_, h.symm⟩
    have : d ∈ marks bars .Dc := by rw [e]; simp
    simp only [marks, List.mem_map, List.mem_filter] at this
    obtain ⟨x, hx, -⟩ := this
    exact ⟨x, hx.1, hx.2⟩
  · simp at h
  · simp at h

private theorem noSegno {bars : List Bar} (h : (marks bars .Segno).head? = none) : ¬ Carries bars .Segno := by
  rintro ⟨x, hx, h'⟩
  rw [List.head?_eq_none_iff] at h
  have : x.startTick ∈ marks bars .Segno := by
    simp only [marks, List.mem_map, List.mem_filter]
    exact ⟨x, ⟨hx, h'⟩, rfl⟩
  rw [h] at this
  simp at this

private theorem performance_alike (ip : Bool) (tune tune' : Rhythm) (bars bars' : List Bar) (φ : Nat → Nat) (hb : BarsOk bars)
    (hφ : KeepsOrder φ bars) (hm : Moved φ bars bars')
    (hd : ¬ Carries bars .Dc ∨ Carries bars .Segno ∨ FirstAlike tune tune' bars bars' φ) :
    Alike φ (fun a b => Along (Ck φ (IsTick bars)) a.1 b.1 ∧ b.2 = a.2.map (warningAt φ))
      (performance ip tune bars) (performance ip tune' bars') := by
  have o := isTick_order hφ
  have hT := isTick_le hb hφ
  have hs' : bars'.Pairwise (fun x y => x.startTick < y.startTick) := by
    refine moved_sorted hm hb.1 fun x hx y hy h => ?_
    exact (hφ.order _ _ (.inr (.inr ⟨x, hx, rfl⟩)) (.inr (.inr ⟨y, hy, rfl⟩))).2 h
  have split : ∀ (r : Rhythm) (l : List Bar), l.Pairwise (fun x y => x.startTick < y.startTick) → ∀ g rs st,
      renderLoop (new r) .idle l = .ok (g, rs, st) → g = builtOf r l := by
    intro r l h g rs st e
    rw [renderLoop_ok l (new r) .idle g rs st h (by intro s ts e; cases e), buildLoop_new h] at e
    exact e.1.2
  have hnew : G φ (IsTick bars) (new tune) (new tune') := ⟨.none, .none, .none, .none, .none, rfl⟩
  have hloop := loop_alike o hm (fun x hx => .inr (.inr ⟨x, hx, rfl⟩)) hnew (St.idle (φ := φ) (T := IsTick bars))
  unfold performance
  refine Alike.bind (P := fun a b => Maybe (Gr φ (IsTick bars)) a.1.globalRepeat b.1.globalRepeat ∧
    Along (Rg φ (IsTick bars)) a.1.regions b.1.regions ∧ b.2 = a.2.map (warningAt φ)) ?_ ?_
  · rw [renderRegion_close, renderRegion_close]
    have e1 := split tune bars hb.1
    have e2 := split tune' bars' hs'
    revert hloop e1 e2
    generalize renderLoop (new tune) .idle bars = a
    generalize renderLoop (new tune') .idle bars' = b
    intro hloop e1 e2
    cases hloop with
    | panic p => exact .panic p
    | err e => exact .err e
    | @ok a b h =>
      obtain ⟨g, rs, st⟩ := a
      obtain ⟨g', rs', st'⟩ := b
      obtain ⟨hg, hr, hst⟩ := h
      simp only at hg hr hst
      have e1 := e1 g rs st rfl
      have e2 := e2 g' rs' st' rfl
      have hbuild : Alike φ (Built φ (IsTick bars)) (g.build ip) (g'.build ip) := by
        refine build_alike o ip hg ?_
        intro t l f t' l' f' h1 h2 h3 h4 h5
        have hff := hg.firstBarLen
        rw [h3, h4] at hff
        have hdd := hg.dsDc
        rw [h1, h2] at hdd
        have hj : jumpOf bars = some (.dc t l) := by rw [← h1, e1]; rfl
        have hfirst : firstBarEnd bars = some f := by rw [← h3, e1]; rfl
        have hsegno : (marks bars .Segno).head? = none := by rw [← h5, e1]; rfl
        have htop : g.topRhythm = openingRhythm tune bars := by rw [e1]; rfl
        have htop' : g'.topRhythm = openingRhythm tune' bars' := by rw [e2]; rfl
        obtain ⟨hc, hl⟩ := jumpOf_dc hj
        rw [hfirst, Option.getD_some] at hl
        cases hff with
        | some hff =>
          cases hdd with
          | some hdd =>
            cases hdd with
            | dc _ hll =>
              have hF : FirstAlike tune tune' bars bars' φ := by
                rcases hd with h | h | h
                · exact absurd hc h
                · exact absurd h (noSegno hsegno)
                · exact h
              have hF := hF f hfirst
              rw [hff.2]
              refine implicit_alike o hff.1 ?_ (by rw [htop, htop']; exact hF) (hT f hff.1)
              rw [hll.2]
              by_cases e : t = 0
              · rw [if_pos e] at hl
                exact .inl ⟨hl, by rw [hl, hφ.first]⟩
              · rw [if_neg e] at hl
                exact .inr ⟨hl, by rw [hl]⟩
      cases hst with
      | idle => exact hbuild.bind fun x y h => .ok ⟨h.1, hr.append (.cons (.seq ⟨o.m0, o.mtop⟩) .nil), h.2⟩
      | seq hx => exact hbuild.bind fun x y h => .ok ⟨h.1, hr.append (.cons (.seq ⟨hx, o.mtop⟩) .nil), h.2⟩
      | @repeatStart s s' hx =>
        change Alike φ _ (.error (.err (.noRepeatEnd s))) (.error (.err (.noRepeatEnd s')))
        rw [hx.2]
        exact .err _
      | @variation s s' ts ts' hx hts =>
        have hlast := hts.last
        unfold closeRegion
        change Alike φ _ (match ts.getLast? with | some t => fail (.variationNotClosed t) | none => .error (.panic .unwrap))
          (match ts'.getLast? with | some t => fail (.variationNotClosed t) | none => .error (.panic .unwrap))
        revert hlast
        generalize ts.getLast? = u
        generalize ts'.getLast? = v
        intro hlast
        cases hlast with
        | none => exact .panic _
        | some hx =>
          simp only [hx.2]
          exact .err _
  · rintro ⟨⟨c, r⟩, w⟩ ⟨⟨c', r'⟩, w'⟩ ⟨h1, h2, h3⟩
    exact (compound_alike o hT ip h1 h2).lift.bind fun x y hxy => .ok ⟨hxy, h3⟩

/-- C82: the order of play does not depend on the lengths of the bars.  When the bar lines of a
score are moved without passing each other, the bars between the same lines are played in the
same order, and the same is reported about the same lines (panics included), if a D.C. goes to a
Segno or finds a first bar of the same sort. -/
theorem C82_lengths (ip : Bool) (tune tune' : Rhythm) (bars bars' : List Bar) (φ : Nat → Nat) (hb : BarsOk bars)
    (hφ : KeepsOrder φ bars) (hm : Moved φ bars bars')
    (hd : ¬ Carries bars .Dc ∨ Carries bars .Segno ∨ FirstAlike tune tune' bars bars' φ) :
    performance ip tune' bars' = outcomeAt φ (performance ip tune bars) := by
  have key := performance_alike ip tune tune' bars bars' φ hb hφ hm hd
  revert key
  generalize performance ip tune bars = a
  generalize performance ip tune' bars' = b
  intro key
  cases key with
  | panic p => rfl
  | err e => rfl
  | @ok a b h =>
    obtain ⟨h1, h2⟩ := h
    obtain ⟨b1, b2⟩ := b
    simp only at h1 h2
    rw [outcomeAt, h2, h1.chunks]

/-- Where the ticks of a score in 4/4 go when it is written in 3/4. -/
private def waltz (t : Nat) : Nat := if t < 100000 then t * 3 / 4 else t

private def air (n : Nat) : List Bar :=
  [line n { start := true }, line (2 * n) { var1 := true }, line (3 * n) { var2 := true }, line (4 * n) { fine := true },
    line (5 * n) { dc := true }]

private theorem air_moved : Moved waltz (air 960) (air 720) :=
  .cons _ _ _ _ rfl rfl (.cons _ _ _ _ rfl rfl (.cons _ _ _ _ rfl rfl (.cons _ _ _ _ rfl rfl (.cons _ _ _ _ rfl rfl .nil))))

private theorem air_ok : BarsOk (air 960) := ⟨by decide, by decide⟩

private theorem air_order : KeepsOrder waltz (air 960) := by
  refine ⟨rfl, rfl, ?_⟩
  have h : ∀ a, IsTick (air 960) a → a ∈ [0, U32_MAX, 960, 1920, 2880, 3840, 4800] := by
    rintro a (rfl | rfl | ⟨x, hx, rfl⟩)
    · simp
    · simp
    · revert x
      decide
  have d : ∀ a ∈ [0, U32_MAX, 960, 1920, 2880, 3840, 4800], ∀ b ∈ [0, U32_MAX, 960, 1920, 2880, 3840, 4800],
      (waltz a < waltz b ↔ a < b) := by decide
  exact fun a b ha hb => d a (h a ha) b (h b hb)

private theorem air_first : FirstAlike ⟨4, .D4⟩ ⟨3, .D4⟩ (air 960) (air 720) waltz := by
  intro f hf
  have : f = 960 := by
    have e : firstBarEnd (air 960) = some 960 := by decide
    rw [e] at hf
    exact (Option.some.inj hf).symm
  subst this
  decide

example (ip : Bool) : performance ip ⟨3, .D4⟩ (air 720) = outcomeAt waltz (performance ip ⟨4, .D4⟩ (air 960)) :=
  C82_lengths ip ⟨4, .D4⟩ ⟨3, .D4⟩ (air 960) (air 720) waltz air_ok air_order air_moved (.inr (.inr air_first))

example : performance true ⟨4, .D4⟩ (air 960) = .ok ([⟨0, 960⟩, ⟨960, 1920⟩, ⟨1920, 2880⟩, ⟨960, 1920⟩, ⟨2880, 3840⟩, ⟨3840, 4800⟩,
    ⟨0, 960⟩, ⟨960, 1920⟩, ⟨2880, 3840⟩], []) := by decide +kernel

/-- C82: the proviso is needed; not so for a D.C. without a Segno when the first bar is full, or a half of a
full one, in one of the scores only: it goes back to the beginning in one and to the first bar
line in the other. -/
theorem C82_proviso (ip : Bool) :
    performance ip ⟨4, .D4⟩ [line 960 {}, line 2880 { dc := true }] = .ok ([⟨0, 2880⟩, ⟨0, U32_MAX⟩], []) ∧
    performance ip ⟨4, .D4⟩ [line 1200 {}, line 2880 { dc := true }] = .ok ([⟨0, 2880⟩, ⟨1200, U32_MAX⟩], []) := by
  cases ip <;> decide +kernel

/-- C82: what is played begins and ends at bar lines. -/
theorem C82_lines (ip : Bool) (tune : Rhythm) (bars : List Bar) (cs : List Chunk) (w : List RenderRegionWarning) (hb : BarsOk bars)
    (h : performance ip tune bars = .ok (cs, w)) : ∀ c ∈ cs, IsTick bars c.startTick ∧ IsTick bars c.endTick := by
  have hm : ∀ l : List Bar, Moved (fun t => t) l l := by
    intro l
    induction l with
    | nil => exact .nil
    | cons x xs ih => exact .cons x x xs xs rfl rfl ih
  have key := performance_alike ip tune tune bars bars (fun t => t) hb ⟨rfl, rfl, fun _ _ _ _ => Iff.rfl⟩ (hm bars)
    (.inr (.inr fun _ _ => ⟨Iff.rfl, Iff.rfl, Iff.rfl⟩))
  rw [h] at key
  cases key with
  | ok k =>
    intro c hc
    have := k.1
    simp only at this
    clear k h
    revert hc
    generalize cs = ds at this ⊢
    suffices h : ∀ l m, Along (Ck (fun t => t) (IsTick bars)) l m → c ∈ l → IsTick bars c.startTick ∧ IsTick bars c.endTick from h _ _ this
    intro l m h
    induction h with
    | nil => intro h; simp at h
    | cons hx _ ih =>
      intro h
      rcases List.mem_cons.1 h with rfl | h
      · exact ⟨hx.1.1, hx.2.1⟩
      · exact ih h

example : ∀ c ∈ [⟨0, 960⟩, ⟨960, 1920⟩, ⟨1920, 2880⟩, ⟨960, 1920⟩, ⟨2880, 3840⟩, ⟨3840, 4800⟩, ⟨0, 960⟩, ⟨960, 1920⟩, ⟨2880, 3840⟩],
    IsTick (air 960) (Chunk.startTick c) ∧ IsTick (air 960) c.endTick :=
  C82_lines true ⟨4, .D4⟩ (air 960) _ [] air_ok (by decide +kernel)

private theorem optimizeFrom_at {φ : Nat → Nat} {bars : List Bar} (hφ : KeepsOrder φ bars) (cs : List Chunk) :
    ∀ cur : Chunk, IsTick bars cur.endTick → (∀ c ∈ cs, IsTick bars c.startTick ∧ IsTick bars c.endTick) →
      Chunk.optimizeFrom (chunkAt φ cur) (cs.map (chunkAt φ)) = (Chunk.optimizeFrom cur cs).map (chunkAt φ) := by
  induction cs with
  | nil => intros; rfl
  | cons x xs ih =>
    intro cur h h'
    obtain ⟨hx, hr⟩ := List.forall_mem_cons.1 h'
    rw [List.map_cons, Chunk.optimizeFrom, Chunk.optimizeFrom]
    have e : (chunkAt φ cur).endTick = (chunkAt φ x).startTick ↔ cur.endTick = x.startTick :=
      (isTick_order hφ).eq ⟨h, rfl⟩ ⟨hx.1, rfl⟩
    by_cases q : cur.endTick = x.startTick
    · rw [if_pos q, if_pos (e.2 q)]
      exact ih ⟨cur.startTick, x.endTick⟩ hx.2 hr
    · rw [if_neg q, if_neg (mt e.1 q), List.map_cons, ih x hx.2 hr]

/-- C82: chunks that follow each other are joined in one score if they are in the other. -/
theorem C82_joined (ip : Bool) (tune tune' : Rhythm) (bars bars' : List Bar) (φ : Nat → Nat) (hb : BarsOk bars)
    (hφ : KeepsOrder φ bars) (hm : Moved φ bars bars')
    (hd : ¬ Carries bars .Dc ∨ Carries bars .Segno ∨ FirstAlike tune tune' bars bars' φ)
    (cs : List Chunk) (w : List RenderRegionWarning) (h : performance ip tune bars = .ok (cs, w)) :
    ∃ cs' w', performance ip tune' bars' = .ok (cs', w') ∧ Chunk.optimize cs' = (Chunk.optimize cs).map (chunkAt φ) := by
  refine ⟨_, _, (C82_lengths ip tune tune' bars bars' φ hb hφ hm hd).trans (by rw [h]; rfl), ?_⟩
  have hl := C82_lines ip tune bars cs w hb h
  cases cs with
  | nil => rfl
  | cons c cs =>
    obtain ⟨hc, hr⟩ := List.forall_mem_cons.1 hl
    exact optimizeFrom_at hφ cs c hc.2 hr

example : ∃ cs w, performance true ⟨3, .D4⟩ (air 720) = .ok (cs, w) ∧ Chunk.optimize cs =
    [⟨0, 2160⟩, ⟨720, 1440⟩, ⟨2160, 3600⟩, ⟨0, 1440⟩, ⟨2160, 2880⟩] := by
  obtain ⟨cs, w, h, h'⟩ := C82_joined true ⟨4, .D4⟩ ⟨3, .D4⟩ (air 960) (air 720) waltz air_ok air_order air_moved (.inr (.inr air_first))
    [⟨0, 960⟩, ⟨960, 1920⟩, ⟨1920, 2880⟩, ⟨960, 1920⟩, ⟨2880, 3840⟩, ⟨3840, 4800⟩, ⟨0, 960⟩, ⟨960, 1920⟩, ⟨2880, 3840⟩] []
    (by decide +kernel)
  exact ⟨cs, w, h, h'.trans (by decide)⟩

end Klavier
