import Verif.Lemmas.Play

/-! # render_region as a whole -/
set_option autoImplicit false
namespace Klavier
open Spec

namespace GlobalRepeatBuilder

theorem firstAfter_none (bars : List Bar) : firstAfter none bars = firstBarEnd bars := by
  have some_ : ∀ (bars : List Bar) (f : Nat), firstAfter (some f) bars = some f := by
    intro bars
    induction bars with
    | nil => intro f; rfl
    | cons x xs ih => intro f; simp [firstAfter, ih]
  induction bars with
  | nil => rfl
  | cons x xs ih =>
    by_cases h : x.startTick = 0
    · simp [firstAfter, h, ih, firstBarEnd]
    · have : 0 < x.startTick := Nat.pos_of_ne_zero h
      simp [firstAfter, h, some_, firstBarEnd, this]

theorem rhythmAfter_some (bars : List Bar) : ∀ (f : Nat) (r : Rhythm), rhythmAfter (some f) r bars = r := by
  induction bars with
  | nil => intro f r; rfl
  | cons x xs ih => intro f r; simp [rhythmAfter, ih]

theorem rhythmAfter_none {bars : List Bar} (hs : bars.Pairwise (fun x y => x.startTick < y.startTick)) (r : Rhythm) :
    rhythmAfter none r bars = openingRhythm r bars := by
  have pos : ∀ (xs : List Bar) (r : Rhythm), (∀ x ∈ xs, 0 < x.startTick) → rhythmAfter none r xs = r ∧ xs.find? (fun x => decide (x.startTick = 0)) = none := by
    intro xs r h
    constructor
    · cases xs with
      | nil => rfl
      | cons x xs =>
        have := h x (by simp)
        have hne : x.startTick ≠ 0 := by omega
        simp [rhythmAfter, hne, rhythmAfter_some]
    · rw [List.find?_eq_none]
      intro x hx
      have := h x hx
      simp
      omega
  cases bars with
  | nil => rfl
  | cons x xs =>
    by_cases h : x.startTick = 0
    · have hp := pos xs (x.rhythm.getD r) (fun y hy => by have := (List.pairwise_cons.1 hs).1 y hy; omega)
      simp only [rhythmAfter, h, openingRhythm]
      simp [h, hp.1]
    · have hp : ∀ y ∈ x :: xs, 0 < y.startTick := by
        intro y hy
        rcases List.mem_cons.1 hy with rfl | hy
        · omega
        · have := (List.pairwise_cons.1 hs).1 y hy
          omega
      have := pos (x :: xs) r hp
      rw [this.1, openingRhythm, this.2]
      rfl

theorem jumpsFrom_some (bars : List Bar) (f : Nat) :
    jumpsFrom (some f) bars = bars.flatMap (jumpsAt (some f)) := by
  induction bars with
  | nil => rfl
  | cons x xs ih => simp [jumpsFrom, ih]

/-- The jump at a bar: the length given to a D.C. is that of the first bar (0 at tick 0). -/
def jumpAt (first : Nat) (x : Bar) : List DsDc :=
  at_ (x.repeats.contains .Dc) (DsDc.dc x.startTick (if x.startTick = 0 then 0 else first)) ++
    at_ (x.repeats.contains .Ds) (DsDc.ds x.startTick)

theorem jumpsFrom_none {bars : List Bar} (hs : bars.Pairwise (fun x y => x.startTick < y.startTick)) :
    jumpsFrom none bars = bars.flatMap (jumpAt ((firstBarEnd bars).getD 0)) := by
  have pos : ∀ (xs : List Bar) (f : Nat), (∀ x ∈ xs, 0 < x.startTick) →
      xs.flatMap (jumpsAt (some f)) = xs.flatMap (jumpAt f) := by
    intro xs f
    induction xs with
    | nil => intro _; rfl
    | cons x xs ih =>
      intro h
      have := h x (by simp)
      have hne : x.startTick ≠ 0 := by omega
      rw [List.flatMap_cons, List.flatMap_cons, ih (fun y hy => h y (by simp [hy]))]
      simp [jumpsAt, jumpAt, hne]
  have pos' : ∀ xs : List Bar, xs.Pairwise (fun x y => x.startTick < y.startTick) → (∀ x ∈ xs, 0 < x.startTick) →
      jumpsFrom none xs = xs.flatMap (jumpAt ((firstBarEnd xs).getD 0)) := by
    intro xs hs h
    cases xs with
    | nil => rfl
    | cons x xs =>
      have hx := h x (by simp)
      have hne : x.startTick ≠ 0 := by omega
      have hf : (firstBarEnd (x :: xs)).getD 0 = x.startTick := by simp [firstBarEnd, hx]
      rw [hf, ← pos (x :: xs) x.startTick h]
      simp [jumpsFrom, hne, jumpsFrom_some]
  cases bars with
  | nil => rfl
  | cons x xs =>
    have hx := List.pairwise_cons.1 hs
    by_cases h : x.startTick = 0
    · have hp : ∀ y ∈ xs, 0 < y.startTick := fun y hy => by have := hx.1 y hy; omega
      have hf : firstBarEnd (x :: xs) = firstBarEnd xs := by simp [firstBarEnd, h]
      rw [hf, List.flatMap_cons, ← pos' xs hx.2 hp]
      simp [jumpsFrom, jumpsAt, jumpAt, h]
    · refine pos' (x :: xs) hs ?_
      intro y hy
      rcases List.mem_cons.1 hy with rfl | hy
      · omega
      · have := hx.1 y hy
        omega

theorem jumps_length (bars : List Bar) (f : Nat) :
    (bars.flatMap (jumpAt f)).length = (marks bars .Dc).length + (marks bars .Ds).length := by
  induction bars with
  | nil => rfl
  | cons x xs ih =>
    rw [List.flatMap_cons, List.length_append, ih, marks_cons, marks_cons]
    simp only [List.length_append, jumpAt, at_]
    by_cases h1 : x.repeats.contains .Dc = true <;> by_cases h2 : x.repeats.contains .Ds = true <;>
      simp only [h1, h2, if_true, List.length_cons, List.length_nil] <;> simp <;> omega

/-- The jump, given the marks. -/
def jumpOf (bars : List Bar) : Option DsDc :=
  match marks bars .Dc, marks bars .Ds with
  | d :: _, _ => some (.dc d (if d = 0 then 0 else (firstBarEnd bars).getD 0))
  | [], d :: _ => some (.ds d)
  | [], [] => none

theorem jumps_head (bars : List Bar) (f : Nat) (h : (marks bars .Dc).length + (marks bars .Ds).length ≤ 1) :
    (bars.flatMap (jumpAt f)).head? = (match marks bars .Dc, marks bars .Ds with
      | d :: _, _ => some (.dc d (if d = 0 then 0 else f))
      | [], d :: _ => some (.ds d)
      | [], [] => none) := by
  induction bars with
  | nil => rfl
  | cons x xs ih =>
    rw [marks_cons, marks_cons] at h ⊢
    simp only [List.length_append] at h
    rw [List.flatMap_cons]
    by_cases h1 : x.repeats.contains .Dc = true
    · simp [jumpAt, at_, h1]
    · by_cases h2 : x.repeats.contains .Ds = true
      · have hd : marks xs .Dc = [] := by
          rw [← List.length_eq_zero_iff]
          simp only [at_, h2, if_pos] at h
          simp at h
          omega
        simp [jumpAt, at_, h1, h2, hd]
      · have := ih (by omega)
        simpa [jumpAt, at_, h1, h2] using this

/-- What is collected from all bars. -/
def builtOf (tune : Rhythm) (bars : List Bar) : GlobalRepeatBuilder where
  dsDc := jumpOf bars
  fine := (marks bars .Fine).head?
  segno := (marks bars .Segno).head?
  coda := codaOf (marks bars .Coda)
  firstBarLen := firstBarEnd bars
  topRhythm := openingRhythm tune bars
  warnings := []

theorem buildLoop_new {bars : List Bar} (hs : bars.Pairwise (fun x y => x.startTick < y.startTick)) (tune : Rhythm)
    (g : GlobalRepeatBuilder) : buildLoop (new tune) bars = .ok g ↔ MarksOk bars ∧ g = builtOf tune bars := by
  rw [buildLoop_ok bars (new tune) g (by simp [new])]
  simp only [new, Option.toList_none, List.nil_append, codaList, jumpsFrom_none hs, firstAfter_none,
    rhythmAfter_none hs, jumps_length]
  constructor
  · rintro ⟨h1, h2, h3, h4, rfl⟩
    refine ⟨⟨h1, h2, h3, h4⟩, ?_⟩
    rw [jumps_head bars _ h1]
    rfl
  · rintro ⟨⟨h1, h2, h3, h4⟩, rfl⟩
    refine ⟨h1, h2, h3, h4, ?_⟩
    rw [jumps_head bars _ h1]
    rfl

end GlobalRepeatBuilder

open GlobalRepeatBuilder in
/-- Rendering succeeds exactly when the marks are few enough, the score reads as
passages, and the global marks fit. -/
theorem render_ok_iff {bars : List Bar} (hs : bars.Pairwise (fun x y => x.startTick < y.startTick)) (ip : Bool)
    (tune : Rhythm) (c : CompoundRegion) (w : List RenderRegionWarning) :
    renderRegion ip tune bars = .ok (c, w) ↔
      MarksOk bars ∧ (∃ ps, Reads (marks bars .Segno).head? .first 0 bars ps ∧ c.regions = ps.map Passage.region) ∧
        (builtOf tune bars).build ip = .ok (c.globalRepeat, w) := by
  have hsplit : ∀ gf rs st, renderLoop (new tune) .idle bars = .ok (gf, rs, st) ↔
      (MarksOk bars ∧ gf = builtOf tune bars) ∧ stepLoop gf.segno .idle bars = .ok (rs, st) := by
    intro gf rs st
    rw [renderLoop_ok bars (new tune) .idle gf rs st hs (by intro s ts e; cases e), buildLoop_new hs]
  have hiff := stepLoop_iff (marks bars .Segno).head? bars
  obtain ⟨gr, regions⟩ := c
  constructor
  · intro h
    rw [renderRegion, RR_bind_eq_ok] at h
    obtain ⟨⟨gf, rs, st⟩, h1, h⟩ := h
    obtain ⟨⟨m, rfl⟩, hst⟩ := (hsplit gf rs st).1 h1
    refine ⟨m, ?_⟩
    have go : ∀ z, finish st = some z → ((builtOf tune bars).build ip >>= fun p =>
        (pure ((⟨p.1, rs ++ [.seq ⟨z, U32_MAX⟩]⟩ : CompoundRegion), p.2) : RR (CompoundRegion × List RenderRegionWarning))) =
          .ok (⟨gr, regions⟩, w) →
        (∃ ps, Reads (marks bars .Segno).head? .first 0 bars ps ∧ regions = ps.map Passage.region) ∧
        (builtOf tune bars).build ip = .ok (gr, w) := by
      intro z hz hb
      rw [RR_bind_eq_ok] at hb
      obtain ⟨⟨g1, w1⟩, hb1, hb2⟩ := hb
      simp only [RR_pure, Except.ok.injEq, Prod.mk.injEq, CompoundRegion.mk.injEq] at hb2
      obtain ⟨⟨rfl, rfl⟩, rfl⟩ := hb2
      exact ⟨(hiff _).1 ⟨rs, st, z, hst, hz, rfl⟩, hb1⟩
    dsimp only at h
    cases st with
    | idle => exact go 0 rfl h
    | seq s => exact go s rfl h
    | repeatStart s => simp [fail] at h
    | variation s ts =>
      simp only [fail] at h
      split at h <;> cases h
  · rintro ⟨m, ⟨ps, hr, hreg⟩, hb⟩
    obtain ⟨rs, st, z, h1, h2, h3⟩ := (hiff regions).2 ⟨ps, hr, hreg⟩
    have hl := (hsplit (builtOf tune bars) rs st).2 ⟨⟨m, rfl⟩, h1⟩
    rw [renderRegion, hl, RR_bind_ok]
    dsimp only at hb ⊢
    cases st with
    | idle => cases h2; simp only [hb, RR_bind_ok, RR_pure, h3]
    | seq s => cases h2; simp only [hb, RR_bind_ok, RR_pure, h3]
    | repeatStart s => cases h2
    | variation s ts => cases h2

/-- What is played when there is no jump. -/
theorem play_straight {bars : List Bar} (hb : BarsOk bars) (ip : Bool) (tune : Rhythm) {ps : List Passage}
    {w : List RenderRegionWarning} (hm : MarksOk bars) (hr : Reads (marks bars .Segno).head? .first 0 bars ps)
    (hbuild : (GlobalRepeatBuilder.builtOf tune bars).build ip = .ok (none, w)) :
    ∃ c cs, renderRegion ip tune bars = .ok (c, w) ∧ c.toChunks ip = .ok cs ∧ played cs = ps.flatMap Passage.full ∧
      ChunksOk cs := by
  have hc := Reads_chain hr (fun _ => rfl) hb (fun h => absurd rfl h)
  obtain ⟨cs, h1, h2, h3⟩ := renderAll_full ip ps 0 (by decide) hc
  exact ⟨⟨none, ps.map Passage.region⟩, cs, (render_ok_iff hb.1 ip tune _ w).2 ⟨hm, ⟨ps, hr, rfl⟩, hbuild⟩, h1, h2, h3⟩

/-- What is played with a jump. -/
theorem play_jump {bars : List Bar} (hb : BarsOk bars) (ip : Bool) (tune : Rhythm) {ps : List Passage}
    {w : List RenderRegionWarning} {g : GlobalRepeat} (hm : MarksOk bars)
    (hr : Reads (marks bars .Segno).head? .first 0 bars ps)
    (hbuild : (GlobalRepeatBuilder.builtOf tune bars).build ip = .ok (some g, w)) (h0 : QuietStart bars)
    (hd : ∀ p ∈ ps, p.Outside g.dsDc.tick) (hdm : g.dsDc.tick < U32_MAX) :
    ∃ c cs, renderRegion ip tune bars = .ok (c, w) ∧ c.toChunks ip = .ok cs ∧
      played cs = ps.flatMap (Passage.upTo g.dsDc.tick) ++ (ps.flatMap Passage.once).filter (fun t => g.iter1.has t) ∧
      ChunksOk cs := by
  have hc := Reads_chain hr (fun _ => rfl) hb (fun h => absurd rfl h)
  have ho := Chain_mem hc (by decide)
  obtain ⟨c0, h1, h2, h3⟩ := renderAll_iter0 ip g.dsDc.tick ps (fun p hp => (ho p hp).1) hd
  obtain ⟨c1, k1, k2, k3⟩ := renderAll_iter1 ip g ps 0 (by decide) hc (Reads_positive hr hb.1 h0)
  refine ⟨⟨some g, ps.map Passage.region⟩, c0 ++ c1, (render_ok_iff hb.1 ip tune _ w).2 ⟨hm, ⟨ps, hr, rfl⟩, hbuild⟩, ?_, ?_,
    ChunksOk_append (fun c hc => ?_) k3⟩
  · simp only [CompoundRegion.toChunks, h1, R_bind_ok, k1, R_pure]
  · rw [played_append, h2, k2]
  · have := h3 c hc
    exact ⟨this.1, by omega⟩

end Klavier
