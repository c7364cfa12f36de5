import Verif.Lemmas.Afresh
import Verif.Lemmas.Notate
import Verif.Props.RenderError

/-! # C90: a Start begins afresh -/
set_option autoImplicit false
namespace Klavier
open Spec

private theorem barsOk_left {pre post : List Bar} {x xl : Bar} (hb : BarsOk (pre ++ x :: post)) (e : xl.startTick = x.startTick) :
    BarsOk (pre ++ [xl]) := by
  obtain ⟨h1, h2⟩ := hb
  have h3 := List.pairwise_append.1 h1
  refine ⟨List.pairwise_append.2 ⟨h3.1, by simp, ?_⟩, ?_⟩
  · intro y hy z hz
    obtain rfl : z = xl := by simpa using hz
    rw [e]
    exact h3.2.2 y hy x (by simp)
  · intro y hy
    rcases List.mem_append.1 hy with hy | hy
    · exact h2 y (by simp [hy])
    · obtain rfl : y = xl := by simpa using hy
      rw [e]
      exact h2 x (by simp)

private theorem barsOk_right {pre post : List Bar} {x xr : Bar} (hb : BarsOk (pre ++ x :: post)) (e : xr.startTick = x.startTick) :
    BarsOk (xr :: post) := by
  obtain ⟨h1, h2⟩ := hb
  have h3 := List.pairwise_cons.1 (List.pairwise_append.1 h1).2.1
  refine ⟨List.pairwise_cons.2 ⟨fun y hy => e ▸ h3.1 y hy, h3.2⟩, ?_⟩
  intro y hy
  rcases List.mem_cons.1 hy with rfl | hy
  · rw [e]; exact h2 x (by simp)
  · exact h2 y (by simp [hy])

private theorem free_left {pre post : List Bar} {x xl : Bar} (hf : JumpFree (pre ++ x :: post)) (hl : LosesStart x xl) :
    JumpFree (pre ++ [xl]) := by
  intro y hy
  rcases List.mem_append.1 hy with hy | hy
  · exact hf y (by simp [hy])
  · obtain rfl : y = xl := by simpa using hy
    obtain ⟨a, b, c, d, e⟩ := hf x (by simp)
    have := hl.2
    exact ⟨fun k => a ((this _).1 k).1, fun k => b ((this _).1 k).1, fun k => c ((this _).1 k).1, fun k => d ((this _).1 k).1,
      fun k => e ((this _).1 k).1⟩

private theorem free_right {pre post : List Bar} {x xr : Bar} (hf : JumpFree (pre ++ x :: post)) (hr : StartAlone x xr) :
    JumpFree (xr :: post) := by
  intro y hy
  rcases List.mem_cons.1 hy with rfl | hy
  · simp [hr.2]
  · exact hf y (by simp [hy])

/-- C90: a score without marks for a jump, cut at a bar line with a Start, can be played exactly
if both parts can: the score up to that bar line, without the Start, and the bar lines from there
on with nothing but a Start on the first. -/
theorem C90_accepts (ip : Bool) (tune tune1 tune2 : Rhythm) (pre post : List Bar) (x xl xr : Bar)
    (hb : BarsOk (pre ++ x :: post)) (hf : JumpFree (pre ++ x :: post)) (hx : Has x .Start) (hn : endingNo x = none)
    (hl : LosesStart x xl) (hr : StartAlone x xr) :
    (∃ r, renderRegion ip tune (pre ++ x :: post) = .ok r) ↔
      (∃ r, renderRegion ip tune1 (pre ++ [xl]) = .ok r) ∧ ∃ r, renderRegion ip tune2 (xr :: post) = .ok r := by
  have key : ∀ {bars : List Bar} (tune : Rhythm), BarsOk bars → JumpFree bars →
      ((∃ r, renderRegion ip tune bars = .ok r) ↔ ∃ rs st z, stepLoop none .idle bars = .ok (rs, st) ∧ finish st = some z) := by
    intro bars tune hb hf
    constructor
    · rintro ⟨⟨c, w⟩, h⟩
      obtain ⟨_, _, rs, st, z, h1, h2, _⟩ := (jumpFree_render hb.1 hf ip tune c w).1 h
      exact ⟨rs, st, z, h1, h2⟩
    · rintro ⟨rs, st, z, h1, h2⟩
      exact ⟨(⟨none, _⟩, []), (jumpFree_render hb.1 hf ip tune _ _).2 ⟨rfl, rfl, rs, st, z, h1, h2, rfl⟩⟩
  have hd := hf x (by simp)
  have hst : ∀ st, _ := fun st => step_afresh (st := st) hx hn ⟨hd.1, hd.2.1⟩ hl
  rw [key tune hb hf, key tune1 (barsOk_left hb hl.1) (free_left hf hl), key tune2 (barsOk_right hb hr.1) (free_right hf hr)]
  constructor
  · rintro ⟨rs, st, z, h, hz⟩
    obtain ⟨r1, s1, r2, h1, h2, _⟩ := (stepLoop_append_iff pre (x :: post)).1 h
    obtain ⟨rx, sx, r3, h3, h4, _⟩ := stepLoop_cons_iff.1 h2
    obtain ⟨rl, sl, zl, k1, k2⟩ := (hst s1).1 rx sx h3
    obtain ⟨rx', k3, _⟩ := (hst s1).2 rl sl zl k1 k2
    rw [h3] at k3
    cases k3
    refine ⟨⟨_, sl, zl, (stepLoop_append_iff pre [xl]).2 ⟨r1, s1, _, h1, stepLoop_cons_iff.2 ⟨rl, sl, [], k1, rfl, rfl⟩, rfl⟩, k2⟩,
      ⟨_, st, z, stepLoop_cons_iff.2 ⟨_, _, r3, step_alone hr, h4, rfl⟩, hz⟩⟩
  · rintro ⟨⟨rs, sl, zl, h, k2⟩, ⟨rs', st, z, h', hz⟩⟩
    obtain ⟨r1, s1, r2, h1, h2, _⟩ := (stepLoop_append_iff pre [xl]).1 h
    obtain ⟨rl, sl', r3, h3, h4, _⟩ := stepLoop_cons_iff.1 h2
    cases h4
    obtain ⟨rx, k3, _⟩ := (hst s1).2 rl sl zl h3 k2
    obtain ⟨ra, sa, r4, k4, k5, _⟩ := stepLoop_cons_iff.1 h'
    rw [step_alone hr] at k4
    cases k4
    exact ⟨_, st, z, (stepLoop_append_iff pre (x :: post)).2 ⟨r1, s1, _, h1, stepLoop_cons_iff.2 ⟨rx, _, r4, k3, k5, rfl⟩, rfl⟩, hz⟩

/-- C90: what is played of it is what is played of the first part up to the Start, then what is
played of the second from there on.  (The first part goes on plainly after its last bar line, and
the second begins plainly.) -/
theorem C90_played (ip : Bool) (tune tune1 tune2 : Rhythm) (pre post : List Bar) (x xl xr : Bar)
    (hb : BarsOk (pre ++ x :: post)) (hf : JumpFree (pre ++ x :: post)) (hx : Has x .Start) (hn : endingNo x = none)
    (hl : LosesStart x xl) (hr : StartAlone x xr) (c c1 c2 : CompoundRegion) (w w1 w2 : List RenderRegionWarning)
    (cs cs1 cs2 : List Chunk)
    (h : renderRegion ip tune (pre ++ x :: post) = .ok (c, w)) (hc : c.toChunks ip = .ok cs)
    (h1 : renderRegion ip tune1 (pre ++ [xl]) = .ok (c1, w1)) (hc1 : c1.toChunks ip = .ok cs1)
    (h2 : renderRegion ip tune2 (xr :: post) = .ok (c2, w2)) (hc2 : c2.toChunks ip = .ok cs2) :
    ∃ before beyond, played cs1 = before ++ span x.startTick U32_MAX ∧ played cs2 = span 0 x.startTick ++ beyond ∧
      played cs = before ++ beyond := by
  have hd := hf x (by simp)
  have hst : ∀ st, _ := fun st => step_afresh (st := st) hx hn ⟨hd.1, hd.2.1⟩ hl
  obtain ⟨e0, _, rs1, sl, zl, k1, k2, k3⟩ := (jumpFree_render (barsOk_left hb hl.1).1 (free_left hf hl) ip tune1 c1 w1).1 h1
  obtain ⟨e0', _, rs2, st, z, k1', k2', k3'⟩ := (jumpFree_render (barsOk_right hb hr.1).1 (free_right hf hr) ip tune2 c2 w2).1 h2
  obtain ⟨e0'', _, rs, st', z', m1, m2, m3⟩ := (jumpFree_render hb.1 hf ip tune c w).1 h
  -- the first part
  obtain ⟨r1, s1, r2, a1, a2, rfl⟩ := (stepLoop_append_iff pre [xl]).1 k1
  obtain ⟨rl, sl', r3, a3, a4, rfl⟩ := stepLoop_cons_iff.1 a2
  cases a4
  obtain ⟨rx, b1, b2⟩ := (hst s1).2 rl sl zl a3 k2
  -- the second
  obtain ⟨ra, sa, r4, b4, b5, rfl⟩ := stepLoop_cons_iff.1 k1'
  rw [step_alone hr] at b4
  cases b4
  -- the whole
  have m := (stepLoop_append_iff (sg := none) pre (x :: post)).2 ⟨r1, s1, _, a1, stepLoop_cons_iff.2 ⟨rx, _, r4, b1, b5, rfl⟩, rfl⟩
  rw [m1] at m
  simp only [Except.ok.injEq, Prod.mk.injEq] at m
  obtain ⟨rfl, rfl⟩ := m
  obtain rfl : z' = z := by
    rw [m2] at k2'
    exact Option.some.inj k2'
  rw [CompoundRegion.toChunks, e0''] at hc
  rw [CompoundRegion.toChunks, e0] at hc1
  rw [CompoundRegion.toChunks, e0'] at hc2
  dsimp only at hc hc1 hc2
  rw [m3] at hc
  rw [k3] at hc1
  rw [k3'] at hc2
  simp only [List.append_assoc, renderAll_append] at hc hc1 hc2
  obtain ⟨p1, q1, u1, ⟨p2, q2, u2, ⟨p3, q3, u3, u4, rfl⟩, rfl⟩, rfl⟩ := hc
  obtain ⟨p1', t1, v1, ⟨p4, q4, v2, v3, rfl⟩, rfl⟩ := hc1
  obtain ⟨p5, t2, y1, ⟨p6, q6, y2, y3, rfl⟩, rfl⟩ := hc2
  rw [u1] at v1
  cases v1
  rw [u3] at y2
  cases y2
  rw [u4] at y3
  cases y3
  have one : ∀ a b, CompoundRegion.renderAll ip .nonDcDs [.seq ⟨a, b⟩] = .ok [⟨a, b⟩] := fun a b => rfl
  have play1 : ∀ a b, played [⟨a, b⟩] = span a b := by intro a b; simp [played]
  obtain ⟨p7, q7, v4, v5, rfl⟩ := v3
  cases v4
  rw [one] at v5 y1
  cases v5
  cases y1
  refine ⟨played p1 ++ played p2, played p3 ++ played q3, ?_, ?_, ?_⟩
  · rcases b2 with ⟨rfl, rfl⟩ | ⟨rfl, rfl, hz⟩
    · rw [v2] at u2
      cases u2
      simp only [played_append, List.append_assoc, List.nil_append, play1]
    · cases v2
      rw [one] at u2
      cases u2
      have hT := hb.2 x (by simp)
      have hle : zl ≤ x.startTick := by
        rcases hz with ⟨_, rfl⟩ | rfl
        · omega
        · rcases loop_seq_from pre a1 with e | ⟨y, hy, rfl⟩
          · cases e
          · exact Nat.le_of_lt ((List.pairwise_append.1 hb.1).2.2 y hy x (by simp))
      simp only [played_append, List.nil_append, List.append_assoc, play1]
      rw [← span_append hle (by omega)]
  · simp only [played_append, play1]
  · simp only [played_append, List.append_assoc]

/-- A score that meets the hypotheses: a repeat at 96, an ending 1 and 2 after a second one, from
which a third begins. -/
example : ∃ (pre post : List Bar) (x xl xr : Bar), BarsOk (pre ++ x :: post) ∧ JumpFree (pre ++ x :: post) ∧ Has x .Start ∧
    endingNo x = none ∧ LosesStart x xl ∧ StartAlone x xr ∧ ∀ ip tune,
      (∃ c cs, renderRegion ip tune (pre ++ x :: post) = .ok (c, []) ∧ c.toChunks ip = .ok cs ∧
        cs = [⟨0, 96⟩, ⟨96, 192⟩, ⟨192, 288⟩, ⟨96, 192⟩, ⟨288, 384⟩, ⟨384, 480⟩, ⟨384, 480⟩, ⟨480, U32_MAX⟩]) ∧
      (∃ c cs, renderRegion ip tune (pre ++ [xl]) = .ok (c, []) ∧ c.toChunks ip = .ok cs ∧
        cs = [⟨0, 96⟩, ⟨96, 192⟩, ⟨192, 288⟩, ⟨96, 192⟩, ⟨288, 384⟩, ⟨384, U32_MAX⟩]) ∧
      (∃ c cs, renderRegion ip tune (xr :: post) = .ok (c, []) ∧ c.toChunks ip = .ok cs ∧
        cs = [⟨0, 384⟩, ⟨384, 480⟩, ⟨384, 480⟩, ⟨480, U32_MAX⟩]) :=
  ⟨[⟨96, none, none, { start := true }⟩, ⟨192, none, none, { var1 := true }⟩, ⟨288, none, none, { var2 := true }⟩],
    [⟨480, none, none, { end_ := true }⟩], ⟨384, none, none, { start := true }⟩, ⟨384, none, none, {}⟩,
    ⟨384, none, none, { start := true }⟩, ⟨by decide, by decide⟩, by unfold JumpFree; decide, by decide, by decide,
    ⟨rfl, fun m => by cases m <;> decide⟩, ⟨rfl, fun m => by cases m <;> decide⟩,
    fun ip tune => ⟨⟨_, _, rfl, rfl, rfl⟩, ⟨_, _, rfl, rfl, rfl⟩, ⟨_, _, rfl, rfl, rfl⟩⟩⟩

/-- Behind a bar line at tick 0 without marks of repeats, an opened repeat reads as the same score
would from the beginning, provided that this begins with a repeat or endings. -/
private theorem opened_iff {xl : Bar} {rest : List Bar} {ps : List Passage} (h0 : xl.startTick = 0)
    (hx : Quiet .first xl) (hf : ∀ y ∈ rest, ¬ Has y .Dc ∧ ¬ Has y .Ds) :
    Reads none .opened 0 rest ps ↔ Reads none .first 0 (xl :: rest) ps ∧ ∀ a b, ps.head? ≠ some (.plain a b) := by
  have q1 : ∀ {l : List Bar}, (∀ y ∈ l, Quiet .opened y) → ∀ y ∈ xl :: l, Quiet .first y := by
    intro l h y hy
    rcases List.mem_cons.1 hy with rfl | hy
    · exact hx
    · exact ⟨(h y hy).1, (h y hy).2.1, (h y hy).2.2.2.2⟩
  have q2 : ∀ {l r : List Bar}, rest = l ++ r → (∀ y ∈ l, Quiet .first y) → ∀ y ∈ l, Quiet .opened y := by
    intro l r e h y hy
    have := hf y (by rw [e]; simp [hy])
    exact ⟨(h y hy).1, (h y hy).2.1, this.1, this.2, (h y hy).2.2⟩
  constructor
  · intro h
    cases h with
    | last hm => exact absurd rfl hm
    | start hm => exact absurd rfl hm
    | close hm hq h1 hr =>
      exact ⟨Reads.close (inside := xl :: _) (by decide) (q1 hq) h1 hr, fun a b e => by cases e⟩
    | endings hm hq h1 he hok h2 h3 hr =>
      exact ⟨Reads.endings (inside := xl :: _) (by decide) (q1 hq) ⟨h1.1, h1.2.1, h1.2.2.2.2⟩ he hok h2 h3 hr, fun a b e => by cases e⟩
  · rintro ⟨h, hp⟩
    generalize hl : xl :: rest = l at h
    cases h with
    | last => exact absurd rfl (hp _ _)
    | start => exact absurd rfl (hp _ _)
    | @close _ _ inside rest' y ps hm hq h1 hr =>
      match inside, hq with
      | [], _ =>
        obtain ⟨rfl, rfl⟩ := List.cons.inj hl
        exact absurd h1 hx.2.1
      | z :: inside, hq =>
        obtain ⟨rfl, rfl⟩ := List.cons.inj hl
        exact .close (by decide) (q2 rfl fun y hy => hq y (.tail _ hy)) h1 hr
    | @endings _ _ inside es rest' v y ts ps hm hq h1 he hok h2 h3 hr =>
      match inside, hq with
      | [], _ =>
        obtain ⟨rfl, rfl⟩ := List.cons.inj hl
        have := hx.2.2
        rw [h1.2.2] at this
        cases this
      | z :: inside, hq =>
        obtain ⟨rfl, rfl⟩ := List.cons.inj hl
        have := hf v (by simp)
        exact .endings (by decide) (q2 rfl fun y hy => hq y (.tail _ hy)) ⟨h1.1, h1.2.1, this.1, this.2, h1.2.2⟩ he hok h2 h3 hr

/-- C90: a Start at the very beginning may be written or left out: with it the score can be played
exactly if without it the score can be played and begins with a repeat or with endings, and what
is played is the same. -/
theorem C90_implicit (ip : Bool) (tune : Rhythm) (rest : List Bar) (x xl : Bar) (hb : BarsOk (x :: rest)) (hf : JumpFree (x :: rest))
    (h0 : x.startTick = 0) (hx : Has x .Start) (he : ¬ Has x .End) (hn : endingNo x = none) (hl : LosesStart x xl) :
    ((∃ r, renderRegion ip tune (x :: rest) = .ok r) ↔
      (∃ r, renderRegion ip tune (xl :: rest) = .ok r) ∧
        ∃ ps, Reads none .first 0 (xl :: rest) ps ∧ ∀ a b, ps.head? ≠ some (.plain a b)) ∧
    ∀ c w c' w', renderRegion ip tune (x :: rest) = .ok (c, w) → renderRegion ip tune (xl :: rest) = .ok (c', w') →
      ∃ cs cs', c.toChunks ip = .ok cs ∧ c'.toChunks ip = .ok cs' ∧ played cs = played cs' := by
  have hb' : BarsOk (xl :: rest) := barsOk_right (pre := []) hb hl.1
  have hf' : JumpFree (xl :: rest) := by
    intro y hy
    rcases List.mem_cons.1 hy with rfl | hy
    · have := hf x List.mem_cons_self
      simp only [hl.2]
      simpa using this
    · exact hf y (.tail _ hy)
  have hq : Quiet .first xl := by
    refine ⟨fun h => ((hl.2 _).1 h).2 rfl, fun h => he ((hl.2 _).1 h).1, ?_⟩
    have e : ∀ m, m ≠ .Start → (Has xl m ↔ Has x m) := fun m hm => by rw [hl.2]; simp [hm]
    rw [← hn]
    simp [endingNo, e]
  have h0' : xl.startTick = 0 := hl.1.trans h0
  have key := fun ps => opened_iff (ps := ps) h0' hq (fun y hy => ⟨(hf y (.tail _ hy)).1, (hf y (.tail _ hy)).2.1⟩)
  have split : ∀ ps, Reads none .first 0 (x :: rest) ps ↔ ∃ qs, ps = .plain 0 0 :: qs ∧ Reads none .opened 0 rest qs := by
    intro ps
    constructor
    · intro h
      generalize e : x :: rest = l at h
      cases h with
      | last _ hq => exact absurd hx (hq x (by rw [← e]; simp)).1
      | @start _ _ inside rest' y qs hm hq h1 h2 hr =>
        match inside, hq with
        | [], _ =>
          obtain ⟨rfl, rfl⟩ := List.cons.inj e
          rw [h0] at hr ⊢
          exact ⟨qs, rfl, hr⟩
        | z :: inside, hq =>
          obtain ⟨rfl, rfl⟩ := List.cons.inj e
          exact absurd hx (hq x (by simp)).1
      | @close _ _ inside rest' y qs hm hq h1 hr =>
        match inside, hq with
        | [], _ =>
          obtain ⟨rfl, rfl⟩ := List.cons.inj e
          exact absurd h1 he
        | z :: inside, hq =>
          obtain ⟨rfl, rfl⟩ := List.cons.inj e
          exact absurd hx (hq x (by simp)).1
      | @endings _ _ inside es rest' v y ts qs hm hq h1 h2 hok h3 h4 hr =>
        match inside, hq with
        | [], _ =>
          obtain ⟨rfl, rfl⟩ := List.cons.inj e
          exact absurd hx h1.1
        | z :: inside, hq =>
          obtain ⟨rfl, rfl⟩ := List.cons.inj e
          exact absurd hx (hq x (by simp)).1
    · rintro ⟨qs, rfl, hr⟩
      have := Reads.start (m := .first) (a := 0) (inside := []) (x := x) (segno := none) (rest := rest) (ps := qs) (by decide)
        (by simp) hx he (by rw [h0]; exact hr)
      rw [h0] at this
      exact this
  have nj : ∀ {bars : List Bar}, JumpFree bars → ∀ d target, ¬ Jump tune bars d target := by
    intro bars hf d target
    rintro (⟨k, _⟩ | ⟨_, k, _⟩)
    · rw [jumpFree_marks hf (by simp)] at k; cases k
    · rw [jumpFree_marks hf (by simp)] at k; cases k
  have acc : ∀ {bars : List Bar}, BarsOk bars → JumpFree bars →
      ((∃ r, renderRegion ip tune bars = .ok r) ↔ ∃ ps, Reads none .first 0 bars ps) := by
    intro bars hb hf
    have e := C32_accepts_iff ip tune bars hb
    have e1 := jumpFree_marks hf (m := .Dc) (by simp)
    have e2 := jumpFree_marks hf (m := .Ds) (by simp)
    have e3 := jumpFree_marks hf (m := .Fine) (by simp)
    have e4 := jumpFree_marks hf (m := .Segno) (by simp)
    have e5 := jumpFree_marks hf (m := .Coda) (by simp)
    rw [e4] at e
    constructor
    · rintro ⟨⟨c, w⟩, h⟩
      exact (e.1 ⟨c, w, h⟩).2.1
    · intro h
      obtain ⟨c, w, h⟩ := e.2 ⟨by simp [MarksOk, e1, e2, e3, e4, e5], h, by simp [JumpOk, e1, e2]⟩
      exact ⟨_, h⟩
  refine ⟨?_, ?_⟩
  · rw [acc hb hf, acc hb' hf']
    constructor
    · rintro ⟨ps, h⟩
      obtain ⟨qs, _, h⟩ := (split ps).1 h
      exact ⟨⟨qs, ((key qs).1 h).1⟩, qs, (key qs).1 h⟩
    · rintro ⟨_, ps, h⟩
      exact ⟨_, (split _).2 ⟨ps, rfl, (key ps).2 h⟩⟩
  · intro c w c' w' h h'
    have e4 := jumpFree_marks hf (m := .Segno) (by simp)
    have e4' := jumpFree_marks hf' (m := .Segno) (by simp)
    obtain ⟨ps, hr⟩ := (acc hb hf).1 ⟨_, h⟩
    obtain ⟨qs, rfl, ho⟩ := (split ps).1 hr
    obtain ⟨_, cs, k1, k2⟩ := C29_rendered ip tune _ hb c w h (nj hf) _ (by rw [e4]; exact hr)
    obtain ⟨_, cs', k3, k4⟩ := C29_rendered ip tune _ hb' c' w' h' (nj hf') qs (by rw [e4']; exact ((key qs).1 ho).1)
    refine ⟨cs, cs', k1, k3, ?_⟩
    rw [k2, k4, List.flatMap_cons]
    rfl

/-- A repeat of the first 96 ticks with and without its Start; a Start with nothing to repeat. -/
example (ip : Bool) (tune : Rhythm) : let rest : List Bar := [⟨96, none, none, { end_ := true }⟩]
    (∃ c cs, renderRegion ip tune (⟨0, none, none, { start := true }⟩ :: rest) = .ok (c, []) ∧ c.toChunks ip = .ok cs ∧
      cs = [⟨0, 0⟩, ⟨0, 96⟩, ⟨0, 96⟩, ⟨96, U32_MAX⟩]) ∧
    (∃ c cs, renderRegion ip tune (⟨0, none, none, {}⟩ :: rest) = .ok (c, []) ∧ c.toChunks ip = .ok cs ∧
      cs = [⟨0, 96⟩, ⟨0, 96⟩, ⟨96, U32_MAX⟩]) ∧
    LosesStart ⟨0, none, none, { start := true }⟩ ⟨0, none, none, {}⟩ ∧
    renderRegion ip tune [⟨0, none, none, { start := true }⟩, ⟨96, none, none, {}⟩] = .error (.err (.noRepeatEnd 0)) :=
  ⟨⟨_, _, rfl, rfl, rfl⟩, ⟨_, _, rfl, rfl, rfl⟩, ⟨rfl, fun m => by cases m <;> decide⟩, rfl⟩

/-- C90: it has to be a bar line without a number.  Inside an ending a Start is passed over, so
that the score can be played though the part before, whose ending is not closed, cannot. -/
theorem C90_number_proviso : ∃ (pre post : List Bar) (x xl xr : Bar), BarsOk (pre ++ x :: post) ∧
    JumpFree (pre ++ x :: post) ∧ Has x .Start ∧ LosesStart x xl ∧ StartAlone x xr ∧ ∀ ip tune,
      (∃ r, renderRegion ip tune (pre ++ x :: post) = .ok r) ∧ ∀ r, renderRegion ip tune (pre ++ [xl]) ≠ .ok r :=
  ⟨[⟨96, none, none, { var1 := true }⟩], [⟨288, none, none, {}⟩], ⟨192, none, none, { start := true, var2 := true }⟩,
    ⟨192, none, none, { var2 := true }⟩, ⟨192, none, none, { start := true }⟩, ⟨by decide, by decide⟩,
    by unfold JumpFree; decide, by decide, ⟨rfl, fun m => by cases m <;> decide⟩, ⟨rfl, fun m => by cases m <;> decide⟩,
    fun ip tune => ⟨⟨_, rfl⟩, fun r h => by cases h⟩⟩

/-- C90: there must be no marks for a jump.  A D.S. after the Start may go back to a Segno before
it, and does not find it if the score is cut. -/
theorem C90_jump_proviso : ∃ (pre post : List Bar) (x xl xr : Bar), BarsOk (pre ++ x :: post) ∧ Has x .Start ∧
    endingNo x = none ∧ LosesStart x xl ∧ StartAlone x xr ∧ ∀ ip tune,
      (∃ r, renderRegion ip tune (pre ++ x :: post) = .ok r) ∧ ∀ r, renderRegion ip tune (xr :: post) ≠ .ok r :=
  ⟨[⟨96, none, none, { segno := true }⟩], [⟨288, none, none, { end_ := true }⟩, ⟨384, none, none, { ds := true }⟩],
    ⟨192, none, none, { start := true }⟩, ⟨192, none, none, {}⟩, ⟨192, none, none, { start := true }⟩,
    ⟨by decide, by decide⟩, by decide, by decide, ⟨rfl, fun m => by cases m <;> decide⟩,
    ⟨rfl, fun m => by cases m <;> decide⟩, fun ip tune => ⟨⟨_, rfl⟩, fun r h => by cases h⟩⟩

end Klavier
