import Verif.Lemmas.RenderError

/-! # Every fault keeps the score from being rendered -/
set_option autoImplicit false
namespace Klavier
open Spec

theorem stepLoop_append (sg : Option Nat) (l r : List Bar) : ∀ (st st' : RenderState) (rs : List SimpleRegion),
    stepLoop sg st (l ++ r) = .ok (rs, st') →
    ∃ r1 s1 r2, stepLoop sg st l = .ok (r1, s1) ∧ stepLoop sg s1 r = .ok (r2, st') := by
  induction l with
  | nil => intro st st' rs h; exact ⟨[], st, rs, rfl, h⟩
  | cons x l ih =>
    intro st st' rs h
    rw [List.cons_append, stepLoop, RR_bind_eq_ok] at h
    obtain ⟨⟨r1, s1⟩, h1, h⟩ := h
    rw [RR_bind_eq_ok] at h
    obtain ⟨⟨r2, s2⟩, h2, h⟩ := h
    simp only [RR_pure, Except.ok.injEq, Prod.mk.injEq] at h
    obtain ⟨_, rfl⟩ := h
    obtain ⟨q1, t1, q2, k1, k2⟩ := ih s1 s2 r2 h2
    refine ⟨r1 ++ q1, t1, q2, ?_, k2⟩
    rw [stepLoop, h1, RR_bind_ok]
    dsimp only
    rw [k1]
    rfl

theorem stepLoop_cons {sg : Option Nat} {x : Bar} {l : List Bar} {st st' : RenderState} {rs : List SimpleRegion}
    (h : stepLoop sg st (x :: l) = .ok (rs, st')) :
    ∃ r1 s1 r2, renderStep sg st x = .ok (r1, s1) ∧ stepLoop sg s1 l = .ok (r2, st') := by
  rw [stepLoop, RR_bind_eq_ok] at h
  obtain ⟨⟨r1, s1⟩, h1, h⟩ := h
  rw [RR_bind_eq_ok] at h
  obtain ⟨⟨r2, s2⟩, h2, h⟩ := h
  simp only [RR_pure, Except.ok.injEq, Prod.mk.injEq] at h
  obtain ⟨_, rfl⟩ := h
  exact ⟨r1, s1, r2, h1, h2⟩

/-- A state that a kind of bars keeps. -/
theorem stepLoop_keep {sg : Option Nat} {st : RenderState} {l : List Bar}
    (hk : ∀ x ∈ l, ∀ r s', renderStep sg st x = .ok (r, s') → s' = st) :
    ∀ {st' : RenderState} {rs : List SimpleRegion}, stepLoop sg st l = .ok (rs, st') → st' = st := by
  induction l with
  | nil => intro st' rs h; cases h; rfl
  | cons x l ih =>
    intro st' rs h
    obtain ⟨r1, s1, r2, h1, h2⟩ := stepLoop_cons h
    have := hk x (by simp) r1 s1 h1
    subst this
    exact ih (fun y hy => hk y (by simp [hy])) h2

theorem keep_idle {sg : Option Nat} {x : Bar} {r : List SimpleRegion} {s' : RenderState} (hq : Quiet .first x)
    (h : renderStep sg .idle x = .ok (r, s')) : s' = .idle := by
  obtain ⟨h1, h2, h3⟩ := hq
  simp only [Has] at h1 h2
  simp [renderStep, h1, h2, endingNo_none.1 h3] at h
  exact h.2.symm

theorem keep_seq {sg : Option Nat} {x : Bar} {r : List SimpleRegion} {s' : RenderState} {s : Nat} (hq : Quiet .plain x)
    (h : renderStep sg (.seq s) x = .ok (r, s')) : s' = .seq s := by
  obtain ⟨h1, h2⟩ := hq
  simp only [Has] at h1 h2
  simp [renderStep, h1, h2] at h
  exact h.2.symm

theorem keep_opened {sg : Option Nat} {x : Bar} {r : List SimpleRegion} {s' : RenderState} {s : Nat} (hq : Quiet .opened x)
    (h : renderStep sg (.repeatStart s) x = .ok (r, s')) : s' = .repeatStart s := by
  obtain ⟨h1, h2, h3, h4, h5⟩ := hq
  simp only [Has] at h1 h2 h3 h4
  simp [renderStep, h1, h2, h3, h4, endingNo_none.1 h5] at h
  exact h.2.symm

theorem step_opens {sg : Option Nat} {st : RenderState} {x : Bar} {r : List SimpleRegion} {s' : RenderState} (hs : Has x .Start)
    (hn : endingNo x = none) (h : renderStep sg st x = .ok (r, s')) : s' = .repeatStart x.startTick := by
  simp only [Has] at hs
  have hn := endingNo_none.1 hn
  by_cases he : x.repeats.contains .End = true
  · cases st <;> simp [renderStep, hs, he, fail] at h <;> exact h.2.symm
  · cases st with
    | variation s ts =>
      simp only [renderStep, he, hn, hs, Bool.false_eq_true, if_false, if_true] at h
      rw [RR_bind_eq_ok] at h
      obtain ⟨_, _, h⟩ := h
      rw [RR_bind_eq_ok] at h
      obtain ⟨_, _, h⟩ := h
      simp only [RR_pure, Except.ok.injEq, Prod.mk.injEq] at h
      exact h.2.symm
    | idle => simp [renderStep, hs, he] at h; exact h.2.symm
    | seq s => simp [renderStep, hs, he] at h; exact h.2.symm
    | repeatStart s => simp [renderStep, hs, he, fail] at h

theorem step_end {sg : Option Nat} {st : RenderState} {x : Bar} {r : List SimpleRegion} {s' : RenderState} (he : Has x .End)
    (hs : ¬ Has x .Start) (h : renderStep sg st x = .ok (r, s')) : s' = .seq x.startTick := by
  simp only [Has] at hs he
  cases st <;> simp [renderStep, hs, he, fail] at h <;> exact h.2.symm

/-- No bar opens a repeat and carries an ending number (true of every set of marks
that can be built). -/
def Separate (bars : List Bar) : Prop := ∀ x ∈ bars, Has x .Start → endingNo x = none

section
variable {sg : Option Nat} {bars : List Bar} {rs : List SimpleRegion} {st : RenderState}

theorem state_first (hq : ∀ z ∈ bars, Quiet .first z) (h : stepLoop sg .idle bars = .ok (rs, st)) : st = .idle :=
  stepLoop_keep (fun x hx _ _ hr => keep_idle (hq x hx) hr) h

theorem state_open {s : Nat} (hsep : Separate bars) (ho : Open bars s) (h : stepLoop sg .idle bars = .ok (rs, st)) :
    st = .repeatStart s := by
  obtain ⟨l, y, r, rfl, rfl, h3, h4⟩ := ho
  obtain ⟨r1, s1, r2, k1, k2⟩ := stepLoop_append sg l _ _ _ _ h
  obtain ⟨q1, t1, q2, m1, m2⟩ := stepLoop_cons k2
  have := step_opens h3 (hsep y (by simp) h3) m1
  subst this
  exact stepLoop_keep (fun x hx _ _ hr => keep_opened (h4 x hx) hr) m2

theorem Separate.left {l r : List Bar} (h : Separate (l ++ r)) : Separate l := fun x hx => h x (by simp [hx])

theorem state_ending {k : Nat} {ts : List Nat} (he : Endings k bars ts) :
    ∀ (s : Nat) (p : List Nat) (rest : List Bar) (x : Bar) (st : RenderState) (rs : List SimpleRegion), bars = x :: rest → p.length + 1 = k → k + ts.length ≤ 5 →
      stepLoop sg (.variation s (p ++ [x.startTick])) rest = .ok (rs, st) → st = .variation s (p ++ ts) := by
  have keep : ∀ {k s : Nat} {p : List Nat} {y : Bar} {r : List SimpleRegion} {s' : RenderState}, p.length = k → k ≤ 4 → InEnding k y →
      renderStep sg (.variation s p) y = .ok (r, s') → s' = .variation s p := by
    intro k s p y r s' hp hk hy h
    obtain ⟨h1, h2, h3, h4⟩ := hy
    obtain ⟨v, hv, hval⟩ := endingNo_some.1 h4
    simp only [Has] at h1 h2 h3
    have hmod : p.length % 256 = p.length := Nat.mod_eq_of_lt (by omega)
    have hv2 : v.value = p.length := by omega
    simp [renderStep, h1, h2, h3, hv, hmod, hv2] at h
    exact h.2.symm
  induction he with
  | @last k a xs hq =>
    intro s p rest x st rs hb hp hk h
    cases hb
    exact stepLoop_keep (fun y hy _ _ hr => keep (by simpa using hp) (by simp at hk; omega) (hq y hy) hr) h
  | @more k a y xs ys ts h1 h2 h3 ih =>
    intro s p rest x st rs hb hp hk h
    cases hb
    simp only [List.length_cons] at hk
    obtain ⟨r1, s1, r2, k1, k2⟩ := stepLoop_append sg xs _ _ _ _ h
    have := stepLoop_keep (fun y hy _ _ hr => keep (by simpa using hp) (by omega) (h1 y hy) hr) k1
    subst this
    obtain ⟨q1, t1, q2, m1, m2⟩ := stepLoop_cons k2
    have hstep : t1 = .variation s (p ++ [a.startTick] ++ [y.startTick]) := by
      obtain ⟨g1, g2, g3, g4⟩ := h2
      obtain ⟨v, hv, hval⟩ := endingNo_some.1 g4
      simp only [Has] at g1 g2 g3
      have hmod : (p ++ [a.startTick]).length % 256 = p.length + 1 := by
        rw [List.length_append]
        exact Nat.mod_eq_of_lt (by simp; omega)
      have hv2 : v.value = p.length + 1 + 1 := by omega
      simp only [renderStep, g1, g2, g3, hv, hmod, hv2, Bool.false_eq_true, if_false, if_true, or_self] at m1
      simp only [Nat.add_eq_left, Nat.one_ne_zero, if_false, Except.ok.injEq, Prod.mk.injEq] at m1
      exact m1.2.symm
    subst hstep
    have := ih s (p ++ [a.startTick]) ys y st q2 rfl (by simp; omega) (by omega) m2
    rw [this]
    simp

theorem state_endings {ts : List Nat} (hsep : Separate bars) (he : InEndings bars ts)
    (h : stepLoop sg .idle bars = .ok (rs, st)) : ∃ s, st = .variation s ts := by
  obtain ⟨l, v, r, rfl, h2, h3⟩ := he
  obtain ⟨r1, s1, r2, k1, k2⟩ := stepLoop_append sg l _ _ _ _ h
  obtain ⟨q1, t1, q2, m1, m2⟩ := stepLoop_cons k2
  have hlen := Endings_length h3 (by decide)
  have go : ∃ s, t1 = .variation s [v.startTick] := by
    rcases h2 with ⟨hq, g1, g2, g3⟩ | ⟨⟨s, ho⟩, g1, g2, g4, g5, g3⟩
    · have := state_first hq k1
      subst this
      obtain ⟨w, hw, hval⟩ := endingNo_some.1 g3
      have : w = .VI1 := by revert hval; cases w <;> decide
      subst this
      simp only [Has] at g1 g2
      simp [renderStep, g1, g2, hw] at m1
      exact ⟨0, m1.2.symm⟩
    · have := state_open hsep.left ho k1
      subst this
      obtain ⟨w, hw, hval⟩ := endingNo_some.1 g3
      have : w = .VI1 := by revert hval; cases w <;> decide
      subst this
      simp only [Has] at g1 g2 g4 g5
      simp [renderStep, g1, g2, g4, g5, hw] at m1
      exact ⟨s, m1.2.symm⟩
  obtain ⟨s, rfl⟩ := go
  exact ⟨s, by simpa using state_ending h3 s [] r v st q2 rfl rfl (by omega) m2⟩

theorem state_closed {s : Nat} (hsep : Separate bars) (hc : Closed bars s) (h : stepLoop sg .idle bars = .ok (rs, st)) :
    st = .seq s := by
  obtain ⟨l, y, r, rfl, rfl, h3, h4, h5⟩ := hc
  obtain ⟨r1, s1, r2, k1, k2⟩ := stepLoop_append sg l _ _ _ _ h
  obtain ⟨q1, t1, q2, m1, m2⟩ := stepLoop_cons k2
  have : t1 = .seq y.startTick := by
    by_cases he : Has y .End
    · exact step_end he h3 m1
    · rcases h4 with h4 | ⟨h4, ts, h6⟩
      · exact absurd h4 he
      · obtain ⟨s, rfl⟩ := state_endings hsep.left h6 k1
        simp only [Has] at he h3
        simp only [renderStep, he, endingNo_none.1 h4, h3, Bool.false_eq_true, if_false] at m1
        rw [RR_bind_eq_ok] at m1
        obtain ⟨_, _, m1⟩ := m1
        rw [RR_bind_eq_ok] at m1
        obtain ⟨_, _, m1⟩ := m1
        simp only [RR_pure, Except.ok.injEq, Prod.mk.injEq] at m1
        exact m1.2.symm
  subst this
  exact stepLoop_keep (fun x hx _ _ hr => keep_seq (h5 x hx) hr) m2

end

/-- What rendering needs, bar by bar. -/
theorem render_steps {bars : List Bar} (hb : BarsOk bars) {ip : Bool} {tune : Rhythm} {c : CompoundRegion}
    {w : List RenderRegionWarning} (h : renderRegion ip tune bars = .ok (c, w)) :
    ∃ rs st, stepLoop (marks bars .Segno).head? .idle bars = .ok (rs, st) ∧ (st = .idle ∨ ∃ s, st = .seq s) := by
  obtain ⟨_, ⟨ps, h1, _⟩, _⟩ := (render_ok_iff hb.1 ip tune c w).1 h
  obtain ⟨rs, st, z, k1, k2, _⟩ := (stepLoop_iff (marks bars .Segno).head? bars _).2 ⟨ps, h1, rfl⟩
  refine ⟨rs, st, k1, ?_⟩
  cases st with
  | idle => exact .inl rfl
  | seq s => exact .inr ⟨s, rfl⟩
  | repeatStart s => cases k2
  | variation s ts => cases k2

/-! ## The jump -/
namespace GlobalRepeatBuilder

theorem ofPairs_lt {l : List (Nat × Nat)} {S : IntervalSet} (h : IntervalSet.ofPairs true l = .ok S) : ∀ p ∈ l, p.1 ≤ p.2 := by
  induction l generalizing S with
  | nil => simp
  | cons q l ih =>
    obtain ⟨lo, hi⟩ := q
    by_cases hq : lo ≤ hi
    · simp only [IntervalSet.ofPairs, hq, if_true] at h
      rw [R_bind_eq_ok] at h
      obtain ⟨S', h1, _⟩ := h
      intro p hp
      rcases List.mem_cons.1 hp with rfl | hp
      · exact hq
      · exact ih h1 p hp
    · simp [IntervalSet.ofPairs, hq] at h

theorem toIntervalSet_inv {ip : Bool} {s f t : Nat} {bars : List Bar} {S : IntervalSet}
    (h : toIntervalSet ip s (marks bars .Fine).head? (some (f, t)) = .ok S) :
    0 < f ∧ (ip = true → s < f ∧ t < endTick bars) := by
  simp only [toIntervalSet, endTick_eq] at h
  rw [R_bind_eq_ok] at h
  obtain ⟨a, h1, h⟩ := h
  rw [R_bind_eq_ok] at h
  obtain ⟨b, h2, h⟩ := h
  have sub : ∀ {x y : Nat}, subU32 x 1 = .ok y → 1 ≤ x ∧ y = x - 1 := by
    intro x y hxy
    unfold subU32 at hxy
    split at hxy
    · cases hxy; exact ⟨by assumption, rfl⟩
    · cases hxy
  have h1 := sub h1
  have h2 := sub h2
  refine ⟨by omega, ?_⟩
  rintro rfl
  have h3 := ofPairs_lt h (s, a) (by simp)
  have h4 := ofPairs_lt h (t, b) (by simp)
  simp only at h3 h4
  omega

theorem build_ok {bars : List Bar} (hb : BarsOk bars) (hm : MarksOk bars) {ip : Bool} {tune : Rhythm}
    {r : Option GlobalRepeat × List RenderRegionWarning} (h : (builtOf tune bars).build ip = .ok r) : JumpOk ip tune bars := by
  have hcl := codaOf_cases _ hm.2.2.2
  have hcoda : ∀ {f t}, marks bars .Coda = [f, t] → t ≤ U32_MAX := by
    intro f t hc
    have : t ∈ marks bars .Coda := by simp [hc]
    obtain ⟨x, h1, _, h3⟩ := mem_marks.1 this
    have := hb.2 x h1
    omega
  have lift : ∀ {α : Type} {x : R α} {y : α}, liftR x = .ok y → x = .ok y := by
    intro α x y h
    cases x with
    | ok a => cases h; rfl
    | error p => cases h
  refine ⟨fun d hds => ?_, fun d first hdc hfi => ?_⟩
  · have hdc : marks bars .Dc = [] := by
      have := hm.1
      rw [hds] at this
      simp only [List.length_singleton] at this
      exact List.length_eq_zero_iff.1 (by omega)
    have hbuild : (builtOf tune bars).build ip = (do
        let segno ← (builtOf tune bars).dsSegno d
        let coda ← (builtOf tune bars).dsCoda
        let s ← liftR (toIntervalSet ip segno (marks bars .Fine).head? coda)
        pure (some ⟨.ds d, (marks bars .Fine).head?, segno, coda, s⟩, [])) := by
      simp only [build, builtOf, jumpOf, hdc, hds]
    rw [hbuild, RR_bind_eq_ok] at h
    obtain ⟨s, h1, h⟩ := h
    rw [RR_bind_eq_ok] at h
    obtain ⟨cd, h2, h⟩ := h
    rw [RR_bind_eq_ok] at h
    obtain ⟨S, h3, _⟩ := h
    have hsg : marks bars .Segno = [s] := by
      simp only [dsSegno, builtOf] at h1
      split at h1
      · rename_i s hs
        cases h1
        exact head_eq hm.2.2.1 hs
      · cases h1
    refine ⟨s, hsg, ?_, ?_⟩
    · intro hl
      rcases hcl with hc | ⟨o, hc⟩ | ⟨f, t, hc⟩
      · rw [hc] at hl; cases hl
      · have hco : (builtOf tune bars).dsCoda = fail (.onlyOneCoda o) := by simp [dsCoda, builtOf, hc, codaOf]
        rw [hco] at h2
        cases h2
      · rw [hc] at hl; cases hl
    · rcases hcl with hc | ⟨o, hc⟩ | ⟨f, t, hc⟩
      · simp only [CodasOk, hc]
      · simp only [CodasOk, hc]
      · have hco : (builtOf tune bars).dsCoda = (do
            checkCodaPos f t (marks bars .Fine).head?
            pure (some (f, t))) := by simp [dsCoda, builtOf, hc, codaOf]
        rw [hco, RR_bind_eq_ok] at h2
        obtain ⟨_, h4, h2⟩ := h2
        cases h2
        have := toIntervalSet_inv (lift h3)
        simp only [CodasOk, hc]
        exact ⟨this.1, checkCodaPos_le h4 (hcoda hc), this.2⟩
  · have hbuild : (builtOf tune bars).build ip = (do
        let (segno, warnings) ← (builtOf tune bars).dcSegno d (if d = 0 then 0 else first) first
        let (coda, warnings) ← (builtOf tune bars).dcCoda warnings
        let s ← liftR (toIntervalSet ip segno (marks bars .Fine).head? coda)
        pure (some ⟨.dc d (if d = 0 then 0 else first), (marks bars .Fine).head?, segno, coda, s⟩, warnings)) := by
      simp only [build, builtOf, jumpOf, hdc, hfi, Option.getD_some]
    have hpos : 0 < first := by
      have := List.find?_some hfi
      simpa using this
    rw [hbuild, RR_bind_eq_ok] at h
    obtain ⟨⟨s, w⟩, h1, h⟩ := h
    dsimp only at h
    rw [RR_bind_eq_ok] at h
    obtain ⟨⟨cd, w'⟩, h2, h⟩ := h
    dsimp only at h
    rw [RR_bind_eq_ok] at h
    obtain ⟨S, h3, _⟩ := h
    have key : (marks bars .Segno = [] → (if d = 0 then 0 else first) + first ≤ U32_MAX) ∧ s = dcTarget tune bars first d := by
      rcases codaOf_cases (marks bars .Segno) (Nat.le_trans hm.2.2.1 (by decide)) with hs | ⟨s', hs⟩ | ⟨a, b, hs⟩
      · have e1 : (builtOf tune bars).segno = none := by simp [builtOf, hs]
        by_cases hfit : (if d = 0 then 0 else first) + first ≤ U32_MAX
        · refine ⟨fun _ => hfit, ?_⟩
          have hi := implicitSegno_ok (builtOf tune bars) d first hpos hfit
          have : dcTarget tune bars first d = dcReturn (openingRhythm tune bars).tickLen first d := by
            rw [dcTarget, hs]; rfl
          rw [this]
          simp only [dcSegno, e1, hi, liftR, RR_bind_ok, RR_pure, Except.ok.injEq, Prod.mk.injEq] at h1
          exact h1.1.symm
        · simp [dcSegno, e1, implicitSegno, addU32, hfit, liftR] at h1
      · refine ⟨fun c => (by rw [hs] at c; cases c), ?_⟩
        have : dcTarget tune bars first d = s' := by rw [dcTarget, hs]; rfl
        rw [this]
        simp [dcSegno, builtOf, hs] at h1
        exact h1.1.symm
      · have := hm.2.2.1
        rw [hs] at this
        simp at this
    refine ⟨key.1, ?_⟩
    rcases hcl with hc | ⟨o, hc⟩ | ⟨f, t, hc⟩
    · simp only [CodasOk, hc]
    · simp only [CodasOk, hc]
    · have hco : (builtOf tune bars).dcCoda w = (do
          checkCodaPos f t (marks bars .Fine).head?
          pure (some (f, t), w)) := by simp [dcCoda, builtOf, hc, codaOf]
      rw [hco, RR_bind_eq_ok] at h2
      obtain ⟨_, h4, h2⟩ := h2
      cases h2
      have := toIntervalSet_inv (lift h3)
      rw [key.2] at this
      simp only [CodasOk, hc]
      exact ⟨this.1, checkCodaPos_le h4 (hcoda hc), this.2⟩

theorem jump_builds {bars : List Bar} (hb : BarsOk bars) (hm : MarksOk bars) {ip : Bool} {tune : Rhythm} (h : JumpOk ip tune bars) :
    ∃ r, (builtOf tune bars).build ip = .ok r := by
  have one : ∀ {l : List Nat}, l.length ≤ 1 → l = [] ∨ ∃ a, l = [a] := by
    intro l hl
    match l with
    | [] => exact .inl rfl
    | [a] => exact .inr ⟨a, rfl⟩
    | a :: b :: l => simp at hl
  have h1 := hm.1
  rcases one (l := marks bars .Dc) (by omega) with hdc | ⟨d, hdc⟩
  · rcases one (l := marks bars .Ds) (by omega) with hds | ⟨d, hds⟩
    · exact ⟨_, build_none ip tune hdc hds⟩
    · obtain ⟨s, hs, hc, hok⟩ := h.1 d hds
      obtain ⟨g, hg, _⟩ := build_ds hb.1 ip tune hdc hds hs (by
        rcases codaOf_cases _ hm.2.2.2 with c | ⟨o, c⟩ | c
        · exact .inl c
        · rw [c] at hc; simp at hc
        · exact .inr c) hok
      exact ⟨_, hg⟩
  · cases hfi : firstBarEnd bars with
    | none =>
      have : (builtOf tune bars).build ip = .ok (none, []) := by simp [build, builtOf, jumpOf, hdc, hfi]
      exact ⟨_, this⟩
    | some first =>
      obtain ⟨k1, k2⟩ := h.2 d first hdc hfi
      obtain ⟨g, hg, _⟩ := build_dc hb.1 ip tune hm hdc hfi k1 k2
      exact ⟨_, hg⟩

end GlobalRepeatBuilder

end Klavier
