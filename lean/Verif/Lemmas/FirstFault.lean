import Verif.Lemmas.Refused

/-! # Which fault is reported -/
set_option autoImplicit false
namespace Klavier
open Spec GlobalRepeatBuilder

/-! ## The loop, bar line by bar line -/

theorem renderLoop_append (l r : List Bar) : ∀ (g : GlobalRepeatBuilder) (st : RenderState) {o},
    renderLoop g st (l ++ r) = .ok o → ∃ g' rs st', renderLoop g st l = .ok (g', rs, st') := by
  induction l with
  | nil => intro g st o _; exact ⟨g, [], st, rfl⟩
  | cons x l ih =>
    intro g st o h
    rw [List.cons_append, renderLoop, RR_bind_eq_ok] at h
    obtain ⟨g1, h1, h⟩ := h
    rw [RR_bind_eq_ok] at h
    obtain ⟨⟨r1, s1⟩, h2, h⟩ := h
    dsimp only at h
    rw [RR_bind_eq_ok] at h
    obtain ⟨o', h3, _⟩ := h
    obtain ⟨g', rs, st', h4⟩ := ih g1 s1 h3
    refine ⟨g', r1 ++ rs, st', ?_⟩
    rw [renderLoop, h1, RR_bind_ok, h2, RR_bind_ok]
    dsimp only
    rw [h4]
    rfl

theorem loop_fails (xs : List Bar) : ∀ (g : GlobalRepeatBuilder) (st : RenderState) (e : Fail),
    renderLoop g st xs = .error e →
    ∃ l x r g' rs st', xs = l ++ x :: r ∧ renderLoop g st l = .ok (g', rs, st') ∧
      (g'.onBar x = .error e ∨ ∃ g'', g'.onBar x = .ok g'' ∧ renderStep g''.segno st' x = .error e) := by
  induction xs with
  | nil => intro g st e h; cases h
  | cons x xs ih =>
    intro g st e h
    rw [renderLoop, RR_bind_eq_error] at h
    rcases h with h | ⟨g1, h1, h⟩
    · exact ⟨[], x, xs, g, [], st, rfl, rfl, .inl h⟩
    · rw [RR_bind_eq_error] at h
      rcases h with h | ⟨⟨r1, s1⟩, h2, h⟩
      · exact ⟨[], x, xs, g, [], st, rfl, rfl, .inr ⟨g1, h1, h⟩⟩
      · dsimp only at h
        rw [RR_bind_eq_error] at h
        rcases h with h | ⟨_, _, h⟩
        · obtain ⟨l, y, r, g', rs, st', k1, k2, k3⟩ := ih g1 s1 e h
          refine ⟨x :: l, y, r, g', r1 ++ rs, st', by rw [k1]; rfl, ?_, k3⟩
          rw [renderLoop, h1, RR_bind_ok, h2, RR_bind_ok]
          dsimp only
          rw [k2]
          rfl
        · cases h

theorem loop_parts {bars : List Bar} (hs : bars.Pairwise (fun x y => x.startTick < y.startTick)) (tune : Rhythm)
    (gf : GlobalRepeatBuilder) (rs : List SimpleRegion) (st : RenderState) :
    renderLoop (new tune) .idle bars = .ok (gf, rs, st) ↔
      (MarksOk bars ∧ gf = builtOf tune bars) ∧ stepLoop (marks bars .Segno).head? .idle bars = .ok (rs, st) := by
  rw [renderLoop_ok bars (new tune) .idle gf rs st hs (by intro s ts e; cases e), buildLoop_new hs]
  constructor
  · rintro ⟨⟨h1, rfl⟩, h2⟩
    exact ⟨⟨h1, rfl⟩, h2⟩
  · rintro ⟨⟨h1, rfl⟩, h2⟩
    exact ⟨⟨h1, rfl⟩, h2⟩

/-! ## Faults at one bar line -/

/-- The trouble is at the bar line `x` after `pre`; `segnos`: where a Segno is. -/
def FaultAt (segnos : List Nat) (pre : List Bar) (x : Bar) : Trouble → Prop
  | .err (.duplicatedRepeatStart t) => x.startTick = t ∧ Has x .Start ∧ ¬ Has x .End ∧ ∃ s, Open pre s
  | .err (.orphanRepeatEnd t) => x.startTick = t ∧ Has x .End ∧ ∃ s, Closed pre s
  | .err (.repeatInVariation t) => x.startTick = t ∧ Has x .End ∧ ∃ ts, InEndings pre ts
  | .err (.dcDsWhileRepeat t) => x.startTick = t ∧ (Has x .Dc ∨ Has x .Ds) ∧ ¬ Has x .Start ∧ ¬ Has x .End ∧ ∃ s, Open pre s
  | .err (.dcDsWhileVariation t) => x.startTick = t ∧ (Has x .Dc ∨ Has x .Ds) ∧ ¬ Has x .End ∧ endingNo x ≠ none ∧
      ∃ ts, InEndings pre ts
  | .err (.invalidRegionIndex t actual expected) => x.startTick = t ∧
      endingNo x = some actual.value ∧ actual ≠ expected ∧ ¬ Has x .End ∧
      ((expected = .VI1 ∧ ¬ Has x .Start ∧
          ((∀ z ∈ pre, Quiet .first z) ∨ (¬ Has x .Dc ∧ ¬ Has x .Ds ∧ ∃ s, Open pre s))) ∨
        (¬ Has x .Dc ∧ ¬ Has x .Ds ∧ ∃ ts, InEndings pre ts ∧ expected.value = ts.length + 1 ∧ actual.value ≠ ts.length))
  | .err (.segnoWhileVariation t) => x.startTick = t ∧ endingNo x = none ∧ ¬ Has x .End ∧ ∃ ts s first last, InEndings pre ts ∧
      s ∈ segnos ∧ ts.head? = some first ∧ ts.getLast? = some last ∧ first ≤ s ∧ s < last
  | .fifthEnding => ∃ ts, InEndings pre ts ∧ ts.length = 4 ∧ endingNo x ≠ none ∧ endingNo x ≠ some 4 ∧ ¬ Has x .End ∧
      ¬ Has x .Dc ∧ ¬ Has x .Ds
  | _ => False

theorem faultAt_of {ip : Bool} {tune : Rhythm} {bars : List Bar} {t : Trouble} (hr : t.rank = 4) (h : t.In ip tune bars) :
    ∃ pre x rest, bars = pre ++ x :: rest ∧ FaultAt (marks bars .Segno) pre x t := by
  cases t with
  | longFirstBar => simp [Trouble.rank] at hr
  | codasMisplaced => simp [Trouble.rank] at hr
  | fifthEnding =>
    obtain ⟨pre, x, rest, ts, h1, h2⟩ := h
    exact ⟨pre, x, rest, h1, ts, h2⟩
  | err e =>
    cases e with
    | duplicatedRepeatStart t => obtain ⟨pre, x, rest, s, h1, h2, h3, h4, h5⟩ := h; exact ⟨pre, x, rest, h1, h2, h3, h4, s, h5⟩
    | orphanRepeatEnd t => obtain ⟨pre, x, rest, s, h1, h2, h3, h4⟩ := h; exact ⟨pre, x, rest, h1, h2, h3, s, h4⟩
    | repeatInVariation t => obtain ⟨pre, x, rest, s, h1, h2, h3, h4⟩ := h; exact ⟨pre, x, rest, h1, h2, h3, s, h4⟩
    | dcDsWhileRepeat t =>
      obtain ⟨pre, x, rest, s, h1, h2, h3, h4, h5, h6⟩ := h; exact ⟨pre, x, rest, h1, h2, h3, h4, h5, s, h6⟩
    | dcDsWhileVariation t =>
      obtain ⟨pre, x, rest, s, h1, h2, h3, h4, h5, h6⟩ := h; exact ⟨pre, x, rest, h1, h2, h3, h4, h5, s, h6⟩
    | invalidRegionIndex t a b => exact h
    | segnoWhileVariation t =>
      obtain ⟨pre, x, rest, ts, s, f, l, h1, h2, h3, h4, h5⟩ := h
      exact ⟨pre, x, rest, h1, h2, h3, h4, ts, s, f, l, h5⟩
    | _ => first | exact False.elim h | (simp [Trouble.rank] at hr; done)

theorem of_faultAt {ip : Bool} {tune : Rhythm} {bars pre rest : List Bar} {x : Bar} {t : Trouble} (hb : bars = pre ++ x :: rest)
    (h : FaultAt (marks bars .Segno) pre x t) : t.In ip tune bars := by
  cases t with
  | longFirstBar => exact h.elim
  | codasMisplaced => exact h.elim
  | fifthEnding =>
    obtain ⟨ts, h2⟩ := h
    exact ⟨pre, x, rest, ts, hb, h2⟩
  | err e =>
    cases e with
    | duplicatedRepeatStart t => obtain ⟨h2, h3, h4, s, h5⟩ := h; exact ⟨pre, x, rest, s, hb, h2, h3, h4, h5⟩
    | orphanRepeatEnd t => obtain ⟨h2, h3, s, h4⟩ := h; exact ⟨pre, x, rest, s, hb, h2, h3, h4⟩
    | repeatInVariation t => obtain ⟨h2, h3, s, h4⟩ := h; exact ⟨pre, x, rest, s, hb, h2, h3, h4⟩
    | dcDsWhileRepeat t => obtain ⟨h2, h3, h4, h5, s, h6⟩ := h; exact ⟨pre, x, rest, s, hb, h2, h3, h4, h5, h6⟩
    | dcDsWhileVariation t => obtain ⟨h2, h3, h4, h5, s, h6⟩ := h; exact ⟨pre, x, rest, s, hb, h2, h3, h4, h5, h6⟩
    | invalidRegionIndex t a b => exact ⟨pre, x, rest, hb, h⟩
    | segnoWhileVariation t =>
      obtain ⟨h2, h3, h4, ts, s, f, l, h5⟩ := h
      exact ⟨pre, x, rest, ts, s, f, l, hb, h2, h3, h4, h5⟩
    | _ => exact h.elim

theorem faultAt_rank {segnos : List Nat} {pre : List Bar} {x : Bar} {t : Trouble} (h : FaultAt segnos pre x t) : t.rank = 4 := by
  cases t with
  | longFirstBar => exact h.elim
  | codasMisplaced => exact h.elim
  | fifthEnding => rfl
  | err e => cases e <;> first | rfl | exact h.elim

/-- How a trouble ends the rendering, if it comes to light at a bar line. -/
def outcome : Trouble → Fail
  | .err e => .err e
  | _ => .panic .unwrap

theorem endingNo_value {x : Bar} {v : VarIndex} (h : endingNo x = some v.value) : x.repeats.regionIndex = some v := by
  obtain ⟨v', h1, h2⟩ := endingNo_some.1 h
  have : v' = v := by revert h2; cases v' <;> cases v <;> decide
  rw [h1, this]

/-- A fault at a bar line makes its step fail. -/
theorem fault_step {segnos : List Nat} {pre : List Bar} {x : Bar} {t : Trouble} {sg : Option Nat} {rs : List SimpleRegion}
    {st : RenderState} (hsep : Separate pre) (hl : segnos.length ≤ 1) (hst : stepLoop sg .idle pre = .ok (rs, st))
    (h : FaultAt segnos pre x t) : renderStep segnos.head? st x = .error (outcome t) := by
  cases t with
  | longFirstBar => exact h.elim
  | codasMisplaced => exact h.elim
  | fifthEnding =>
    obtain ⟨ts, h1, h2, h3, h4, h5, h6, h7⟩ := h
    obtain ⟨s, rfl⟩ := state_endings hsep h1 hst
    obtain ⟨n, hn'⟩ := Option.ne_none_iff_exists'.1 h3
    obtain ⟨v, hv, hval⟩ := endingNo_some.1 hn'
    have h8 : ¬ v.value = 4 := by
      intro c
      rw [hn', ← hval, c] at h4
      exact h4 rfl
    have h9 : ¬ v.value = 5 := by cases v <;> decide
    simp only [Has] at h5 h6 h7
    simp [renderStep, h2, h5, h6, h7, hv, h8, h9, VarIndex.fromValue, outcome]
  | err e =>
    cases e with
    | duplicatedRepeatStart t =>
      obtain ⟨rfl, h1, h2, s, h3⟩ := h
      have := state_open hsep h3 hst
      subst this
      simp only [Has] at h1 h2
      simp [renderStep, h1, h2, fail, outcome]
    | orphanRepeatEnd t =>
      obtain ⟨rfl, h1, s, h3⟩ := h
      have := state_closed hsep h3 hst
      subst this
      simp only [Has] at h1
      simp [renderStep, h1, fail, outcome]
    | repeatInVariation t =>
      obtain ⟨rfl, h1, ts, h3⟩ := h
      obtain ⟨s, rfl⟩ := state_endings hsep h3 hst
      simp only [Has] at h1
      simp [renderStep, h1, fail, outcome]
    | dcDsWhileRepeat t =>
      obtain ⟨rfl, h1, h2, h3, s, h4⟩ := h
      have := state_open hsep h4 hst
      subst this
      simp only [Has] at h1 h2 h3
      simp [renderStep, h1, h2, h3, fail, outcome]
    | dcDsWhileVariation t =>
      obtain ⟨rfl, h1, h2, h3, ts, h4⟩ := h
      obtain ⟨s, rfl⟩ := state_endings hsep h4 hst
      obtain ⟨n, hn⟩ := Option.ne_none_iff_exists'.1 h3
      obtain ⟨v, hv, _⟩ := endingNo_some.1 hn
      simp only [Has] at h1 h2
      simp [renderStep, h1, h2, hv, fail, outcome]
    | invalidRegionIndex t actual expected =>
      obtain ⟨rfl, h1, h2, h3, h4⟩ := h
      have hv := endingNo_value h1
      simp only [Has] at h3 h4
      rcases h4 with ⟨rfl, h4, h5⟩ | ⟨h4, h5, ts, h6, h7, h8⟩
      · rcases h5 with h5 | ⟨h5, h6, s, h7⟩
        · have := state_first h5 hst
          subst this
          simp [renderStep, h3, h4, hv, h2, fail, outcome]
        · have := state_open hsep h7 hst
          subst this
          simp [renderStep, h3, h4, h5, h6, hv, h2, fail, outcome]
      · obtain ⟨s, rfl⟩ := state_endings hsep h6 hst
        have hlen := InEndings_length h6
        have hmod : ts.length % 256 = ts.length := Nat.mod_eq_of_lt (by omega)
        have h9 : ¬ actual.value = ts.length + 1 := by
          rw [← h7]
          intro c
          apply h2
          revert c
          cases actual <;> cases expected <;> decide
        have h10 : VarIndex.fromValue (ts.length + 1) = .ok expected := by
          rw [← h7]
          cases expected <;> rfl
        simp [renderStep, h3, h4, h5, hv, hmod, h8, h9, h10, fail, outcome]
    | segnoWhileVariation t =>
      obtain ⟨rfl, h1, h2, ts, s, first, last, h3, h4, h5, h6, h7, h8⟩ := h
      obtain ⟨s', rfl⟩ := state_endings hsep h3 hst
      have hsg : segnos.head? = some s := by
        match hs : segnos with
        | [] => simp at h4
        | [a] => simp at h4; rw [h4]; rfl
        | a :: b :: l => simp at hl
      simp only [Has] at h2
      simp [renderStep, h2, endingNo_none.1 h1, checkSegno, hsg, h5, h6, h7, h8, fail, outcome]
    | _ => exact h.elim

theorem Separate.of_append {l r : List Bar} (h : Separate (l ++ r)) : Separate l := fun x hx => h x (by simp [hx])

theorem jumpTicks_length (l : List Bar) : (jumpTicks l).length = (marks l .Dc).length + (marks l .Ds).length := by
  induction l with
  | nil => rfl
  | cons x l ih =>
    have : jumpTicks (x :: l) = ((if Has x .Dc then [x.startTick] else []) ++ (if Has x .Ds then [x.startTick] else [])) ++
        jumpTicks l := rfl
    rw [this, marks_cons, marks_cons, List.length_append, List.length_append, List.length_append, List.length_append, ih]
    by_cases h1 : x.repeats.contains .Dc = true <;> by_cases h2 : x.repeats.contains .Ds = true <;>
      simp [at_, Has, h1, h2] <;> omega

/-- A mark given too often. -/
theorem marks_of_rank {ip : Bool} {tune : Rhythm} {bars : List Bar} {t : Trouble} (hr : t.rank < 4) (h : t.In ip tune bars) :
    (t.rank = 0 ∧ 2 ≤ (jumpTicks bars).length) ∨ (t.rank = 1 ∧ 2 ≤ (marks bars .Fine).length) ∨
    (t.rank = 2 ∧ 2 ≤ (marks bars .Segno).length) ∨ (t.rank = 3 ∧ 3 ≤ (marks bars .Coda).length) := by
  have long : ∀ {l : List Nat} {n : Nat} {k : List Nat}, l.take n = k → k.length = n → n ≤ l.length := by
    intro l n k h1 h2
    rw [← h1, List.length_take] at h2
    omega
  cases t with
  | longFirstBar => simp [Trouble.rank] at hr
  | codasMisplaced => simp [Trouble.rank] at hr
  | fifthEnding => simp [Trouble.rank] at hr
  | err e =>
    cases e with
    | duplicatedDsDc a b => exact .inl ⟨rfl, long h rfl⟩
    | duplicatedFine a b => exact .inr (.inl ⟨rfl, long h rfl⟩)
    | duplicatedSegno a b => exact .inr (.inr (.inl ⟨rfl, long h rfl⟩))
    | moreThanTwoCodas a b c => exact .inr (.inr (.inr ⟨rfl, long h rfl⟩))
    | _ => simp [Trouble.rank] at hr

/-- If the loop comes to the end of the bars, they have no fault that shows before. -/
theorem no_early {bars : List Bar} (hs : bars.Pairwise (fun x y => x.startTick < y.startTick)) (hsep : Separate bars) {tune : Rhythm}
    {o} (h : renderLoop (new tune) .idle bars = .ok o) (ip : Bool) (t : Trouble) (hr : t.rank ≤ 4) : ¬ t.In ip tune bars := by
  intro ht
  obtain ⟨g, rs, st⟩ := o
  obtain ⟨⟨hm, _⟩, hst⟩ := (loop_parts hs tune g rs st).1 h
  by_cases h4 : t.rank = 4
  · obtain ⟨pre, x, rest, hb, hf⟩ := faultAt_of h4 ht
    have hst' := hst
    rw [congrArg (stepLoop _ RenderState.idle) hb] at hst'
    obtain ⟨r1, s1, r2, k1, k2⟩ := stepLoop_append _ _ _ _ _ _ hst'
    obtain ⟨q1, t1, q2, m1, _⟩ := stepLoop_cons k2
    have := fault_step (by rw [hb] at hsep; exact hsep.left) hm.2.2.1 k1 hf
    rw [this] at m1
    cases m1
  · have := jumpTicks_length bars
    obtain ⟨m1, m2, m3, m4⟩ := hm
    rcases marks_of_rank (by omega) ht with ⟨_, h⟩ | ⟨_, h⟩ | ⟨_, h⟩ | ⟨_, h⟩ <;> omega

/-! ## The order at one bar line -/

/-- Which of the marks given too often is reported. -/
theorem onBar_order {g : GlobalRepeatBuilder} {x : Bar} {e : Fail} (h : g.onBar x = .error e) :
    (∃ p q, e = .err (.duplicatedDsDc p q)) ∨
    ((g.dsDc.toList ++ jumpsAt (g.noteFirstBar x).firstBarLen x).length ≤ 1 ∧
      ((∃ p q, e = .err (.duplicatedFine p q)) ∨
      ((g.fine.toList ++ at_ (x.repeats.contains .Fine) x.startTick).length ≤ 1 ∧
        ((∃ p q, e = .err (.duplicatedSegno p q)) ∨
        ((g.segno.toList ++ at_ (x.repeats.contains .Segno) x.startTick).length ≤ 1 ∧
          ∃ p q r, e = .err (.moreThanTwoCodas p q r)))))) := by
  have hn := noteFirstBar_eq g x
  have n1 : (g.noteFirstBar x).dsDc = g.dsDc := by rw [hn]
  have n2 : (g.noteFirstBar x).fine = g.fine := by rw [hn]
  have n3 : (g.noteFirstBar x).segno = g.segno := by rw [hn]
  rw [onBar, RR_bind_eq_error] at h
  clear hn
  generalize g.noteFirstBar x = g0 at n1 n2 n3 h ⊢
  have isTrue : ∀ {b : Bool} {f : GlobalRepeatBuilder → RR GlobalRepeatBuilder} {g : GlobalRepeatBuilder} {e : Fail},
      addIf b f g = .error e → f g = .error e := by
    intro b f g e h
    cases b with
    | false => cases h
    | true => exact h
  rcases h with h | ⟨g1, h1, h⟩
  · have h := isTrue h
    simp only [addingDc] at h
    split at h <;> cases h <;> exact .inl ⟨_, _, rfl⟩
  rw [addDc_ok] at h1
  rw [RR_bind_eq_error] at h
  rcases h with h | ⟨g2, h2, h⟩
  · have h := isTrue h
    simp only [addingDs] at h
    split at h <;> cases h <;> exact .inl ⟨_, _, rfl⟩
  rw [addDs_ok] at h2
  refine .inr ⟨?_, ?_⟩
  · have k := h2.1
    rw [h1.2] at k
    dsimp only at k
    rw [head_toList h1.1, n1, List.append_assoc] at k
    exact k
  rw [RR_bind_eq_error] at h
  rcases h with h | ⟨g3, h3, h⟩
  · have h := isTrue h
    simp only [addingFine] at h
    split at h <;> cases h
    exact .inl ⟨_, _, rfl⟩
  rw [addFine_ok] at h3
  refine .inr ⟨?_, ?_⟩
  · have k := h3.1
    rw [h2.2, h1.2] at k
    dsimp only at k
    rw [n2] at k
    exact k
  rw [RR_bind_eq_error] at h
  rcases h with h | ⟨g4, h4, h⟩
  · have h := isTrue h
    simp only [addingSegno] at h
    split at h <;> cases h
    exact .inl ⟨_, _, rfl⟩
  rw [addSegno_ok] at h4
  refine .inr ⟨?_, ?_⟩
  · have k := h4.1
    rw [h3.2, h2.2, h1.2] at k
    dsimp only at k
    rw [n3] at k
    exact k
  have h := isTrue h
  simp only [addingCoda] at h
  split at h <;> cases h
  exact ⟨_, _, _, rfl⟩

theorem step_rank {sg : Option Nat} {st : RenderState} {x : Bar} {e : RenderRegionError} (h : renderStep sg st x = .error (.err e)) :
    (Trouble.err e).rank = 4 := by
  cases st with
  | idle =>
    simp only [renderStep, fail] at h
    repeat' split at h
    all_goals first | cases h; rfl | cases h
  | seq s =>
    simp only [renderStep, fail] at h
    repeat' split at h
    all_goals first | cases h; rfl | cases h
  | repeatStart s =>
    simp only [renderStep, fail] at h
    repeat' split at h
    all_goals first | cases h; rfl | cases h
  | variation s ts =>
    simp only [renderStep, fail] at h
    split at h
    · cases h; rfl
    · split at h
      · repeat' split at h
        all_goals first | cases h; rfl | cases h
      · rw [RR_bind_eq_error] at h
        rcases h with h | ⟨_, _, h⟩
        · simp only [checkSegno, fail] at h
          repeat' split at h
          all_goals first | cases h; rfl | cases h
        · rw [RR_bind_eq_error] at h
          rcases h with h | ⟨_, _, h⟩
          · unfold createVariation liftR at h
            repeat' split at h
            all_goals cases h
          · cases h

theorem onBar_loop {g g' g'' : GlobalRepeatBuilder} {x : Bar} : ∀ {l : List Bar}, buildLoop g l = .ok g' → g'.onBar x = .ok g'' →
    buildLoop g (l ++ [x]) = .ok g'' := by
  intro l
  induction l generalizing g with
  | nil =>
    intro h1 h2
    cases h1
    rw [List.nil_append, buildLoop, h2]
    rfl
  | cons y l ih =>
    intro h1 h2
    rw [buildLoop, RR_bind_eq_ok] at h1
    obtain ⟨g1, h1, h3⟩ := h1
    rw [List.cons_append, buildLoop, h1, RR_bind_ok]
    exact ih h3 h2

/-- How the failure is classified. -/
def Ends (f : Fail) (t : Trouble) : Prop :=
  match f with
  | .err e => t = .err e
  | .panic _ => ∀ e, t ≠ .err e

private theorem take_split (l : List Bar) (x : Bar) (r : List Bar) : (l ++ x :: r).take (l.length + 1) = l ++ [x] := by
  have : l ++ x :: r = (l ++ [x]) ++ r := by simp
  rw [this]
  exact List.take_left' (by simp)

theorem early_seen {bars : List Bar} (hs : bars.Pairwise (fun x y => x.startTick < y.startTick)) (hsep : Separate bars)
    (ip : Bool) {tune : Rhythm} {l r : List Bar} {x : Bar} (hb : bars = l ++ x :: r)
    {o} (h : renderLoop (new tune) .idle l = .ok o) {n : Nat} {t : Trouble} (ht : t.SeenAfter ip tune bars n) : l.length < n := by
  obtain ⟨h1, h2, h3⟩ := ht
  by_cases hn : n ≤ l.length
  · exfalso
    have hlen : bars.length = l.length + (r.length + 1) := by rw [hb]; simp
    have hr : t.rank ≤ 4 := by
      by_cases c : 5 ≤ t.rank
      · have := h3 c
        omega
      · omega
    have e : l = bars.take n ++ l.drop n := by
      rw [hb, List.take_append_of_le_length hn, List.take_append_drop]
    have e' : bars = bars.take n ++ bars.drop n := (List.take_append_drop n bars).symm
    rw [e] at h
    obtain ⟨g', rs, st', h4⟩ := renderLoop_append _ _ _ _ h
    have hs' := hs.sublist (List.take_sublist n bars)
    exact no_early hs' (by rw [e'] at hsep; exact hsep.of_append) h4 ip t hr h2
  · omega

/-- Rendering ends with the trouble that comes to light first. -/
theorem loop_first {bars : List Bar} (hs : bars.Pairwise (fun x y => x.startTick < y.startTick)) (hsep : Separate bars)
    (ip : Bool) {tune : Rhythm} {f : Fail} (h : renderLoop (new tune) .idle bars = .error f) :
    ∃ t, Ends f t ∧ t.rank ≤ 4 ∧ t.IsFirst ip tune bars := by
  obtain ⟨l, x, r, g', rs, st', hb, hl, hx⟩ := loop_fails bars _ _ _ h
  have htake : bars.take (l.length + 1) = l ++ [x] := by rw [hb]; exact take_split l x r
  have hlen : l.length + 1 ≤ bars.length := by rw [hb]; simp
  have hsl : l.Pairwise (fun x y => x.startTick < y.startTick) := by
    rw [hb] at hs
    exact (List.pairwise_append.1 hs).1
  obtain ⟨hi, hg⟩ := Inv_loop l [] _ _ _ _ _ (by simp [Inv]) hl
  simp only [List.nil_append] at hi
  have finish : ∀ t : Trouble, Ends f t → t.In ip tune (l ++ [x]) → t.rank ≤ 4 →
      (∀ t' : Trouble, t'.In ip tune (l ++ [x]) → t.rank ≤ t'.rank) → ∃ t, Ends f t ∧ t.rank ≤ 4 ∧ t.IsFirst ip tune bars := by
    intro t h1 h2 h3 h4
    refine ⟨t, h1, h3, l.length + 1, ⟨hlen, by rw [htake]; exact h2, fun c => by omega⟩, ?_⟩
    intro n' t' ht'
    have := early_seen hs hsep ip hb hl ht'
    by_cases hn : n' = l.length + 1
    · subst hn
      obtain ⟨_, k, _⟩ := ht'
      rw [htake] at k
      exact .inr ⟨rfl, h4 t' k⟩
    · exact .inl (by omega)
  rcases hx with hx | ⟨g'', hx, hx'⟩
  · obtain ⟨b1, b2, b3, b4⟩ := buildLoop_new' hg
    obtain ⟨e, rfl, he⟩ := marks_error (bars := l ++ [x]) rfl hg hx
    have cut : ∀ m, marks (l ++ [x]) m = marks l m ++ at_ (x.repeats.contains m) x.startTick := by
      intro m
      rw [marks_append, marks_cons]
      simp [marks]
    have cutj : (jumpTicks (l ++ [x])).length = (g'.dsDc.toList ++ jumpsAt (g'.noteFirstBar x).firstBarLen x).length := by
      rw [jumpTicks_append, ← b1]
      simp only [List.length_append, List.length_map, jumpsAt]
      congr 1
      by_cases h1 : x.repeats.contains .Dc = true <;> by_cases h2 : x.repeats.contains .Ds = true <;>
        simp [jumpTicks, at_, Has, h1, h2]
    have low : ∀ {k : Nat}, (Trouble.err e).rank = k → k < 4 →
        ((1 ≤ k → (jumpTicks (l ++ [x])).length ≤ 1) ∧ (2 ≤ k → (marks (l ++ [x]) .Fine).length ≤ 1) ∧
          (3 ≤ k → (marks (l ++ [x]) .Segno).length ≤ 1)) → ∃ t, Ends (.err e) t ∧ t.rank ≤ 4 ∧ t.IsFirst ip tune bars := by
      rintro k rfl hk ⟨h1, h2, h3⟩
      refine finish (.err e) rfl he (by omega) ?_
      intro t' ht'
      by_cases c : t'.rank < 4
      · rcases marks_of_rank c ht' with ⟨c1, c2⟩ | ⟨c1, c2⟩ | ⟨c1, c2⟩ | ⟨c1, c2⟩ <;> omega
      · omega
    rcases onBar_order hx with ⟨p, q, he'⟩ | ⟨k1, ⟨p, q, he'⟩ | ⟨k2, ⟨p, q, he'⟩ | ⟨k3, p, q, r, he'⟩⟩⟩
    · cases he'
      exact low (k := 0) rfl (by decide) ⟨by omega, by omega, by omega⟩
    · cases he'
      exact low (k := 1) rfl (by decide) ⟨fun _ => by omega, by omega, by omega⟩
    · cases he'
      exact low (k := 2) rfl (by decide) ⟨fun _ => by omega, fun _ => by rw [cut, b2]; exact k2, by omega⟩
    · cases he'
      exact low (k := 3) rfl (by decide) ⟨fun _ => by omega, fun _ => by rw [cut, b2]; exact k2, fun _ => by rw [cut, b3]; exact k3⟩
  · have hg' := onBar_loop hg hx
    obtain ⟨b1, b2, b3, b4⟩ := buildLoop_new' hg'
    have hsg : ∀ s, g''.segno = some s → s ∈ marks (l ++ [x]) .Segno := by
      intro s hs
      rw [b3, hs]
      simp
    have more : ∀ t' : Trouble, t'.In ip tune (l ++ [x]) → 4 ≤ t'.rank := by
      intro t' ht'
      by_cases c : t'.rank < 4
      · exfalso
        have e1 : (jumpTicks (l ++ [x])).length ≤ 1 := by
          rw [← b1]
          cases g''.dsDc <;> simp
        have e2 : (marks (l ++ [x]) .Fine).length ≤ 1 := by
          rw [b2]
          cases g''.fine <;> simp
        have e3 : (marks (l ++ [x]) .Segno).length ≤ 1 := by
          rw [b3]
          cases g''.segno <;> simp
        have e4 : (marks (l ++ [x]) .Coda).length ≤ 2 := by
          rw [b4]
          match g''.coda with
          | none => simp [codaList]
          | some (.one _) => simp [codaList]
          | some (.two _ _) => simp [codaList]
        rcases marks_of_rank c ht' with ⟨c1, c2⟩ | ⟨c1, c2⟩ | ⟨c1, c2⟩ | ⟨c1, c2⟩ <;> omega
      · omega
    rcases step_error (bars := l ++ [x]) rfl hsg hi hx' with ⟨e, rfl, he⟩ | ⟨rfl, ts, hts⟩
    · have hk := step_rank hx'
      exact finish (.err e) rfl he (by omega) (fun t' ht' => by have := more t' ht'; omega)
    · exact finish .fifthEnding (fun e c => by cases c) ⟨l, x, [], ts, rfl, hts⟩ (by decide)
        (fun t' ht' => by have := more t' ht'; simpa [Trouble.rank] using this)

/-! ## The end of the score -/

private theorem jumpTicks_cases {bars : List Bar} (hm : MarksOk bars) (h : jumpTicks bars ≠ []) :
    (∃ d, marks bars .Ds = [d] ∧ marks bars .Dc = []) ∨ ∃ d, marks bars .Dc = [d] ∧ marks bars .Ds = [] := by
  have h1 := jumpTicks_length bars
  have h2 := hm.1
  have h3 : (jumpTicks bars).length ≠ 0 := fun c => h (List.length_eq_zero_iff.1 c)
  match ha : marks bars .Ds, hb : marks bars .Dc with
  | [d], [] => exact .inl ⟨d, rfl, rfl⟩
  | [], [d] => exact .inr ⟨d, rfl, rfl⟩
  | [], [] => rw [ha, hb] at h1; exact absurd h1 h3
  | a :: l, b :: l' => rw [ha, hb] at h2; simp only [List.length_cons] at h2; omega
  | a :: b :: l, [] => rw [ha, hb] at h2; simp at h2
  | [], a :: b :: l => rw [ha, hb] at h2; simp at h2

private theorem lift_panic {α : Type} {x : R α} (h : ∀ a, x ≠ .ok a) : ∃ p, liftR x = .error (.panic p) := by
  cases x with
  | ok a => exact absurd rfl (h a)
  | error p => exact ⟨p, rfl⟩

/-- The build of a D.S., step by step. -/
private theorem build_ds_eq {bars : List Bar} {d : Nat} (ip : Bool) (tune : Rhythm) (hds : marks bars .Ds = [d]) (hdc : marks bars .Dc = []) :
    (builtOf tune bars).build ip = (do
        let segno ← (builtOf tune bars).dsSegno d
        let coda ← (builtOf tune bars).dsCoda
        let s ← liftR (toIntervalSet ip segno (marks bars .Fine).head? coda)
        pure (some ⟨.ds d, (marks bars .Fine).head?, segno, coda, s⟩, [])) := by
  simp only [build, builtOf, jumpOf, hdc, hds]

private theorem build_dc_eq {bars : List Bar} {d first : Nat} (ip : Bool) (tune : Rhythm) (hdc : marks bars .Dc = [d])
    (hfi : firstBarEnd bars = some first) : (builtOf tune bars).build ip = (do
        let (segno, warnings) ← (builtOf tune bars).dcSegno d (if d = 0 then 0 else first) first
        let (coda, warnings) ← (builtOf tune bars).dcCoda warnings
        let s ← liftR (toIntervalSet ip segno (marks bars .Fine).head? coda)
        pure (some ⟨.dc d (if d = 0 then 0 else first), (marks bars .Fine).head?, segno, coda, s⟩, warnings)) := by
  simp only [build, builtOf, jumpOf, hdc, hfi, Option.getD_some]

private theorem first_le {bars : List Bar} (hb : BarsOk bars) {first : Nat} (hfi : firstBarEnd bars = some first) :
    0 < first ∧ first < U32_MAX := by
  have h1 := List.find?_some hfi
  obtain ⟨y, hy, he⟩ := List.mem_map.1 (List.mem_of_find?_eq_some hfi)
  have := hb.2 y hy
  exact ⟨by simpa using h1, by omega⟩

private theorem dcSegno_eq {bars : List Bar} (hb : BarsOk bars) (hm : MarksOk bars) (tune : Rhythm) {d first : Nat}
    (hdc : marks bars .Dc = [d]) (hfi : firstBarEnd bars = some first) (hn : ¬ LongFirstBar bars) :
    ∃ w, (builtOf tune bars).dcSegno d (if d = 0 then 0 else first) first = .ok (dcTarget tune bars first d, w) := by
  obtain ⟨hpos, hlt⟩ := first_le hb hfi
  rcases codaOf_cases (marks bars .Segno) (Nat.le_trans hm.2.2.1 (by decide)) with hs | ⟨s, hs⟩ | ⟨a, b, hs⟩
  · have hfit : (if d = 0 then 0 else first) + first ≤ U32_MAX := by
      split
      · omega
      · have : ¬ U32_MAX < 2 * first := fun c => hn ⟨d, first, hdc, by omega, hs, hfi, c⟩
        omega
    refine ⟨[], ?_⟩
    have hi := implicitSegno_ok (builtOf tune bars) d first hpos hfit
    have : dcTarget tune bars first d = dcReturn (openingRhythm tune bars).tickLen first d := by
      rw [dcTarget, hs]; rfl
    rw [this]
    have e1 : (builtOf tune bars).segno = none := by simp [builtOf, hs]
    simp only [dcSegno, e1, hi, liftR, RR_bind_ok, RR_pure]
    rfl
  · refine ⟨[.segnoAndDcFound s d], ?_⟩
    have : dcTarget tune bars first d = s := by rw [dcTarget, hs]; rfl
    rw [this]
    simp [dcSegno, builtOf, hs]
  · have := hm.2.2.1
    rw [hs] at this
    simp at this

/-- The trouble of lowest rank among those of the jump is what ends the build. -/
theorem late_build {bars : List Bar} (hb : BarsOk bars) (hm : MarksOk bars) (ip : Bool) (tune : Rhythm) {t : Trouble}
    (h6 : 6 ≤ t.rank) (ht : t.In ip tune bars) (hmin : ∀ t' : Trouble, t'.In ip tune bars → 6 ≤ t'.rank → t.rank ≤ t'.rank) :
    ∃ f, (builtOf tune bars).build ip = .error f ∧ Ends f t := by
  have segno : ∀ {d}, 7 ≤ t.rank → marks bars .Ds = [d] → ∃ s, marks bars .Segno = [s] := by
    intro d h7 hd
    match hs : marks bars .Segno with
    | [s] => exact ⟨s, rfl⟩
    | [] =>
      have : t.rank ≤ 6 := hmin (.err (.noSegnoForDs d)) ⟨hd, hs⟩ (by simp [Trouble.rank])
      omega
    | a :: b :: l =>
      have := hm.2.2.1
      rw [hs] at this
      simp at this
  have short : 7 ≤ t.rank → ¬ LongFirstBar bars := by
    intro h7 h
    have : t.rank ≤ 6 := hmin .longFirstBar h (by simp [Trouble.rank])
    omega
  have noDc : ∀ {d}, marks bars .Ds = [d] → marks bars .Dc = [] := by
    intro d h
    have := hm.1
    rw [h] at this
    exact List.length_eq_zero_iff.1 (by simp at this; simpa using this)
  cases t with
  | fifthEnding => simp [Trouble.rank] at h6
  | longFirstBar =>
    obtain ⟨d, first, h1, h2, h3, h4, h5⟩ := ht
    refine ⟨.panic .overflow, ?_, fun e c => by cases c⟩
    rw [build_dc_eq ip tune h1 h4]
    have e1 : (builtOf tune bars).segno = none := by simp [builtOf, h3]
    have hd : d ≠ 0 := by omega
    have hfit : ¬ first + first ≤ U32_MAX := by omega
    simp [dcSegno, e1, implicitSegno, addU32, hfit, liftR, hd]
  | codasMisplaced =>
    obtain ⟨leave, resume, target, h1, h2, h3⟩ := ht
    have hbad : ∀ S, toIntervalSet ip target (marks bars .Fine).head? (some (leave, resume)) ≠ .ok S := by
      intro S hS
      obtain ⟨k1, k2⟩ := toIntervalSet_inv hS
      rcases h3 with h3 | ⟨h3, h4⟩
      · omega
      · have := k2 h3
        omega
    obtain ⟨p, hp⟩ := lift_panic hbad
    refine ⟨.panic p, ?_, fun e c => by cases c⟩
    have hjump : jumpTicks bars ≠ [] := by
      rcases h2 with ⟨d, k1, _⟩ | ⟨d, first, k1, _⟩
      · exact jumpTicks_of_dc (.inr rfl) k1
      · exact jumpTicks_of_dc (.inl rfl) k1
    have hpos : checkCodaPos leave resume (marks bars .Fine).head? = .ok () := by
      unfold checkCodaPos
      split
      · rename_i fine hf
        split
        · rename_i hlt
          have := hmin (.err (.codaAfterFine leave resume fine)) ⟨h1, head_eq hm.2.1 hf, hlt, hjump⟩ (by simp [Trouble.rank])
          simp [Trouble.rank] at this
        · rfl
      · rfl
    rcases h2 with ⟨d, k1, k2⟩ | ⟨d, first, k1, k2, k3⟩
    · rw [build_ds_eq ip tune k1 (noDc k1)]
      have e1 : (builtOf tune bars).dsSegno d = .ok target := by simp [dsSegno, builtOf, k2]
      have e2 : (builtOf tune bars).dsCoda = .ok (some (leave, resume)) := by simp [dsCoda, builtOf, h1, codaOf, hpos]
      rw [e1, RR_bind_ok, e2, RR_bind_ok, hp]
      rfl
    · subst k3
      rw [build_dc_eq ip tune k1 k2]
      obtain ⟨w, e1⟩ := dcSegno_eq hb hm tune k1 k2 (short (by simp [Trouble.rank]))
      have e2 : (builtOf tune bars).dcCoda w = .ok (some (leave, resume), w) := by simp [dcCoda, builtOf, h1, codaOf, hpos]
      rw [e1, RR_bind_ok]
      dsimp only
      rw [e2, RR_bind_ok]
      dsimp only
      rw [hp]
      rfl
  | err e =>
    cases e with
    | noSegnoForDs d =>
      obtain ⟨h1, h2⟩ := ht
      refine ⟨.err (.noSegnoForDs d), ?_, rfl⟩
      rw [build_ds_eq ip tune h1 (noDc h1)]
      have e1 : (builtOf tune bars).dsSegno d = fail (.noSegnoForDs d) := by simp [dsSegno, builtOf, h2]
      rw [e1]
      rfl
    | onlyOneCoda c =>
      obtain ⟨h1, h2⟩ := ht
      have hj : jumpTicks bars ≠ [] := by
        intro h
        have := jumpTicks_length bars
        rw [h] at this
        exact h2 (List.length_eq_zero_iff.1 (by simp at this; omega))
      refine ⟨.err (.onlyOneCoda c), ?_, rfl⟩
      rcases jumpTicks_cases hm hj with ⟨d, k1, k2⟩ | ⟨d, k1, k2⟩
      · obtain ⟨s, hs⟩ := segno (by simp [Trouble.rank]) k1
        rw [build_ds_eq ip tune k1 k2]
        have e1 : (builtOf tune bars).dsSegno d = .ok s := by simp [dsSegno, builtOf, hs]
        have e2 : (builtOf tune bars).dsCoda = fail (.onlyOneCoda c) := by simp [dsCoda, builtOf, h1, codaOf]
        rw [e1, RR_bind_ok, e2]
        rfl
      · exact absurd k2 h2
    | codaAfterFine f c e =>
      obtain ⟨h1, h2, h3, hj⟩ := ht
      have hpos : checkCodaPos f c (marks bars .Fine).head? = fail (.codaAfterFine f c e) := by
        simp [checkCodaPos, h2, h3]
      refine ⟨.err (.codaAfterFine f c e), ?_, rfl⟩
      rcases jumpTicks_cases hm hj with ⟨d, k1, k2⟩ | ⟨d, k1, k2⟩
      · obtain ⟨s, hs⟩ := segno (by simp [Trouble.rank]) k1
        rw [build_ds_eq ip tune k1 k2]
        have e1 : (builtOf tune bars).dsSegno d = .ok s := by simp [dsSegno, builtOf, hs]
        have e2 : (builtOf tune bars).dsCoda = fail (.codaAfterFine f c e) := by
          simp [dsCoda, builtOf, h1, codaOf, hpos, fail]
        rw [e1, RR_bind_ok, e2]
        rfl
      · cases hfi : firstBarEnd bars with
        | none =>
          exfalso
          have hsort := marks_sorted hb.1 .Coda
          simp only [h1, List.pairwise_cons, List.mem_singleton, forall_eq] at hsort
          have : c ∈ marks bars .Coda := by simp [h1]
          obtain ⟨x, k1, _, k3⟩ := mem_marks.1 this
          have := List.find?_eq_none.1 hfi c (List.mem_map.2 ⟨x, k1, k3⟩)
          simp at this
          omega
        | some first =>
          rw [build_dc_eq ip tune k1 hfi]
          obtain ⟨w, e1⟩ := dcSegno_eq hb hm tune k1 hfi (short (by simp [Trouble.rank]))
          have e2 : (builtOf tune bars).dcCoda w = fail (.codaAfterFine f c e) := by
            simp [dcCoda, builtOf, h1, codaOf, hpos, fail]
          rw [e1, RR_bind_ok]
          dsimp only
          rw [e2]
          rfl
    | _ => simp [Trouble.rank] at h6

/-! ## Rendering as a whole -/

theorem take_self (bars : List Bar) : bars.take bars.length = bars := List.take_length

/-- The repeats and endings left open at the end of the score. -/
private theorem open_state {bars : List Bar} (hsep : Separate bars) {sg : Option Nat} {rs : List SimpleRegion} {st : RenderState}
    (hst : stepLoop sg .idle bars = .ok (rs, st)) {ip : Bool} {tune : Rhythm} {t : Trouble} (h5 : t.rank = 5) (ht : t.In ip tune bars) :
    (∃ s, st = .repeatStart s ∧ t = .err (.noRepeatEnd s)) ∨
      ∃ s ts u, st = .variation s ts ∧ ts.getLast? = some u ∧ t = .err (.variationNotClosed u) := by
  cases t with
  | fifthEnding => simp [Trouble.rank] at h5
  | longFirstBar => simp [Trouble.rank] at h5
  | codasMisplaced => simp [Trouble.rank] at h5
  | err e =>
    cases e with
    | noRepeatEnd s => exact .inl ⟨s, state_open hsep ht hst, rfl⟩
    | variationNotClosed u =>
      obtain ⟨ts, h1, h2⟩ := ht
      obtain ⟨s, h3⟩ := state_endings hsep h1 hst
      exact .inr ⟨s, ts, u, h3, h2, rfl⟩
    | _ => simp [Trouble.rank] at h5

private theorem late_first {bars : List Bar} (hs : bars.Pairwise (fun x y => x.startTick < y.startTick)) (hsep : Separate bars)
    {ip : Bool} {tune : Rhythm} {o} (h : renderLoop (new tune) .idle bars = .ok o) {t : Trouble} (ht : t.In ip tune bars)
    (hmin : ∀ t' : Trouble, t'.In ip tune bars → 5 ≤ t'.rank → t.rank ≤ t'.rank) : t.IsFirst ip tune bars := by
  refine ⟨bars.length, ⟨Nat.le_refl _, by rw [take_self]; exact ht, fun _ => rfl⟩, ?_⟩
  intro n' t' ⟨h1, h2, h3⟩
  by_cases c : 5 ≤ t'.rank
  · have := h3 c
    subst this
    rw [take_self] at h2
    exact .inr ⟨rfl, hmin t' h2 c⟩
  · exfalso
    have e' : bars = bars.take n' ++ bars.drop n' := (List.take_append_drop n' bars).symm
    rw [e'] at h
    obtain ⟨g', rs, st', h4⟩ := renderLoop_append _ _ _ _ h
    exact no_early (hs.sublist (List.take_sublist n' bars)) (by rw [e'] at hsep; exact hsep.of_append) h4 ip t' (by omega) h2

/-- Rendering ends with the trouble that comes to light first. -/
theorem render_first {bars : List Bar} (hb : BarsOk bars) (hsep : Separate bars) {ip : Bool} {tune : Rhythm} {f : Fail}
    (h : renderRegion ip tune bars = .error f) : ∃ t, Ends f t ∧ t.IsFirst ip tune bars := by
  have h0 := h
  rw [renderRegion, RR_bind_eq_error] at h
  rcases h with h | ⟨⟨g, rs, st⟩, h1, h⟩
  · obtain ⟨t, k1, _, k2⟩ := loop_first hb.1 hsep ip h
    exact ⟨t, k1, k2⟩
  · obtain ⟨⟨hm, hg⟩, hst⟩ := (loop_parts hb.1 tune g rs st).1 h1
    obtain ⟨hi, _⟩ := Inv_loop bars [] _ _ _ _ _ (by simp [Inv]) h1
    simp only [List.nil_append] at hi
    have late : ∀ p, (builtOf tune bars).build ip = .error p → p = f → (st = .idle ∨ ∃ s, st = .seq s) →
        ∃ t, Ends f t ∧ t.IsFirst ip tune bars := by
      rintro p hp rfl hstate
      have high : ∀ t : Trouble, t.In ip tune bars → 6 ≤ t.rank := by
        intro t ht
        by_cases c4 : t.rank ≤ 4
        · exact absurd ht (no_early hb.1 hsep h1 ip t c4)
        · by_cases c5 : t.rank = 5
          · rcases open_state hsep hst c5 ht with ⟨s, k, _⟩ | ⟨s, ts, u, k, _⟩ <;> rcases hstate with e | ⟨_, e⟩ <;>
              · rw [e] at k
                cases k
          · omega
      have pick : ∃ t : Trouble, t.In ip tune bars := by
        rcases render_error hb h0 with ⟨r, _, hr⟩ | ⟨_, hr | hr | hr⟩
        · exact ⟨.err r, hr⟩
        · exact ⟨.fifthEnding, hr⟩
        · exact ⟨.longFirstBar, hr⟩
        · exact ⟨.codasMisplaced, hr⟩
      have least : ∃ t : Trouble, t.In ip tune bars ∧ ∀ t' : Trouble, t'.In ip tune bars → t.rank ≤ t'.rank := by
        obtain ⟨t, ht⟩ := pick
        generalize hk : t.rank = k
        induction k using Nat.strongRecOn generalizing t with
        | _ k ih =>
          by_cases c : ∃ t' : Trouble, t'.In ip tune bars ∧ t'.rank < k
          · obtain ⟨t', c1, c2⟩ := c
            exact ih t'.rank c2 t' c1 rfl
          · refine ⟨t, ht, fun t' ht' => ?_⟩
            by_cases c' : t'.rank < k
            · exact absurd ⟨t', ht', c'⟩ c
            · omega
      obtain ⟨t, ht, hmin⟩ := least
      obtain ⟨f', k1, k2⟩ := late_build hb hm ip tune (high t ht) ht (fun t' ht' _ => hmin t' ht')
      rw [hp] at k1
      cases k1
      exact ⟨t, k2, late_first hb.1 hsep h1 ht (fun t' ht' _ => hmin t' ht')⟩
    have five : ∀ t : Trouble, Ends f t → t.In ip tune bars → t.rank = 5 → ∃ t, Ends f t ∧ t.IsFirst ip tune bars := by
      intro t k1 k2 k3
      exact ⟨t, k1, late_first hb.1 hsep h1 k2 (fun t' _ c => by omega)⟩
    subst hg
    dsimp only at h
    cases st with
    | idle =>
      dsimp only at h
      rw [RR_bind_eq_error] at h
      rcases h with h | ⟨_, _, h⟩
      · exact late _ h rfl (.inl rfl)
      · cases h
    | seq s =>
      dsimp only at h
      rw [RR_bind_eq_error] at h
      rcases h with h | ⟨_, _, h⟩
      · exact late _ h rfl (.inr ⟨s, rfl⟩)
      · cases h
    | repeatStart s =>
      cases h
      exact five (.err (.noRepeatEnd s)) rfl hi rfl
    | variation s ts =>
      dsimp only at h
      split at h
      · rename_i t ht
        cases h
        exact five (.err (.variationNotClosed t)) rfl ⟨ts, hi, ht⟩ rfl
      · rename_i ht
        have := InEndings_length hi
        rw [List.getLast?_eq_none_iff] at ht
        rw [ht] at this
        simp at this

theorem Endings_mem {k : Nat} {bars : List Bar} {ts : List Nat} (h : Endings k bars ts) : ∀ t ∈ ts, ∃ x ∈ bars, x.startTick = t := by
  induction h with
  | @last k a xs _ =>
    intro t ht
    rw [List.mem_singleton] at ht
    exact ⟨a, by simp, ht.symm⟩
  | @more k a y xs ys ts _ _ _ ih =>
    intro t ht
    rcases List.mem_cons.1 ht with rfl | ht
    · exact ⟨a, by simp, rfl⟩
    · obtain ⟨x, hx, he⟩ := ih t ht
      exact ⟨x, by simp only [List.mem_cons, List.mem_append] at hx ⊢; rcases hx with h | h <;> simp [h], he⟩

/-- A fault at a bar line is there before the next is read. -/
theorem faultAt_before {pre rest : List Bar} {x y : Bar} {t : Trouble}
    (hs : (pre ++ x :: (rest ++ [y])).Pairwise (fun x y => x.startTick < y.startTick))
    (h : FaultAt (marks (pre ++ x :: (rest ++ [y])) .Segno) pre x t) : FaultAt (marks (pre ++ x :: rest) .Segno) pre x t := by
  cases t with
  | longFirstBar => exact h.elim
  | codasMisplaced => exact h.elim
  | fifthEnding => exact h
  | err e =>
    cases e with
    | segnoWhileVariation t =>
      obtain ⟨h1, h2, h3, ts, s, first, last, h4, h5, h6, h7, h8, h9⟩ := h
      refine ⟨h1, h2, h3, ts, s, first, last, h4, ?_, h6, h7, h8, h9⟩
      have e : pre ++ x :: (rest ++ [y]) = (pre ++ x :: rest) ++ [y] := by simp
      rw [e, marks_append, List.mem_append] at h5
      rcases h5 with h5 | h5
      · exact h5
      · exfalso
        obtain ⟨z, hz, _, hzt⟩ := mem_marks.1 h5
        rw [List.mem_singleton] at hz
        subst hz
        obtain ⟨l, v, r, rfl, _, h10⟩ := h4
        obtain ⟨w, hw, hwt⟩ := Endings_mem h10 last (List.mem_of_getLast? h7)
        have := (List.pairwise_append.1 hs).2.2 w (by simp only [List.mem_append]; exact .inr hw) z (by simp)
        omega
    | _ => exact h

/-- A trouble at the bar line read last, if the first to come to light. -/
private theorem first_at {bars : List Bar} (hs : bars.Pairwise (fun x y => x.startTick < y.startTick)) {ip : Bool} {tune : Rhythm}
    {n : Nat} {t : Trouble} (h4 : t.rank = 4) (ht : t.SeenAfter ip tune bars n)
    (hmin : ∀ n' (t' : Trouble), t'.SeenAfter ip tune bars n' → n < n' ∨ (n = n' ∧ t.rank ≤ t'.rank)) :
    ∃ pre x, bars.take n = pre ++ [x] ∧ FaultAt (marks (pre ++ [x]) .Segno) pre x t := by
  obtain ⟨h1, h2, h3⟩ := ht
  obtain ⟨pre, x, rest, hb, hf⟩ := faultAt_of h4 h2
  rcases List.eq_nil_or_concat rest with rfl | ⟨rest', y, rfl⟩
  · rw [hb] at hf
    exact ⟨pre, x, hb, hf⟩
  · exfalso
    simp only [List.concat_eq_append] at hb
    rw [hb] at hf
    have hs' := hs.sublist (List.take_sublist n bars)
    rw [hb] at hs'
    have hf' := faultAt_before hs' hf
    have hlen : n = pre.length + (rest'.length + 1 + 1) := by
      have := congrArg List.length hb
      simp only [List.length_take, List.length_append, List.length_cons, List.length_nil] at this
      omega
    have e : bars.take (n - 1) = pre ++ x :: rest' := by
      have e1 : bars.take (n - 1) = (bars.take n).take (n - 1) := by
        rw [List.take_take]
        congr 1
        omega
      have e2 : pre ++ x :: (rest' ++ [y]) = (pre ++ x :: rest') ++ [y] := by simp
      rw [e1, hb, e2]
      exact List.take_left' (by simp; omega)
    have := hmin (n - 1) t ⟨by omega, by rw [e]; exact of_faultAt rfl hf', fun c => by omega⟩
    omega

/-- The first trouble is how rendering ends. -/
theorem first_render {bars : List Bar} (hb : BarsOk bars) (hsep : Separate bars) {ip : Bool} {tune : Rhythm} {t : Trouble}
    (h : t.IsFirst ip tune bars) : ∃ f, renderRegion ip tune bars = .error f ∧ Ends f t := by
  obtain ⟨n, hseen, hmin⟩ := h
  have hs := hb.1
  have e' : bars = bars.take n ++ bars.drop n := (List.take_append_drop n bars).symm
  by_cases h4 : t.rank ≤ 4
  · -- the loop fails
    cases hl : renderLoop (new tune) .idle bars with
    | ok o =>
      exfalso
      rw [e'] at hl
      obtain ⟨g', rs, st', h5⟩ := renderLoop_append _ _ _ _ hl
      exact no_early (hs.sublist (List.take_sublist n bars)) (by rw [e'] at hsep; exact hsep.of_append) h5 ip t h4 hseen.2.1
    | error f =>
      have hr : renderRegion ip tune bars = .error f := by rw [renderRegion, hl]; rfl
      refine ⟨f, hr, ?_⟩
      obtain ⟨t0, k1, k2, n0, k3, k4⟩ := loop_first hs hsep ip hl
      have a := hmin n0 t0 k3
      have b := k4 n t hseen
      have hn : n = n0 := by omega
      subst hn
      have hrk : t.rank = t0.rank := by omega
      by_cases c : t.rank = 4
      · obtain ⟨pre, x, hp, hf⟩ := first_at hs c hseen hmin
        obtain ⟨pre', x', hp', hf'⟩ := first_at hs (hrk ▸ c) k3 k4
        rw [hp] at hp'
        have hx := List.append_inj' hp' rfl
        obtain ⟨rfl, hx⟩ := hx
        cases hx
        -- the loop reads `pre`
        have hn : n = pre.length + 1 := by
          have := congrArg List.length hp
          simp only [List.length_take, List.length_append, List.length_cons, List.length_nil] at this
          have := hseen.1
          omega
        have hbp : bars = pre ++ x :: bars.drop n := by
          have : bars = (pre ++ [x]) ++ bars.drop n := by rw [← hp]; exact e'
          simpa using this
        have htake : bars.take pre.length = pre := by rw [hbp]; exact List.take_left' rfl
        have hsep' : Separate pre := by rw [hbp] at hsep; exact hsep.left
        have hsp : pre.Pairwise (fun x y => x.startTick < y.startTick) := by
          rw [hbp] at hs
          exact (List.pairwise_append.1 hs).1
        cases hl2 : renderLoop (new tune) .idle pre with
        | error f2 =>
          exfalso
          obtain ⟨t2, _, j1, n2, ⟨j2, j3, j4⟩, _⟩ := loop_first hsp hsep' ip hl2
          have hle : bars.take n2 = pre.take n2 := by
            rw [hbp, List.take_append_of_le_length j2]
          have := hmin n2 t2 ⟨by have := hseen.1; omega, by rw [hle]; exact j3, fun c => by omega⟩
          omega
        | ok o =>
          obtain ⟨g, rs, st⟩ := o
          have hmk : (marks (pre ++ [x]) .Segno).length ≤ 1 := by
            match hk : marks (pre ++ [x]) .Segno with
            | [] => simp
            | [a] => simp
            | a :: b :: l =>
              exfalso
              have hd : (Trouble.err (.duplicatedSegno a b)).In ip tune (bars.take n) := by
                rw [hp]
                show (marks (pre ++ [x]) .Segno).take 2 = [a, b]
                rw [hk]
                rfl
              have := hmin n _ ⟨hseen.1, hd, fun c => by simp [Trouble.rank] at c⟩
              simp [Trouble.rank] at this
              change t.rank ≤ 2 at this
              omega
          obtain ⟨_, hst⟩ := (loop_parts hsp tune g rs st).1 hl2
          have o1 := fault_step hsep' hmk hst hf
          have o2 := fault_step hsep' hmk hst hf'
          rw [o1] at o2
          simp only [Except.error.injEq] at o2
          cases f with
          | err e =>
            simp only [Ends] at k1 ⊢
            subst k1
            cases t with
            | err e' => simpa [outcome] using o2
            | _ => simp [outcome] at o2
          | panic p =>
            simp only [Ends] at k1 ⊢
            rintro e rfl
            cases t0 with
            | err e' => exact k1 e' rfl
            | _ => simp [outcome] at o2
      · have same : t = t0 := by
          have u := hseen.2.1
          have u0 := k3.2.1
          have r1 : t.rank < 4 := by omega
          have r2 : t0.rank < 4 := by omega
          cases t with
          | err e =>
            cases t0 with
            | err e0 =>
              cases e <;> first | (simp [Trouble.rank] at r1; done) | skip
              all_goals
                cases e0 <;> first | (simp [Trouble.rank] at r2; done) | (simp [Trouble.rank] at hrk; done) | skip
              all_goals
                simp only [Trouble.In, Describes] at u u0
                rw [u] at u0
                simp only [List.cons.injEq, and_true] at u0
                obtain ⟨rfl, u0⟩ := u0
                first | (obtain ⟨rfl, rfl⟩ := u0; rfl) | (subst u0; rfl)
            | _ => simp [Trouble.rank] at r2
          | _ => simp [Trouble.rank] at r1
        rw [same]
        exact k1
  · have h5 : 5 ≤ t.rank := by omega
    have hn := hseen.2.2 h5
    subst hn
    have hin : t.In ip tune bars := by have := hseen.2.1; rwa [take_self] at this
    have hmin' : ∀ t' : Trouble, t'.In ip tune bars → t.rank ≤ t'.rank := by
      intro t' ht'
      have := hmin bars.length t' ⟨Nat.le_refl _, by rw [take_self]; exact ht', fun _ => rfl⟩
      omega
    cases hl : renderLoop (new tune) .idle bars with
    | error f =>
      exfalso
      obtain ⟨t0, _, k2, n0, k3, _⟩ := loop_first hs hsep ip hl
      have := hmin n0 t0 k3
      have := k3.1
      omega
    | ok o =>
      obtain ⟨g, rs, st⟩ := o
      obtain ⟨⟨hm, hg⟩, hst⟩ := (loop_parts hs tune g rs st).1 hl
      obtain ⟨hi, _⟩ := Inv_loop bars [] _ _ _ _ _ (by simp [Inv]) hl
      simp only [List.nil_append] at hi
      subst hg
      by_cases c5 : t.rank = 5
      · rcases open_state hsep hst c5 hin with ⟨s, rfl, rfl⟩ | ⟨s, ts, u, rfl, hu, rfl⟩
        · refine ⟨.err (.noRepeatEnd s), ?_, rfl⟩
          rw [renderRegion, hl, RR_bind_ok]
          rfl
        · refine ⟨.err (.variationNotClosed u), ?_, rfl⟩
          rw [renderRegion, hl, RR_bind_ok]
          simp [hu, fail]
      · obtain ⟨f, q1, q2⟩ := late_build hb hm ip tune (by omega) hin (fun t' ht' _ => hmin' t' ht')
        refine ⟨f, ?_, q2⟩
        rw [renderRegion, hl, RR_bind_ok]
        cases st with
        | idle => simp only [q1, RR_bind_error]
        | seq s => simp only [q1, RR_bind_error]
        | repeatStart s =>
          have := hmin' (.err (.noRepeatEnd s)) hi
          simp only [Trouble.rank] at this
          change t.rank ≤ 5 at this
          omega
        | variation s ts =>
          have hlen := InEndings_length hi
          cases hu : ts.getLast? with
          | none => rw [List.getLast?_eq_none_iff] at hu; subst hu; simp at hlen
          | some u =>
            have : t.rank ≤ 5 := hmin' (.err (.variationNotClosed u)) ⟨ts, hi, hu⟩
            omega

end Klavier
