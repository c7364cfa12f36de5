import Verif.Lemmas.Render

/-! # render_region reads exactly the scores of the grammar -/
set_option autoImplicit false
namespace Klavier
open Spec

/-- The region built for a passage. -/
def Spec.Passage.region : Passage → SimpleRegion
  | .plain a b => .seq ⟨a, b⟩
  | .repeated a b => .rep ⟨a, b⟩
  | .endings a (v :: ts) b => .var ⟨a, v⟩ (variationsFrom v ts b)
  | .endings a [] b => .var ⟨a, b⟩ []

/-- The state of the loop for a mode. -/
def toState : Mode → Nat → RenderState
  | .first, _ => .idle
  | .plain, a => .seq a
  | .opened, a => .repeatStart a

/-- Where the last passage begins, if the final state is acceptable. -/
def finish : RenderState → Option Nat
  | .idle => some 0
  | .seq s => some s
  | _ => none

theorem endingNo_eq (x : Bar) : endingNo x = x.repeats.regionIndex.map VarIndex.value := by
  simp only [endingNo, RepeatSet.regionIndex, Has]
  by_cases h1 : x.repeats.contains .Var1 = true
  · simp [h1, VarIndex.value]
  by_cases h2 : x.repeats.contains .Var2 = true
  · simp [h1, h2, VarIndex.value]
  by_cases h3 : x.repeats.contains .Var3 = true
  · simp [h1, h2, h3, VarIndex.value]
  by_cases h4 : x.repeats.contains .Var4 = true
  · simp [h1, h2, h3, h4, VarIndex.value]
  · simp [h1, h2, h3, h4]

theorem endingNo_none {x : Bar} : endingNo x = none ↔ x.repeats.regionIndex = none := by
  rw [endingNo_eq]
  cases x.repeats.regionIndex <;> simp

theorem endingNo_some {x : Bar} {k : Nat} :
    endingNo x = some k ↔ ∃ v, x.repeats.regionIndex = some v ∧ v.value = k := by
  rw [endingNo_eq]
  cases x.repeats.regionIndex <;> simp

theorem value_le (v : VarIndex) : 1 ≤ v.value ∧ v.value ≤ 4 := by cases v <;> decide
theorem value_one {v : VarIndex} : v.value = 1 ↔ v = .VI1 := by cases v <;> decide

theorem step_quiet {sg : Option Nat} {m : Mode} {a : Nat} {x : Bar} (h : Quiet m x) :
    renderStep sg (toState m a) x = .ok ([], toState m a) := by
  cases m with
  | first =>
    obtain ⟨h1, h2, h3⟩ := h
    rw [endingNo_none] at h3
    simp only [Has] at h1 h2
    simp [renderStep, toState, h1, h2, h3]
  | plain =>
    obtain ⟨h1, h2⟩ := h
    simp only [Has] at h1 h2
    simp [renderStep, toState, h1, h2]
  | opened =>
    obtain ⟨h1, h2, h3, h4, h5⟩ := h
    rw [endingNo_none] at h5
    simp only [Has] at h1 h2 h3 h4
    simp [renderStep, toState, h1, h2, h3, h4, h5]

theorem step_start {sg : Option Nat} {m : Mode} {a : Nat} {x : Bar} (h0 : m = .first → a = 0) (hm : m ≠ .opened)
    (h1 : Has x .Start) (h2 : ¬ Has x .End) :
    renderStep sg (toState m a) x = .ok ([.seq ⟨a, x.startTick⟩], .repeatStart x.startTick) := by
  simp only [Has] at h1 h2
  cases m with
  | first => simp [renderStep, toState, h1, h2, h0]
  | plain => simp [renderStep, toState, h1, h2]
  | opened => exact absurd rfl hm

theorem step_close {sg : Option Nat} {m : Mode} {a : Nat} {x : Bar} (h0 : m = .first → a = 0) (hm : m ≠ .plain)
    (h2 : Has x .End) :
    renderStep sg (toState m a) x = .ok ([.rep ⟨a, x.startTick⟩], toState (after x) x.startTick) := by
  have ha : toState (after x) x.startTick =
      if x.repeats.contains .Start then .repeatStart x.startTick else .seq x.startTick := by
    by_cases hs : x.repeats.contains .Start = true <;> simp [after, Has, hs, toState]
  rw [ha]
  simp only [Has] at h2
  cases m with
  | first => by_cases h1 : x.repeats.contains .Start = true <;> simp [renderStep, toState, h1, h2, h0]
  | plain => exact absurd rfl hm
  | opened => by_cases h1 : x.repeats.contains .Start = true <;> simp [renderStep, toState, h1, h2]

theorem step_open {sg : Option Nat} {m : Mode} {a : Nat} {x : Bar} (h0 : m = .first → a = 0) (hm : m ≠ .plain)
    (h : OpensEndings m x) : renderStep sg (toState m a) x = .ok ([], .variation a [x.startTick]) := by
  cases m with
  | first =>
    obtain ⟨h1, h2, h3⟩ := h
    obtain ⟨v, h3, h4⟩ := endingNo_some.1 h3
    rw [value_one] at h4
    subst h4
    simp only [Has] at h1 h2
    simp [renderStep, toState, h1, h2, h3, h0]
  | plain => exact absurd rfl hm
  | opened =>
    obtain ⟨h1, h2, h3, h4, h5⟩ := h
    obtain ⟨v, h5, h6⟩ := endingNo_some.1 h5
    rw [value_one] at h6
    subst h6
    simp only [Has] at h1 h2 h3 h4
    simp [renderStep, toState, h1, h2, h3, h4, h5]

theorem step_in {sg : Option Nat} {s : Nat} {ts : List Nat} {x : Bar} (h : InEnding ts.length x) :
    renderStep sg (.variation s ts) x = .ok ([], .variation s ts) := by
  obtain ⟨h1, h2, h3, h4⟩ := h
  obtain ⟨v, h4, h5⟩ := endingNo_some.1 h4
  have := value_le v
  simp only [Has] at h1 h2 h3
  have hm : ts.length % 256 = ts.length := by omega
  simp [renderStep, h1, h2, h3, h4, h5, hm]

theorem step_next {sg : Option Nat} {s : Nat} {ts : List Nat} {x : Bar} (h : InEnding (ts.length + 1) x) :
    renderStep sg (.variation s ts) x = .ok ([], .variation s (ts ++ [x.startTick])) := by
  obtain ⟨h1, h2, h3, h4⟩ := h
  obtain ⟨v, h4, h5⟩ := endingNo_some.1 h4
  have := value_le v
  simp only [Has] at h1 h2 h3
  have hm : ts.length % 256 = ts.length := by omega
  simp [renderStep, h1, h2, h3, h4, h5, hm]

theorem checkSegno_ok {sg : Option Nat} {ts : List Nat} {t : Nat} (hne : ts ≠ []) :
    checkSegno sg ts t = .ok () ↔ SegnoOk sg ts := by
  obtain ⟨a, ha⟩ : ∃ a, ts.head? = some a := by
    cases ts with
    | nil => exact absurd rfl hne
    | cons a ts => exact ⟨a, rfl⟩
  obtain ⟨b, hb⟩ : ∃ b, ts.getLast? = some b := ⟨ts.getLast hne, List.getLast?_eq_some_getLast hne⟩
  cases sg with
  | none => simp [checkSegno, SegnoOk]
  | some s =>
    simp only [checkSegno, ha, hb, fail, SegnoOk]
    by_cases h : a ≤ s ∧ s < b
    · rw [if_pos h]
      constructor
      · intro h'; cases h'
      · intro h'; exact absurd h (h' s a b rfl rfl rfl)
    · rw [if_neg h]
      simp only [true_iff]
      intro s' a' b' e1 e2 e3
      cases e1; cases e2; cases e3
      exact h

theorem createVariation_eq {s : Nat} {ts : List Nat} {t : Nat} (hne : ts ≠ []) :
    createVariation s ts t = .ok (Passage.region (.endings s ts t)) := by
  cases ts with
  | nil => exact absurd rfl hne
  | cons a ts => rfl

theorem step_finish {sg : Option Nat} {s : Nat} {ts : List Nat} {x : Bar} (hne : ts ≠ []) (h1 : ¬ Has x .End)
    (h2 : endingNo x = none) (h3 : SegnoOk sg ts) :
    renderStep sg (.variation s ts) x =
      .ok ([Passage.region (.endings s ts x.startTick)], toState (after x) x.startTick) := by
  have ha : toState (after x) x.startTick =
      if x.repeats.contains .Start then .repeatStart x.startTick else .seq x.startTick := by
    by_cases hs : x.repeats.contains .Start = true <;> simp [after, Has, hs, toState]
  rw [ha]
  simp only [Has] at h1
  rw [endingNo_none] at h2
  rw [← checkSegno_ok (t := x.startTick) hne] at h3
  simp [renderStep, h1, h2, h3, createVariation_eq hne, liftR]

theorem step_inv {sg : Option Nat} {m : Mode} {a : Nat} {x : Bar} {rs : List SimpleRegion} {st : RenderState}
    (h0 : m = .first → a = 0) (h : renderStep sg (toState m a) x = .ok (rs, st)) :
    (Quiet m x ∧ rs = [] ∧ st = toState m a) ∨
    (m ≠ .opened ∧ Has x .Start ∧ ¬ Has x .End ∧ rs = [.seq ⟨a, x.startTick⟩] ∧ st = .repeatStart x.startTick) ∨
    (m ≠ .plain ∧ Has x .End ∧ rs = [.rep ⟨a, x.startTick⟩] ∧ st = toState (after x) x.startTick) ∨
    (m ≠ .plain ∧ OpensEndings m x ∧ rs = [] ∧ st = .variation a [x.startTick]) := by
  by_cases hE : Has x .End
  · by_cases hp : m = .plain
    · subst hp
      simp only [Has] at hE
      simp [renderStep, toState, hE, fail] at h
    · rw [step_close h0 hp hE] at h
      simp only [Except.ok.injEq, Prod.mk.injEq] at h
      exact .inr (.inr (.inl ⟨hp, hE, h.1.symm, h.2.symm⟩))
  by_cases hS : Has x .Start
  · by_cases ho : m = .opened
    · subst ho
      simp only [Has] at hE hS
      simp [renderStep, toState, hE, hS, fail] at h
    · rw [step_start h0 ho hS hE] at h
      simp only [Except.ok.injEq, Prod.mk.injEq] at h
      exact .inr (.inl ⟨ho, hS, hE, h.1.symm, h.2.symm⟩)
  have q : ∀ hq : Quiet m x, (Quiet m x ∧ rs = [] ∧ st = toState m a) := by
    intro hq
    rw [step_quiet hq] at h
    simp only [Except.ok.injEq, Prod.mk.injEq] at h
    exact ⟨hq, h.1.symm, h.2.symm⟩
  by_cases hp : m = .plain
  · subst hp
    exact .inl (q ⟨hS, hE⟩)
  by_cases hd : m = .opened ∧ (Has x .Dc ∨ Has x .Ds)
  · obtain ⟨rfl, hd⟩ := hd
    simp only [Has] at hE hS hd
    simp [renderStep, toState, hE, hS, hd, fail] at h
  cases hv : endingNo x with
  | none =>
    refine .inl (q ?_)
    cases m with
    | first => exact ⟨hS, hE, hv⟩
    | plain => exact absurd rfl hp
    | opened =>
      exact ⟨hS, hE, fun h => hd ⟨rfl, .inl h⟩, fun h => hd ⟨rfl, .inr h⟩, hv⟩
  | some k =>
    by_cases hk : k = 1
    · subst hk
      have ho : OpensEndings m x := by
        cases m with
        | first => exact ⟨hS, hE, hv⟩
        | plain => exact absurd rfl hp
        | opened => exact ⟨hS, hE, fun h => hd ⟨rfl, .inl h⟩, fun h => hd ⟨rfl, .inr h⟩, hv⟩
      rw [step_open h0 hp ho] at h
      simp only [Except.ok.injEq, Prod.mk.injEq] at h
      exact .inr (.inr (.inr ⟨hp, ho, h.1.symm, h.2.symm⟩))
    · obtain ⟨v, h1, h2⟩ := endingNo_some.1 hv
      have hv1 : v ≠ .VI1 := by
        rintro rfl
        exact hk h2.symm
      exfalso
      simp only [Has] at hE hS hd
      cases m with
      | first => simp [renderStep, toState, hE, hS, h1, hv1, fail] at h
      | plain => exact hp rfl
      | opened =>
        have hd1 : ¬ (x.repeats.contains .Dc = true ∨ x.repeats.contains .Ds = true) := fun h => hd ⟨rfl, h⟩
        simp only [renderStep, toState, fail] at h
        rw [if_neg (by simp [hE]), if_neg hE, if_neg hS, if_neg hd1, h1] at h
        simp [hv1] at h

theorem step_inv_var {sg : Option Nat} {s : Nat} {ts : List Nat} {x : Bar} {rs : List SimpleRegion} {st : RenderState}
    (hne : ts ≠ []) (hlen : ts.length ≤ 4) (h : renderStep sg (.variation s ts) x = .ok (rs, st)) :
    (InEnding ts.length x ∧ rs = [] ∧ st = .variation s ts) ∨
    (InEnding (ts.length + 1) x ∧ ts.length + 1 ≤ 4 ∧ rs = [] ∧ st = .variation s (ts ++ [x.startTick])) ∨
    (¬ Has x .End ∧ endingNo x = none ∧ SegnoOk sg ts ∧
      rs = [Passage.region (.endings s ts x.startTick)] ∧ st = toState (after x) x.startTick) := by
  have hm : ts.length % 256 = ts.length := by omega
  by_cases hE : Has x .End
  · simp only [Has] at hE
    simp [renderStep, hE, fail] at h
  cases hv : endingNo x with
  | none =>
    by_cases hs : SegnoOk sg ts
    · rw [step_finish hne hE hv hs] at h
      simp only [Except.ok.injEq, Prod.mk.injEq] at h
      exact .inr (.inr ⟨hE, rfl, hs, h.1.symm, h.2.symm⟩)
    · exfalso
      have hc : ∀ u, checkSegno sg ts x.startTick ≠ .ok u := by
        intro u hu
        exact hs ((checkSegno_ok hne).1 hu)
      rw [endingNo_none] at hv
      simp only [Has] at hE
      simp only [renderStep, hv] at h
      rw [if_neg hE, RR_bind_eq_ok] at h
      obtain ⟨u, hu, _⟩ := h
      exact hc u hu
  | some k =>
    by_cases hd : Has x .Dc ∨ Has x .Ds
    · exfalso
      obtain ⟨v, h1, h2⟩ := endingNo_some.1 hv
      simp only [Has] at hE hd
      simp only [renderStep, h1, fail] at h
      rw [if_neg hE, if_pos hd] at h
      cases h
    · have hd1 : ¬ Has x .Dc := fun h => hd (.inl h)
      have hd2 : ¬ Has x .Ds := fun h => hd (.inr h)
      by_cases hk : k = ts.length
      · subst hk
        have hi : InEnding ts.length x := ⟨hE, hd1, hd2, hv⟩
        rw [step_in hi] at h
        simp only [Except.ok.injEq, Prod.mk.injEq] at h
        exact .inl ⟨hi, h.1.symm, h.2.symm⟩
      by_cases hk' : k = ts.length + 1
      · subst hk'
        have hi : InEnding (ts.length + 1) x := ⟨hE, hd1, hd2, hv⟩
        rw [step_next hi] at h
        simp only [Except.ok.injEq, Prod.mk.injEq] at h
        obtain ⟨v, h1, h2⟩ := endingNo_some.1 hv
        have := value_le v
        exact .inr (.inl ⟨hi, by omega, h.1.symm, h.2.symm⟩)
      · exfalso
        obtain ⟨v, h1, h2⟩ := endingNo_some.1 hv
        simp only [Has] at hE hd
        simp only [renderStep, h1, h2, hm, fail] at h
        rw [if_neg hE, if_neg hd, if_neg hk, if_neg hk'] at h
        split at h <;> cases h

/-! ## From the grammar to the loop -/

theorem stepLoop_quiet {sg : Option Nat} {m : Mode} {a : Nat} (inside rest : List Bar) (h : ∀ x ∈ inside, Quiet m x) :
    stepLoop sg (toState m a) (inside ++ rest) = stepLoop sg (toState m a) rest := by
  induction inside with
  | nil => rfl
  | cons x xs ih =>
    rw [List.cons_append, stepLoop, step_quiet (h x (by simp))]
    simp only [RR_bind_ok]
    rw [ih (fun y hy => h y (by simp [hy]))]
    generalize stepLoop sg (toState m a) rest = r
    cases r <;> simp

theorem stepLoop_in {sg : Option Nat} {s : Nat} {ts : List Nat} (xs rest : List Bar)
    (h : ∀ x ∈ xs, InEnding ts.length x) :
    stepLoop sg (.variation s ts) (xs ++ rest) = stepLoop sg (.variation s ts) rest := by
  induction xs with
  | nil => rfl
  | cons x xs ih =>
    rw [List.cons_append, stepLoop, step_in (h x (by simp))]
    simp only [RR_bind_ok]
    rw [ih (fun y hy => h y (by simp [hy]))]
    generalize stepLoop sg (.variation s ts) rest = r
    cases r <;> simp

theorem stepLoop_endings {sg : Option Nat} {s k : Nat} {bars : List Bar} {ts : List Nat} (h : Endings k bars ts) :
    ∀ (v : Bar) (es rest : List Bar) (pre : List Nat), bars = v :: es → pre.length + 1 = k →
    stepLoop sg (.variation s (pre ++ [v.startTick])) (es ++ rest) = stepLoop sg (.variation s (pre ++ ts)) rest := by
  induction h with
  | last hx =>
    intro v es rest pre e hk
    cases e
    refine stepLoop_in _ _ ?_
    simpa [hk] using hx
  | @more k x y xs ys ts hx hy _ ih =>
    intro v es rest pre e hk
    cases e
    rw [List.append_assoc, stepLoop_in _ _ (by simpa [hk] using hx), List.cons_append, stepLoop,
      step_next (by simpa [hk] using hy)]
    simp only [RR_bind_ok]
    have := ih _ _ rest (pre ++ [x.startTick]) rfl (by simp [hk])
    rw [this]
    simp only [List.append_assoc, List.singleton_append, List.nil_append]
    generalize stepLoop _ _ _ = r
    cases r <;> simp

theorem Endings_ne {k : Nat} {bars : List Bar} {ts : List Nat} (h : Endings k bars ts) : ts ≠ [] := by
  cases h <;> simp

theorem reads_stepLoop {sg : Option Nat} {m : Mode} {a : Nat} {bars : List Bar} {ps : List Passage}
    (h : Reads sg m a bars ps) : (m = .first → a = 0) →
    ∃ rs st z, stepLoop sg (toState m a) bars = .ok (rs, st) ∧ finish st = some z ∧
      rs ++ [.seq ⟨z, U32_MAX⟩] = ps.map Passage.region := by
  induction h with
  | @last m a bars hm hq =>
    intro h0
    have := stepLoop_quiet (sg := sg) (a := a) bars [] hq
    rw [List.append_nil] at this
    rw [this]
    cases m with
    | first => exact ⟨[], _, a, rfl, by rw [h0 rfl]; rfl, rfl⟩
    | plain => exact ⟨[], _, a, rfl, rfl, rfl⟩
    | opened => exact absurd rfl hm
  | @start m a inside rest x ps hm hq h1 h2 _ ih =>
    intro h0
    obtain ⟨rs, st, z, i1, i2, i3⟩ := ih (by simp)
    refine ⟨Passage.region (.plain a x.startTick) :: rs, st, z, ?_, i2, congrArg (Passage.region (.plain a x.startTick) :: ·) i3⟩
    rw [stepLoop_quiet _ _ hq, stepLoop, step_start h0 hm h1 h2]
    simp only [toState] at i1
    simp only [RR_bind_ok, i1, RR_pure]
    rfl
  | @close m a inside rest x ps hm hq h2 _ ih =>
    intro h0
    obtain ⟨rs, st, z, i1, i2, i3⟩ := ih (by unfold after; split <;> simp)
    refine ⟨Passage.region (.repeated a x.startTick) :: rs, st, z, ?_, i2, congrArg (Passage.region (.repeated a x.startTick) :: ·) i3⟩
    rw [stepLoop_quiet _ _ hq, stepLoop, step_close h0 hm h2]
    simp only [RR_bind_ok, i1, RR_pure]
    rfl
  | @endings m a inside es rest v x ts ps hm hq hv he hs h1 h2 _ ih =>
    intro h0
    obtain ⟨rs, st, z, i1, i2, i3⟩ := ih (by unfold after; split <;> simp)
    refine ⟨Passage.region (.endings a ts x.startTick) :: rs, st, z, ?_, i2, congrArg (Passage.region (.endings a ts x.startTick) :: ·) i3⟩
    rw [stepLoop_quiet _ _ hq, stepLoop, step_open h0 hm hv]
    simp only [RR_bind_ok]
    have := stepLoop_endings (sg := sg) (s := a) he v es (x :: rest) [] rfl rfl
    rw [List.nil_append, List.nil_append] at this
    rw [this, stepLoop, step_finish (Endings_ne he) h1 h2 hs]
    simp only [RR_bind_ok, i1, RR_pure]
    rfl

/-! ## From the loop to the grammar -/

theorem Reads_quiet {sg : Option Nat} {m : Mode} {a : Nat} {bars : List Bar} {ps : List Passage} {x : Bar}
    (hx : Quiet m x) (h : Reads sg m a bars ps) : Reads sg m a (x :: bars) ps := by
  have hc : ∀ l : List Bar, (∀ y ∈ l, Quiet m y) → ∀ y ∈ x :: l, Quiet m y := by
    intro l hl y hy
    rcases List.mem_cons.1 hy with rfl | hy
    · exact hx
    · exact hl y hy
  cases h with
  | last hm hq => exact .last hm (hc _ hq)
  | start hm hq h1 h2 hr => exact .start hm (hc _ hq) h1 h2 hr
  | close hm hq h2 hr => exact .close hm (hc _ hq) h2 hr
  | endings hm hq hv he hs h1 h2 hr => exact .endings hm (hc _ hq) hv he hs h1 h2 hr

theorem Endings_in {k : Nat} {v x : Bar} {es : List Bar} {ts : List Nat} (hx : InEnding k x)
    (h : Endings k (v :: es) ts) : Endings k (v :: x :: es) ts := by
  have hc : ∀ l : List Bar, (∀ y ∈ l, InEnding k y) → ∀ y ∈ x :: l, InEnding k y := by
    intro l hl y hy
    rcases List.mem_cons.1 hy with rfl | hy
    · exact hx
    · exact hl y hy
  cases h with
  | last h => exact .last (hc _ h)
  | more h1 h2 h3 => exact .more (hc _ h1) h2 h3

theorem stepLoop_reads {sg : Option Nat} (bars : List Bar) :
    (∀ (m : Mode) (a : Nat) (rs : List SimpleRegion) (st : RenderState) (z : Nat), (m = .first → a = 0) →
      stepLoop sg (toState m a) bars = .ok (rs, st) → finish st = some z →
      ∃ ps, Reads sg m a bars ps ∧ rs ++ [.seq ⟨z, U32_MAX⟩] = ps.map Passage.region) ∧
    (∀ (s : Nat) (pre : List Nat) (v : Bar) (rs : List SimpleRegion) (st : RenderState) (z : Nat), pre.length + 1 ≤ 4 →
      stepLoop sg (.variation s (pre ++ [v.startTick])) bars = .ok (rs, st) → finish st = some z →
      ∃ es x rest ts ps, bars = es ++ x :: rest ∧ Endings (pre.length + 1) (v :: es) ts ∧ SegnoOk sg (pre ++ ts) ∧
        ¬ Has x .End ∧ endingNo x = none ∧ Reads sg (after x) x.startTick rest ps ∧
        rs ++ [.seq ⟨z, U32_MAX⟩] = Passage.region (.endings s (pre ++ ts) x.startTick) :: ps.map Passage.region) := by
  induction bars with
  | nil =>
    constructor
    · intro m a rs st z h0 h hf
      simp only [stepLoop, Except.ok.injEq, Prod.mk.injEq] at h
      obtain ⟨rfl, rfl⟩ := h
      cases m with
      | first =>
        simp only [toState, finish, Option.some.injEq] at hf
        refine ⟨_, .last (by simp) (by simp), ?_⟩
        rw [h0 rfl, ← hf]
        rfl
      | plain =>
        simp only [toState, finish, Option.some.injEq] at hf
        refine ⟨_, .last (by simp) (by simp), ?_⟩
        rw [hf]
        rfl
      | opened => simp [toState, finish] at hf
    · intro s pre v rs st z hl h hf
      simp only [stepLoop, Except.ok.injEq, Prod.mk.injEq] at h
      rw [← h.2] at hf
      simp [finish] at hf
  | cons x xs ih =>
    obtain ⟨ih1, ih2⟩ := ih
    constructor
    · intro m a rs st z h0 h hf
      rw [stepLoop, RR_bind_eq_ok] at h
      obtain ⟨⟨rs1, st1⟩, h1, h⟩ := h
      dsimp only at h
      rw [RR_bind_eq_ok] at h
      obtain ⟨⟨rs2, st2⟩, h2, h⟩ := h
      simp only [RR_pure, Except.ok.injEq, Prod.mk.injEq] at h
      obtain ⟨rfl, rfl⟩ := h
      rcases step_inv h0 h1 with ⟨hq, rfl, rfl⟩ | ⟨hm, hS, hE, rfl, rfl⟩ | ⟨hm, hE, rfl, rfl⟩ | ⟨hm, ho, rfl, rfl⟩
      · obtain ⟨ps, p1, p2⟩ := ih1 m a rs2 st2 z h0 h2 hf
        exact ⟨ps, Reads_quiet hq p1, p2⟩
      · obtain ⟨ps, p1, p2⟩ := ih1 .opened x.startTick rs2 st2 z (by simp) h2 hf
        exact ⟨_, Reads.start (inside := []) (a := a) hm (by simp) hS hE p1, by
          rw [List.singleton_append, List.cons_append, p2]; rfl⟩
      · obtain ⟨ps, p1, p2⟩ := ih1 (after x) x.startTick rs2 st2 z (by unfold after; split <;> simp) h2 hf
        exact ⟨_, Reads.close (inside := []) (a := a) hm (by simp) hE p1, by
          rw [List.singleton_append, List.cons_append, p2]; rfl⟩
      · obtain ⟨es, y, rest, ts, ps, e, p1, p2, p3, p4, p5, p6⟩ := ih2 a [] x rs2 st2 z (by simp) h2 hf
        subst e
        exact ⟨_, Reads.endings (inside := []) (a := a) hm (by simp) ho p1 p2 p3 p4 p5, by
          rw [List.nil_append, p6]; rfl⟩
    · intro s pre v rs st z hl h hf
      rw [stepLoop, RR_bind_eq_ok] at h
      obtain ⟨⟨rs1, st1⟩, h1, h⟩ := h
      dsimp only at h
      rw [RR_bind_eq_ok] at h
      obtain ⟨⟨rs2, st2⟩, h2, h⟩ := h
      simp only [RR_pure, Except.ok.injEq, Prod.mk.injEq] at h
      obtain ⟨rfl, rfl⟩ := h
      have hlen : (pre ++ [v.startTick]).length = pre.length + 1 := by simp
      rcases step_inv_var (by simp) (by rw [hlen]; omega) h1 with
        ⟨hi, rfl, rfl⟩ | ⟨hi, hl', rfl, rfl⟩ | ⟨hE, hv, hs, rfl, rfl⟩
      · obtain ⟨es, y, rest, ts, ps, e, p1, p2, p3, p4, p5, p6⟩ := ih2 s pre v rs2 st2 z hl h2 hf
        subst e
        rw [hlen] at hi
        exact ⟨x :: es, y, rest, ts, ps, rfl, Endings_in hi p1, p2, p3, p4, p5, p6⟩
      · rw [hlen] at hl'
        obtain ⟨es, y, rest, ts, ps, e, p1, p2, p3, p4, p5, p6⟩ :=
          ih2 s (pre ++ [v.startTick]) x rs2 st2 z (by rw [hlen]; exact hl') h2 hf
        subst e
        rw [hlen] at hi p1
        refine ⟨x :: es, y, rest, v.startTick :: ts, ps, rfl, .more (xs := []) (by simp) hi p1, ?_, p3, p4, p5, ?_⟩
        · simpa using p2
        · simpa using p6
      · obtain ⟨ps, p1, p2⟩ := ih1 (after x) x.startTick rs2 st2 z (by unfold after; split <;> simp) h2 hf
        refine ⟨[], x, xs, [v.startTick], ps, rfl, .last (by simp), hs, hE, hv, p1, ?_⟩
        rw [List.singleton_append, List.cons_append, p2]

/-- The loop over the bars succeeds with an acceptable state exactly for the
scores of the grammar, and its regions are those of the passages. -/
theorem stepLoop_iff (sg : Option Nat) (bars : List Bar) (out : List SimpleRegion) :
    (∃ rs st z, stepLoop sg .idle bars = .ok (rs, st) ∧ finish st = some z ∧ out = rs ++ [.seq ⟨z, U32_MAX⟩]) ↔
    ∃ ps, Reads sg .first 0 bars ps ∧ out = ps.map Passage.region := by
  constructor
  · rintro ⟨rs, st, z, h1, h2, rfl⟩
    obtain ⟨ps, p1, p2⟩ := (stepLoop_reads bars).1 .first 0 rs st z (fun _ => rfl) h1 h2
    exact ⟨ps, p1, p2⟩
  · rintro ⟨ps, h, rfl⟩
    obtain ⟨rs, st, z, h1, h2, h3⟩ := reads_stepLoop h (fun _ => rfl)
    exact ⟨rs, st, z, h1, h2, h3.symm⟩

end Klavier
