import Verif.Lemmas.FirstFault
import Verif.Props.RepeatSet

/-! # C32: malformed repeats are reported -/
set_option autoImplicit false
namespace Klavier
open Spec

/-! Bar lines for the examples. -/

private def bar (t : Nat) (s : RepeatSet := {}) : Bar := ⟨t, none, none, s⟩
private def render (bars : List Bar) := renderRegion false ⟨4, .D4⟩ bars

private theorem one_bar {x : Bar} {pre rest : List Bar} {y : Bar} (h : [x] = pre ++ y :: rest) : pre = [] ∧ y = x ∧ rest = [] := by
  cases pre with
  | nil => simp only [List.nil_append, List.cons.injEq] at h; exact ⟨rfl, h.1.symm, h.2.symm⟩
  | cons a l => simp at h

private theorem open_nil (s : Nat) : ¬ Open [] s := by
  rintro ⟨l, y, r, h, _⟩
  simp at h

private theorem endings_nil (ts : List Nat) : ¬ InEndings [] ts := by
  rintro ⟨l, y, r, h, _⟩
  simp at h

private theorem closed_nil (s : Nat) : ¬ Closed [] s := by
  rintro ⟨l, y, r, h, _⟩
  simp at h

private theorem built1 (t : Nat) (m : Repeat) : Built (bar t (mark1 m)).repeats := by
  show Built (mark1 m)
  exact Built.add (r := m) Built.empty (by cases m <;> decide)

/-- C32: an error returned for a score describes it: the score has the fault
named, at the bar lines named. (In particular the variants for which `Describes`
is false are never returned.) -/
theorem C32_reported (ip : Bool) (tune : Rhythm) (bars : List Bar) (hb : BarsOk bars) (e : RenderRegionError)
    (h : renderRegion ip tune bars = .error (.err e)) : Describes bars e := by
  rcases render_error hb h with ⟨r, h1, h2⟩ | ⟨⟨p, h1⟩, _⟩
  · cases h1
    exact h2
  · cases h1

/-! Each kind of error does occur. -/
example : render [bar 100 (mark1 .Start), bar 200 (mark1 .Start)] = .error (.err (.duplicatedRepeatStart 200)) := by decide
example : render [bar 100 (mark1 .End), bar 200 (mark1 .End)] = .error (.err (.orphanRepeatEnd 200)) := by decide
example : render [bar 100 (mark1 .Start)] = .error (.err (.noRepeatEnd 100)) := by decide
example : render [bar 100 (mark1 .Var1), bar 200 (mark1 .Var2)] = .error (.err (.variationNotClosed 200)) := by decide
example : render [bar 100 (mark1 .Var1), bar 200 (mark1 .End)] = .error (.err (.repeatInVariation 200)) := by decide
example : render [bar 100 (mark1 .Start), bar 200 (mark1 .Dc)] = .error (.err (.dcDsWhileRepeat 200)) := by decide
example : render [bar 100 (mark1 .Var1), bar 200 (mark1 .Var3)] = .error (.err (.invalidRegionIndex 200 .VI3 .VI2)) := by decide
example : render [bar 100 (mark1 .Var2)] = .error (.err (.invalidRegionIndex 100 .VI2 .VI1)) := by decide
example : render [bar 100 (mark2 .Var1 .Segno), bar 200 (mark1 .Var2), bar 300] = .error (.err (.segnoWhileVariation 300)) := by decide
example : render [bar 100 (mark1 .Segno), bar 200 (mark1 .Segno)] = .error (.err (.duplicatedSegno 100 200)) := by decide
example : render [bar 100 (mark1 .Fine), bar 200 (mark1 .Fine)] = .error (.err (.duplicatedFine 100 200)) := by decide
example : render [bar 100 (mark1 .Dc), bar 200 (mark1 .Ds)] = .error (.err (.duplicatedDsDc 100 200)) := by decide
example : render [bar 100 (mark1 .Coda), bar 200 (mark1 .Coda), bar 300 (mark1 .Coda)] = .error (.err (.moreThanTwoCodas 100 200 300)) := by
  decide
example : render [bar 100 (mark1 .Ds)] = .error (.err (.noSegnoForDs 100)) := by decide
example : render [bar 100 (mark1 .Segno), bar 200 (mark1 .Coda), bar 300 (mark1 .Ds)] = .error (.err (.onlyOneCoda 200)) := by decide
example : render [bar 100 (mark1 .Fine), bar 200 (mark1 .Coda), bar 300 (mark1 .Coda), bar 400 (mark1 .Dc)] =
    .error (.err (.codaAfterFine 200 300 100)) := by decide
example : BarsOk [bar 100 (mark1 .Start), bar 200 (mark1 .Start)] := ⟨by decide, by decide⟩

/-- C32: a score is rendered exactly if its marks read as passages, none is given
too often, and the jump and its Codas fit. -/
theorem C32_accepts_iff (ip : Bool) (tune : Rhythm) (bars : List Bar) (hb : BarsOk bars) :
    (∃ c w, renderRegion ip tune bars = .ok (c, w)) ↔
      MarksOk bars ∧ (∃ ps, Reads (marks bars .Segno).head? .first 0 bars ps) ∧ JumpOk ip tune bars := by
  constructor
  · rintro ⟨c, w, h⟩
    obtain ⟨h1, ⟨ps, h2, _⟩, h3⟩ := (render_ok_iff hb.1 ip tune c w).1 h
    exact ⟨h1, ⟨ps, h2⟩, GlobalRepeatBuilder.build_ok hb h1 h3⟩
  · rintro ⟨h1, ⟨ps, h2⟩, h3⟩
    obtain ⟨⟨g, w⟩, h4⟩ := GlobalRepeatBuilder.jump_builds hb h1 h3
    exact ⟨⟨g, ps.map Passage.region⟩, w, (render_ok_iff hb.1 ip tune _ w).2 ⟨h1, ⟨ps, h2, rfl⟩, h4⟩⟩

example : ∃ c w, render [bar 100 (mark1 .Start), bar 200 (mark1 .End), bar 300 (mark1 .Fine), bar 400 (mark1 .Dc)] = .ok (c, w) :=
  ⟨⟨some ⟨.dc 400 100, some 300, 100, none, [(100, 299)]⟩, [.seq ⟨0, 100⟩, .rep ⟨100, 200⟩, .seq ⟨200, U32_MAX⟩]⟩, [], by decide⟩

private theorem separate {bars : List Bar} (hr : ∀ x ∈ bars, Built x.repeats) : Separate bars := by
  intro x hx hs
  have h := (C26_consistent (hr x hx)).2.1
  simp only [Has] at hs
  have none : ∀ v, isEnding v = true → x.repeats.contains v = false := by
    intro v hv
    cases hc : x.repeats.contains v with
    | false => rfl
    | true => rw [(h v hv hc).1] at hs; cases hs
  unfold endingNo
  simp [Has, none .Var1 rfl, none .Var2 rfl, none .Var3 rfl, none .Var4 rfl]

/-- The state reached before a bar line, and the step it makes. -/
private theorem step_at {bars pre rest : List Bar} {x : Bar} (hb : BarsOk bars) {ip : Bool} {tune : Rhythm} {c : CompoundRegion}
    {w : List RenderRegionWarning} (h : renderRegion ip tune bars = .ok (c, w)) (hs : bars = pre ++ x :: rest) :
    ∃ r1 s1 r2 s2, stepLoop (marks bars .Segno).head? .idle pre = .ok (r1, s1) ∧
      renderStep (marks bars .Segno).head? s1 x = .ok (r2, s2) := by
  obtain ⟨rs, st, h1, _⟩ := render_steps hb h
  generalize (marks bars .Segno).head? = sg at h1
  rw [hs] at h1
  obtain ⟨r1, s1, r2, k1, k2⟩ := stepLoop_append _ _ _ _ _ _ h1
  obtain ⟨q1, t1, q2, m1, _⟩ := stepLoop_cons k2
  exact ⟨r1, s1, q1, t1, k1, m1⟩

/-- C32: no score with a fault is rendered. -/
theorem C32_refused (ip : Bool) (tune : Rhythm) (bars : List Bar) (hb : BarsOk bars) (hr : ∀ x ∈ bars, Built x.repeats)
    (e : RenderRegionError) (he : Describes bars e) (c : CompoundRegion) (w : List RenderRegionWarning) :
    renderRegion ip tune bars ≠ .ok (c, w) := by
  intro h
  have hsep := separate hr
  obtain ⟨rs, st, hst, hfin⟩ := render_steps hb h
  obtain ⟨hm, _, hj⟩ := (C32_accepts_iff ip tune bars hb).1 ⟨c, w, h⟩
  have ending : ∀ {x : Bar} {v : VarIndex}, endingNo x = some v.value → x.repeats.regionIndex = some v := by
    intro x v hv
    obtain ⟨v', h1, h2⟩ := endingNo_some.1 hv
    have : v' = v := by revert h2; cases v' <;> cases v <;> decide
    rw [h1, this]
  have before : ∀ {pre rest : List Bar} {x : Bar}, bars = pre ++ x :: rest → Separate pre := by
    intro pre rest x hp
    rw [hp] at hsep
    exact hsep.left
  have long : ∀ {l : List Nat} {n : Nat} {k : List Nat}, l.take n = k → k.length = n → n ≤ l.length := by
    intro l n k h1 h2
    rw [← h1, List.length_take] at h2
    omega
  cases e with
  | duplicatedRepeatStart t =>
    obtain ⟨pre, x, rest, s, hp, _, h1, h2, h3⟩ := he
    obtain ⟨r1, s1, r2, s2, k1, k2⟩ := step_at hb h hp
    have := state_open (before hp) h3 k1
    subst this
    simp only [Has] at h1 h2
    simp [renderStep, h1, h2, fail] at k2
  | orphanRepeatEnd t =>
    obtain ⟨pre, x, rest, s, hp, _, h1, h3⟩ := he
    obtain ⟨r1, s1, r2, s2, k1, k2⟩ := step_at hb h hp
    have := state_closed (before hp) h3 k1
    subst this
    simp only [Has] at h1
    simp [renderStep, h1, fail] at k2
  | noRepeatEnd s =>
    have := state_open hsep he hst
    subst this
    simp at hfin
  | variationNotClosed t =>
    obtain ⟨ts, h1, _⟩ := he
    obtain ⟨s, rfl⟩ := state_endings hsep h1 hst
    simp at hfin
  | repeatInVariation t =>
    obtain ⟨pre, x, rest, ts, hp, _, h1, h3⟩ := he
    obtain ⟨r1, s1, r2, s2, k1, k2⟩ := step_at hb h hp
    obtain ⟨s, rfl⟩ := state_endings (before hp) h3 k1
    simp only [Has] at h1
    simp [renderStep, h1, fail] at k2
  | dcDsWhileRepeat t =>
    obtain ⟨pre, x, rest, s, hp, _, h1, h2, h3, h4⟩ := he
    obtain ⟨r1, s1, r2, s2, k1, k2⟩ := step_at hb h hp
    have := state_open (before hp) h4 k1
    subst this
    simp only [Has] at h1 h2 h3
    simp [renderStep, h1, h2, h3, fail] at k2
  | dcDsWhileVariation t =>
    obtain ⟨pre, x, rest, ts, hp, _, h1, h2, h3, h4⟩ := he
    obtain ⟨r1, s1, r2, s2, k1, k2⟩ := step_at hb h hp
    obtain ⟨s, rfl⟩ := state_endings (before hp) h4 k1
    obtain ⟨n, hn⟩ := Option.ne_none_iff_exists'.1 h3
    obtain ⟨v, hv, _⟩ := endingNo_some.1 hn
    simp only [Has] at h1 h2
    simp [renderStep, h1, h2, hv, fail] at k2
  | invalidRegionIndex t actual expected =>
    obtain ⟨pre, x, rest, hp, _, h1, h2, h3, h4⟩ := he
    obtain ⟨r1, s1, r2, s2, k1, k2⟩ := step_at hb h hp
    have hv := ending h1
    simp only [Has] at h3 h4
    rcases h4 with ⟨rfl, h4, h5⟩ | ⟨h4, h5, ts, h6, h7, h8⟩
    · rcases h5 with h5 | ⟨h5, h6, s, h7⟩
      · have := state_first h5 k1
        subst this
        simp [renderStep, h3, h4, hv, h2, fail] at k2
      · have := state_open (before hp) h7 k1
        subst this
        simp [renderStep, h3, h4, h5, h6, hv, h2, fail] at k2
    · obtain ⟨s, rfl⟩ := state_endings (before hp) h6 k1
      have hlen := InEndings_length h6
      have hmod : ts.length % 256 = ts.length := Nat.mod_eq_of_lt (by omega)
      have h9 : ¬ actual.value = ts.length + 1 := by
        rw [← h7]
        intro c
        apply h2
        revert c
        cases actual <;> cases expected <;> decide
      simp only [renderStep, h3, h4, h5, hv, hmod, h8, h9, fail, Bool.false_eq_true, if_false, or_self] at k2
      split at k2 <;> cases k2
  | segnoWhileVariation t =>
    obtain ⟨pre, x, rest, ts, s, first, last, hp, _, h1, h2, h3, h4, h5, h6, h7, h8⟩ := he
    obtain ⟨r1, s1, r2, s2, k1, k2⟩ := step_at hb h hp
    obtain ⟨s', rfl⟩ := state_endings (before hp) h3 k1
    have hsg : (marks bars .Segno).head? = some s := by
      have := hm.2.2.1
      match hl : marks bars .Segno with
      | [] => rw [hl] at h4; simp at h4
      | [a] => rw [hl] at h4; simp at h4; rw [h4]; rfl
      | a :: b :: l => rw [hl] at this; simp at this
    simp only [Has] at h2
    simp only [renderStep, h2, endingNo_none.1 h1, Bool.false_eq_true, if_false] at k2
    rw [RR_bind_eq_ok] at k2
    obtain ⟨_, k2, _⟩ := k2
    simp [checkSegno, hsg, h5, h6, h7, h8, fail] at k2
  | duplicatedSegno a b =>
    have := long he rfl
    have := hm.2.2.1
    omega
  | duplicatedFine a b =>
    have := long he rfl
    have := hm.2.1
    omega
  | duplicatedDsDc a b =>
    have h1 := long he rfl
    have h2 : ∀ l : List Bar, (jumpTicks l).length = (marks l .Dc).length + (marks l .Ds).length := by
      intro l
      induction l with
      | nil => rfl
      | cons x l ih =>
        have : jumpTicks (x :: l) = ((if Has x .Dc then [x.startTick] else []) ++ (if Has x .Ds then [x.startTick] else [])) ++
            jumpTicks l := rfl
        rw [this, GlobalRepeatBuilder.marks_cons, GlobalRepeatBuilder.marks_cons, List.length_append, List.length_append, List.length_append, List.length_append, ih]
        by_cases h1 : x.repeats.contains .Dc = true <;> by_cases h2 : x.repeats.contains .Ds = true <;>
          simp [GlobalRepeatBuilder.at_, Has, h1, h2] <;> omega
    have := h2 bars
    have := hm.1
    omega
  | moreThanTwoCodas a b c =>
    have := long he rfl
    have := hm.2.2.2
    omega
  | noSegnoForDs d =>
    obtain ⟨s, h1, _⟩ := hj.1 d he.1
    rw [he.2] at h1
    cases h1
  | onlyOneCoda t =>
    obtain ⟨h1, h2⟩ := he
    match hl : marks bars .Ds with
    | [] => exact h2 hl
    | [d] =>
      obtain ⟨s, _, h3, _⟩ := hj.1 d hl
      rw [h1] at h3
      simp at h3
    | a :: b :: l =>
      have := hm.1
      rw [hl] at this
      simp at this
      omega
  | codaAfterFine f t e =>
    obtain ⟨h1, h2, h3, h4⟩ := he
    have bad : ∀ target, ¬ CodasOk ip target bars := by
      intro target hc
      simp only [CodasOk, h1, endTick, h2, List.headD_cons] at hc
      omega
    match hd : marks bars .Ds with
    | d :: l =>
      have hl : marks bars .Ds = [d] := by
        refine GlobalRepeatBuilder.head_eq ?_ (by rw [hd]; rfl)
        have := hm.1
        omega
      obtain ⟨s, _, _, h5⟩ := hj.1 d hl
      exact bad _ h5
    | [] =>
      match hc : marks bars .Dc with
      | d :: l =>
        have hl : marks bars .Dc = [d] := by
          refine GlobalRepeatBuilder.head_eq ?_ (by rw [hc]; rfl)
          have := hm.1
          omega
        cases hf : firstBarEnd bars with
        | some first => exact bad _ (hj.2 d first hl hf).2
        | none =>
          have hsort := GlobalRepeatBuilder.marks_sorted hb.1 .Coda
          simp only [h1, List.pairwise_cons, List.mem_singleton, forall_eq] at hsort
          have : t ∈ marks bars .Coda := by simp [h1]
          obtain ⟨x, k1, _, k3⟩ := mem_marks.1 this
          have := List.find?_eq_none.1 hf t (List.mem_map.2 ⟨x, k1, k3⟩)
          simp at this
          omega
      | [] =>
        apply h4
        have : ∀ l : List Bar, marks l .Dc = [] → marks l .Ds = [] → jumpTicks l = [] := by
          intro l h1 h2
          have : ∀ x ∈ l, ¬ Has x .Dc ∧ ¬ Has x .Ds := by
            intro x hx
            refine ⟨fun c => ?_, fun c => ?_⟩
            · have : x.startTick ∈ marks l .Dc := mem_marks.2 ⟨x, hx, c, rfl⟩
              rw [h1] at this
              simp at this
            · have : x.startTick ∈ marks l .Ds := mem_marks.2 ⟨x, hx, c, rfl⟩
              rw [h2] at this
              simp at this
          simp only [jumpTicks, List.flatMap_eq_nil_iff]
          intro x hx
          simp [this x hx]
        exact this bars hc hd
  | _ => exact he

example : let bars := [bar 100 (mark1 .Ds), bar 200 (mark1 .Segno), bar 300 (mark1 .Segno)]
    BarsOk bars ∧ (∀ x ∈ bars, Built x.repeats) ∧ Describes bars (.duplicatedSegno 200 300) := by
  refine ⟨⟨by decide, by decide⟩, ?_, ?_⟩
  · intro x hx
    simp only [List.mem_cons, List.not_mem_nil, or_false] at hx
    rcases hx with rfl | rfl | rfl <;> exact built1 _ _
  · exact C32_reported false ⟨4, .D4⟩ _ ⟨by decide, by decide⟩ _ (by decide)

/-- C32: if a score has just one fault (and is none of the arrangements of
`PanicProne`), rendering returns that very fault. -/
theorem C32_only_fault (ip : Bool) (tune : Rhythm) (bars : List Bar) (hb : BarsOk bars) (hr : ∀ x ∈ bars, Built x.repeats)
    (e : RenderRegionError) (he : Describes bars e) (hu : ∀ e', Describes bars e' → e' = e) (hp : ¬ PanicProne ip tune bars) :
    renderRegion ip tune bars = .error (.err e) := by
  cases h : renderRegion ip tune bars with
  | ok r => exact absurd h (C32_refused ip tune bars hb hr e he r.1 r.2)
  | error f =>
    rcases render_error hb h with ⟨r, rfl, h2⟩ | ⟨_, h2⟩
    · rw [hu r h2]
    · exact absurd h2 hp

/-- The hypotheses of `C32_only_fault`: an unclosed repeat is the only fault here. -/
example : let bars := [bar 100 (mark1 .Start)]
    BarsOk bars ∧ (∀ x ∈ bars, Built x.repeats) ∧ Describes bars (.noRepeatEnd 100) ∧
      (∀ e, Describes bars e → e = .noRepeatEnd 100) ∧ ¬ PanicProne true ⟨4, .D4⟩ bars := by
  have hmk : ∀ m, m ≠ .Start → marks [bar 100 (mark1 .Start)] m = [] := by intro m hm; revert hm; cases m <;> decide
  have hj : jumpTicks [bar 100 (mark1 .Start)] = [] := by decide
  refine ⟨⟨by decide, by decide⟩, ?_, ⟨[], bar 100 (mark1 .Start), [], rfl, rfl, by decide, by simp⟩, ?_, ?_⟩
  · intro x hx
    simp only [List.mem_singleton] at hx
    subst hx
    exact Built.add (r := .Start) Built.empty (by decide)
  · intro e he
    cases e with
    | duplicatedRepeatStart t =>
      obtain ⟨pre, x, rest, s, hp, _, _, _, h⟩ := he
      rw [(one_bar hp).1] at h
      exact absurd h (open_nil s)
    | orphanRepeatEnd t =>
      obtain ⟨pre, x, rest, s, hp, _, _, h⟩ := he
      rw [(one_bar hp).1] at h
      exact absurd h (closed_nil s)
    | noRepeatEnd t =>
      obtain ⟨l, y, r, hp, h, _⟩ := he
      rw [(one_bar hp).2.1] at h
      rw [← h]
      rfl
    | variationNotClosed t =>
      obtain ⟨ts, ⟨l, v, r, hp, h, _⟩, _⟩ := he
      rw [(one_bar hp).2.1] at h
      rcases h with ⟨_, h⟩ | ⟨_, h⟩ <;> exact absurd h.1 (by decide)
    | repeatInVariation t =>
      obtain ⟨pre, x, rest, ts, hp, _, _, h⟩ := he
      rw [(one_bar hp).1] at h
      exact absurd h (endings_nil ts)
    | dcDsWhileRepeat t =>
      obtain ⟨pre, x, rest, s, hp, _, _, _, _, h⟩ := he
      rw [(one_bar hp).1] at h
      exact absurd h (open_nil s)
    | dcDsWhileVariation t =>
      obtain ⟨pre, x, rest, ts, hp, _, _, _, _, h⟩ := he
      rw [(one_bar hp).1] at h
      exact absurd h (endings_nil ts)
    | invalidRegionIndex t a b =>
      obtain ⟨pre, x, rest, hp, _, h, _⟩ := he
      rw [(one_bar hp).2.1] at h
      exact absurd h (by cases a <;> decide)
    | segnoWhileVariation t =>
      obtain ⟨pre, x, rest, ts, s, f, l, hp, _, _, _, h, _⟩ := he
      rw [(one_bar hp).1] at h
      exact absurd h (endings_nil ts)
    | duplicatedSegno a b => simp [Describes, hmk .Segno (by decide)] at he
    | duplicatedFine a b => simp [Describes, hmk .Fine (by decide)] at he
    | duplicatedDsDc a b => simp [Describes, hj] at he
    | moreThanTwoCodas a b c => simp [Describes, hmk .Coda (by decide)] at he
    | noSegnoForDs d => simp [Describes, hmk .Ds (by decide)] at he
    | onlyOneCoda t => simp [Describes, hmk .Coda (by decide)] at he
    | codaAfterFine f t e => simp [Describes, hmk .Coda (by decide)] at he
    | _ => exact absurd he (by simp [Describes])
  · rintro (⟨pre, x, rest, ts, hp, h, _⟩ | ⟨d, first, h, _⟩ | ⟨f, t, target, h, _⟩)
    · rw [(one_bar hp).1] at h
      exact endings_nil ts h
    · rw [hmk .Dc (by decide)] at h; cases h
    · rw [hmk .Coda (by decide)] at h; cases h

/-- C32 (partial: rendering does panic on some arrangements, `C32_panics_false`):
it panics on no other than those of `PanicProne`. -/
theorem C32_no_panic_partial (ip : Bool) (tune : Rhythm) (bars : List Bar) (hb : BarsOk bars) (hp : ¬ PanicProne ip tune bars) (p : Panic) :
    renderRegion ip tune bars ≠ .error (.panic p) := by
  intro h
  rcases render_error hb h with ⟨r, h1, _⟩ | ⟨_, h1⟩
  · cases h1
  · exact hp h1

example : let bars := [bar 100 (mark1 .Start), bar 200 (mark1 .Fine)]
    BarsOk bars ∧ ¬ PanicProne true ⟨4, .D4⟩ bars := by
  refine ⟨⟨by decide, by decide⟩, ?_⟩
  rintro (⟨pre, x, rest, ts, hp, _, _, h, _⟩ | ⟨d, first, h, _⟩ | ⟨f, t, target, h, _⟩)
  · have hx : x ∈ [bar 100 (mark1 .Start), bar 200 (mark1 .Fine)] := by rw [hp]; simp
    simp only [List.mem_cons, List.not_mem_nil, or_false] at hx
    rcases hx with rfl | rfl <;> exact absurd h (by decide)
  · exact absurd (congrArg List.length h) (by simp only [List.length_cons, List.length_nil]; decide)
  · exact absurd (congrArg List.length h) (by simp only [List.length_cons, List.length_nil]; decide)

/-- C32: a score of `PanicProne` is never rendered; without another fault, it
panics. -/
theorem C32_panics (ip : Bool) (tune : Rhythm) (bars : List Bar) (hb : BarsOk bars) (hr : ∀ x ∈ bars, Built x.repeats)
    (hp : PanicProne ip tune bars) (hn : ∀ e, ¬ Describes bars e) : ∃ p, renderRegion ip tune bars = .error (.panic p) := by
  cases h : renderRegion ip tune bars with
  | error f =>
    rcases render_error hb h with ⟨r, rfl, h2⟩ | ⟨⟨p, rfl⟩, _⟩
    · exact absurd h2 (hn r)
    · exact ⟨p, rfl⟩
  | ok r =>
    exfalso
    obtain ⟨c, w⟩ := r
    obtain ⟨hm, _, hj⟩ := (C32_accepts_iff ip tune bars hb).1 ⟨c, w, h⟩
    rcases hp with ⟨pre, x, rest, ts, hs, h1, h2, h3, h4, h5, h6, h7⟩ | ⟨d, first, h1, h2, h3, h4, h5⟩ | ⟨f, t, target, h1, h2, h3⟩
    · obtain ⟨r1, s1, r2, s2, k1, k2⟩ := step_at hb h hs
      have hsep := separate hr
      rw [hs] at hsep
      obtain ⟨s, rfl⟩ := state_endings hsep.left h1 k1
      obtain ⟨n, hn'⟩ := Option.ne_none_iff_exists'.1 h3
      obtain ⟨v, hv, hval⟩ := endingNo_some.1 hn'
      have h8 : ¬ v.value = 4 := by
        intro c
        rw [hn', ← hval, c] at h4
        exact h4 rfl
      have h9 : ¬ v.value = 5 := by cases v <;> decide
      simp only [Has] at h5 h6 h7
      simp [renderStep, h2, h5, h6, h7, hv, h8, h9, VarIndex.fromValue] at k2
    · have := (hj.2 d first h1 h4).1 h3
      split at this <;> omega
    · have : CodasOk ip target bars := by
        rcases h2 with ⟨d, k1, k2⟩ | ⟨d, first, k1, k2, k3⟩
        · obtain ⟨s, k3, _, k4⟩ := hj.1 d k1
          rw [k2] at k3
          cases k3
          exact k4
        · rw [k3]
          exact (hj.2 d first k1 k2).2
      simp only [CodasOk, h1] at this
      obtain ⟨k1, k2, k3⟩ := this
      rcases h3 with h3 | ⟨h3, h4⟩
      · omega
      · have := k3 h3
        omega

/-- A wrong ending number after four endings. -/
example : let bars := [bar 100 (mark1 .Var1), bar 200 (mark1 .Var2), bar 300 (mark1 .Var3), bar 400 (mark1 .Var4), bar 500 (mark1 .Var1)]
    BarsOk bars ∧ PanicProne false ⟨4, .D4⟩ bars ∧ render bars = .error (.panic .unwrap) := by
  refine ⟨⟨by decide, by decide⟩, .inl ⟨[bar 100 (mark1 .Var1), bar 200 (mark1 .Var2), bar 300 (mark1 .Var3), bar 400 (mark1 .Var4)],
    bar 500 (mark1 .Var1), [], [100, 200, 300, 400], rfl, ?_, rfl, by decide, by decide, by decide, by decide, by decide⟩, by decide⟩
  refine ⟨[], _, _, rfl, .inl ⟨by simp, by simp only [OpensEndings]; decide⟩, ?_⟩
  refine Endings.more (xs := []) (by simp) (by simp only [InEnding]; decide) ?_
  refine Endings.more (xs := []) (by simp) (by simp only [InEnding]; decide) ?_
  exact Endings.more (xs := []) (by simp) (by simp only [InEnding]; decide) (Endings.last (by simp))

/-- A D.C. after a first bar of 2^31 ticks, and no fault. -/
example : let bars := [bar 2147483648 (mark1 .Dc)]
    BarsOk bars ∧ (∀ x ∈ bars, Built x.repeats) ∧ PanicProne true ⟨4, .D4⟩ bars ∧ ∀ e, ¬ Describes bars e := by
  have hmk : ∀ m, m ≠ .Dc → marks [bar 2147483648 (mark1 .Dc)] m = [] := by intro m hm; revert hm; cases m <;> decide
  refine ⟨⟨by decide, by decide⟩, ?_, .inr (.inl ⟨2147483648, 2147483648, by decide, by decide, by decide, by decide⟩), ?_⟩
  · intro x hx
    simp only [List.mem_singleton] at hx
    subst hx
    exact built1 _ _
  · intro e he
    cases e with
    | duplicatedRepeatStart t =>
      obtain ⟨pre, x, rest, s, hp, _, _, _, h⟩ := he
      rw [(one_bar hp).1] at h
      exact absurd h (open_nil s)
    | orphanRepeatEnd t =>
      obtain ⟨pre, x, rest, s, hp, _, _, h⟩ := he
      rw [(one_bar hp).1] at h
      exact absurd h (closed_nil s)
    | noRepeatEnd t =>
      obtain ⟨l, y, r, hp, _, h, _⟩ := he
      rw [(one_bar hp).2.1] at h
      exact absurd h (by decide)
    | variationNotClosed t =>
      obtain ⟨ts, ⟨l, v, r, hp, h, _⟩, _⟩ := he
      rw [(one_bar hp).2.1] at h
      rcases h with ⟨_, h⟩ | ⟨_, h⟩ <;> first | exact absurd h.2.2 (by decide) | exact absurd h.2.2.2.2 (by decide)
    | repeatInVariation t =>
      obtain ⟨pre, x, rest, ts, hp, _, _, h⟩ := he
      rw [(one_bar hp).1] at h
      exact absurd h (endings_nil ts)
    | dcDsWhileRepeat t =>
      obtain ⟨pre, x, rest, s, hp, _, _, _, _, h⟩ := he
      rw [(one_bar hp).1] at h
      exact absurd h (open_nil s)
    | dcDsWhileVariation t =>
      obtain ⟨pre, x, rest, ts, hp, _, _, _, _, h⟩ := he
      rw [(one_bar hp).1] at h
      exact absurd h (endings_nil ts)
    | invalidRegionIndex t a b =>
      obtain ⟨pre, x, rest, hp, _, h, _⟩ := he
      rw [(one_bar hp).2.1] at h
      exact absurd h (by cases a <;> decide)
    | segnoWhileVariation t =>
      obtain ⟨pre, x, rest, ts, s, f, l, hp, _, _, _, h, _⟩ := he
      rw [(one_bar hp).1] at h
      exact absurd h (endings_nil ts)
    | duplicatedSegno a b => simp [Describes, hmk .Segno (by decide)] at he
    | duplicatedFine a b => simp [Describes, hmk .Fine (by decide)] at he
    | duplicatedDsDc a b =>
      have hj : jumpTicks [bar 2147483648 (mark1 .Dc)] = [2147483648] := by decide
      simp [Describes, hj] at he
    | moreThanTwoCodas a b c => simp [Describes, hmk .Coda (by decide)] at he
    | noSegnoForDs d => simp [Describes, hmk .Ds (by decide)] at he
    | onlyOneCoda t => simp [Describes, hmk .Coda (by decide)] at he
    | codaAfterFine f t e => simp [Describes, hmk .Coda (by decide)] at he
    | _ => exact absurd he (by simp [Describes])

/-- C32: of several faults, rendering returns the one that comes to light first as
the bar lines are read in order, marks given too often before misplaced repeats and
endings, and all of them before the faults known only at the end (`Trouble.rank`).
So the error returned is determined by the score. -/
theorem C32_first (ip : Bool) (tune : Rhythm) (bars : List Bar) (hb : BarsOk bars) (hr : ∀ x ∈ bars, Built x.repeats)
    (e : RenderRegionError) :
    renderRegion ip tune bars = .error (.err e) ↔ (Trouble.err e).IsFirst ip tune bars := by
  constructor
  · intro h
    obtain ⟨t, h1, h2⟩ := render_first hb (separate hr) h
    simp only [Ends] at h1
    rw [← h1]
    exact h2
  · intro h
    obtain ⟨f, h1, h2⟩ := first_render hb (separate hr) h
    rw [h1]
    cases f with
    | err e' => simp only [Ends, Trouble.err.injEq] at h2; rw [h2]
    | panic p => exact absurd rfl (h2 e)

/-! Several faults: the bar line read first decides, then the order of the checks. -/
example : render [bar 100 (mark1 .Start), bar 200 (mark1 .Start), bar 300 (mark1 .Segno), bar 400 (mark1 .Segno)] =
    .error (.err (.duplicatedRepeatStart 200)) := by decide
example : render [bar 100 (mark2 .Start .Segno), bar 200 (mark2 .Start .Segno)] = .error (.err (.duplicatedSegno 100 200)) := by decide
example : render [bar 100 (mark1 .Ds), bar 200 (mark1 .Start)] = .error (.err (.noRepeatEnd 200)) := by decide
example : render [bar 100 (mark1 .Coda), bar 200 (mark1 .Ds)] = .error (.err (.noSegnoForDs 200)) := by decide
example : render [bar 0 (mark1 .Coda), bar 100 (mark1 .Coda), bar 200 (mark1 .Ds)] = .error (.err (.noSegnoForDs 200)) := by decide

example : let bars := [bar 100 (mark1 .Start), bar 200 (mark1 .Start), bar 300 (mark1 .Segno), bar 400 (mark1 .Segno)]
    BarsOk bars ∧ (∀ x ∈ bars, Built x.repeats) ∧ (Trouble.err (.duplicatedRepeatStart 200)).IsFirst false ⟨4, .D4⟩ bars := by
  have hb : BarsOk [bar 100 (mark1 .Start), bar 200 (mark1 .Start), bar 300 (mark1 .Segno), bar 400 (mark1 .Segno)] :=
    ⟨by decide, by decide⟩
  have hr : ∀ x ∈ [bar 100 (mark1 .Start), bar 200 (mark1 .Start), bar 300 (mark1 .Segno), bar 400 (mark1 .Segno)],
      Built x.repeats := by
    intro x hx
    simp only [List.mem_cons, List.not_mem_nil, or_false] at hx
    rcases hx with rfl | rfl | rfl | rfl <;> exact built1 _ _
  exact ⟨hb, hr, (C32_first false ⟨4, .D4⟩ _ hb hr _).1 (by decide)⟩

/-- C32: rendering panics exactly if an arrangement of `PanicProne` comes to light
before any fault. -/
theorem C32_first_panic (ip : Bool) (tune : Rhythm) (bars : List Bar) (hb : BarsOk bars) (hr : ∀ x ∈ bars, Built x.repeats) :
    (∃ p, renderRegion ip tune bars = .error (.panic p)) ↔
      Trouble.fifthEnding.IsFirst ip tune bars ∨ Trouble.longFirstBar.IsFirst ip tune bars ∨
        Trouble.codasMisplaced.IsFirst ip tune bars := by
  constructor
  · rintro ⟨p, h⟩
    obtain ⟨t, h1, h2⟩ := render_first hb (separate hr) h
    cases t with
    | err e => exact absurd rfl (h1 e)
    | fifthEnding => exact .inl h2
    | longFirstBar => exact .inr (.inl h2)
    | codasMisplaced => exact .inr (.inr h2)
  · rintro (h | h | h) <;>
      · obtain ⟨f, h1, h2⟩ := first_render hb (separate hr) h
        cases f with
        | err e' => cases h2
        | panic p => exact ⟨p, h1⟩

/-- A D.C. after a first bar of 2^31 ticks comes to light. -/
example : let bars := [bar 2147483648 (mark1 .Dc), bar 2147483650 (mark1 .Fine)]
    ∃ p, render bars = .error (.panic p) := ⟨.overflow, by decide⟩

/-- Here a fault does, before it. -/
example : render [bar 2147483648 (mark1 .Dc), bar 2147483650 (mark1 .Fine), bar 2147483652 (mark1 .Fine)] =
    .error (.err (.duplicatedFine 2147483650 2147483652)) := by decide

/-- C32 (the claim that rendering never panics is false): a wrong ending number
after four endings; a D.C. after a first bar of 2^31 ticks; a Coda at tick 0. -/
theorem C32_panics_false (ip : Bool) :
    renderRegion ip ⟨4, .D4⟩ [⟨100, none, none, mark1 .Var1⟩, ⟨200, none, none, mark1 .Var2⟩, ⟨300, none, none, mark1 .Var3⟩,
      ⟨400, none, none, mark1 .Var4⟩, ⟨500, none, none, mark1 .Var1⟩] = .error (.panic .unwrap) ∧
    renderRegion ip ⟨4, .D4⟩ [⟨2147483648, none, none, mark1 .Dc⟩] = .error (.panic .overflow) ∧
    renderRegion ip ⟨4, .D4⟩ [⟨0, none, none, mark1 .Coda⟩, ⟨100, none, none, mark1 .Coda⟩, ⟨200, none, none, mark1 .Dc⟩] =
      .error (.panic .overflow) := by
  cases ip <;> decide

/-- With an `intervallum` that rejects empty intervals: the target behind the Coda. -/
example : renderRegion true ⟨4, .D4⟩ [bar 100 (mark1 .Coda), bar 200 (mark1 .Segno), bar 300 (mark1 .Coda), bar 400 (mark1 .Ds)] =
    .error (.panic .explicit) := by decide

end Klavier
