import Verif.Spec.RenderError
import Verif.Lemmas.Notate

/-! # How rendering fails -/
set_option autoImplicit false
namespace Klavier
open Spec

theorem RR_bind_eq_error {α β : Type} (x : RR α) (f : α → RR β) (e : Fail) :
    (x >>= f) = .error e ↔ x = .error e ∨ ∃ a, x = .ok a ∧ f a = .error e := by
  cases x with
  | error e' => simp
  | ok a => simp

/-! ## The state of the loop -/

/-- What the state says about the bars read so far. -/
def Inv (pre : List Bar) : RenderState → Prop
  | .idle => ∀ z ∈ pre, Quiet .first z
  | .seq s => Closed pre s
  | .repeatStart s => Open pre s
  | .variation _ ts => InEndings pre ts

theorem Endings_length {k : Nat} {bars : List Bar} {ts : List Nat} (h : Endings k bars ts) :
    k ≤ 4 → 1 ≤ ts.length ∧ ts.length + k ≤ 5 := by
  induction h with
  | last h => intro hk; simp; omega
  | more h1 h2 h3 ih =>
    intro hk
    obtain ⟨v, _, hv⟩ := endingNo_some.1 h2.2.2.2
    have := value_le v
    have := ih (by omega)
    simp only [List.length_cons]
    omega

theorem Endings_stay {k : Nat} {bars : List Bar} {ts : List Nat} (h : Endings k bars ts) {x : Bar} :
    InEnding (k + ts.length - 1) x → Endings k (bars ++ [x]) ts := by
  induction h with
  | last h =>
    intro hx
    refine Endings.last ?_
    intro y hy
    rcases List.mem_append.1 hy with hy | hy
    · exact h y hy
    · rw [List.mem_singleton.1 hy]
      simpa using hx
  | @more k a y xs ys ts h1 h2 h3 ih =>
    intro hx
    have := ih (by
      simp only [List.length_cons] at hx
      have e : k + 1 + ts.length - 1 = k + (ts.length + 1) - 1 := by omega
      rw [e]
      exact hx)
    have e : a :: (xs ++ y :: ys) ++ [x] = a :: (xs ++ y :: (ys ++ [x])) := by simp
    rw [e]
    exact Endings.more h1 h2 this

theorem Endings_next {k : Nat} {bars : List Bar} {ts : List Nat} (h : Endings k bars ts) {x : Bar} :
    InEnding (k + ts.length) x → Endings k (bars ++ [x]) (ts ++ [x.startTick]) := by
  induction h with
  | @last k a xs h =>
    intro hx
    exact Endings.more h hx (Endings.last (xs := []) (by simp))
  | @more k a y xs ys ts h1 h2 h3 ih =>
    intro hx
    have := ih (by
      simp only [List.length_cons] at hx
      have e : k + 1 + ts.length = k + (ts.length + 1) := by omega
      rw [e]
      exact hx)
    have e : a :: (xs ++ y :: ys) ++ [x] = a :: (xs ++ y :: (ys ++ [x])) := by simp
    rw [e]
    exact Endings.more h1 h2 this

theorem InEndings_length {pre : List Bar} {ts : List Nat} (h : InEndings pre ts) : 1 ≤ ts.length ∧ ts.length ≤ 4 := by
  obtain ⟨l, v, r, _, _, h3⟩ := h
  have := Endings_length h3 (by omega)
  omega

theorem Inv_step {sg : Option Nat} {st st' : RenderState} {x : Bar} {rs : List SimpleRegion} {pre : List Bar}
    (hi : Inv pre st) (h : renderStep sg st x = .ok (rs, st')) : Inv (pre ++ [x]) st' := by
  have opened : Has x .Start → Open (pre ++ [x]) x.startTick := fun hs => ⟨pre, x, [], rfl, rfl, hs, by simp⟩
  have closedE : Has x .End → ¬ Has x .Start → Closed (pre ++ [x]) x.startTick :=
    fun he hs => ⟨pre, x, [], rfl, rfl, hs, .inl he, by simp⟩
  have var1 : BeginsEndings pre x → InEndings (pre ++ [x]) [x.startTick] :=
    fun h1 => ⟨pre, x, [], rfl, h1, Endings.last (by simp)⟩
  cases st with
  | idle =>
    simp only [renderStep] at h
    by_cases hs : x.repeats.contains .Start = true <;> by_cases he : x.repeats.contains .End = true
    · simp [hs, he] at h
      rw [← h.2]
      exact opened hs
    · simp [hs, he] at h
      rw [← h.2]
      exact opened hs
    · simp [hs, he] at h
      rw [← h.2]
      exact closedE he hs
    · simp only [hs, he, Bool.false_eq_true, false_and, if_false] at h
      split at h
      · rename_i idx hidx
        split at h
        · cases h
        · rename_i hv
          simp at hv
          subst hv
          cases h
          exact var1 (.inl ⟨hi, hs, he, endingNo_some.2 ⟨_, hidx, rfl⟩⟩)
      · rename_i hidx
        cases h
        intro z hz
        rcases List.mem_append.1 hz with hz | hz
        · exact hi z hz
        · rw [List.mem_singleton.1 hz]
          exact ⟨hs, he, endingNo_none.2 hidx⟩
  | seq s =>
    simp only [renderStep] at h
    by_cases he : x.repeats.contains .End = true
    · simp [he, fail] at h
    · by_cases hs : x.repeats.contains .Start = true
      · simp [hs, he] at h
        rw [← h.2]
        exact opened hs
      · simp [hs, he] at h
        rw [← h.2]
        obtain ⟨l, y, r, h1, h2, h3, h4, h5⟩ := hi
        refine ⟨l, y, r ++ [x], by rw [h1]; simp, h2, h3, h4, ?_⟩
        intro z hz
        rcases List.mem_append.1 hz with hz | hz
        · exact h5 z hz
        · rw [List.mem_singleton.1 hz]
          exact ⟨hs, he⟩
  | repeatStart s =>
    simp only [renderStep] at h
    by_cases hs : x.repeats.contains .Start = true <;> by_cases he : x.repeats.contains .End = true
    · simp [hs, he] at h
      rw [← h.2]
      exact opened hs
    · simp [hs, he, fail] at h
    · simp [hs, he] at h
      rw [← h.2]
      exact closedE he hs
    · simp only [hs, he, Bool.false_eq_true, false_and, if_false] at h
      split at h
      · cases h
      · rename_i hd
        simp only [not_or] at hd
        split at h
        · rename_i idx hidx
          split at h
          · cases h
          · rename_i hv
            simp at hv
            subst hv
            cases h
            exact var1 (.inr ⟨⟨s, hi⟩, hs, he, hd.1, hd.2, endingNo_some.2 ⟨_, hidx, rfl⟩⟩)
        · rename_i hidx
          cases h
          obtain ⟨l, y, r, h1, h2, h3, h5⟩ := hi
          refine ⟨l, y, r ++ [x], by rw [h1]; simp, h2, h3, ?_⟩
          intro z hz
          rcases List.mem_append.1 hz with hz | hz
          · exact h5 z hz
          · rw [List.mem_singleton.1 hz]
            exact ⟨hs, he, hd.1, hd.2, endingNo_none.2 hidx⟩
  | variation s ts =>
    have hlen := InEndings_length hi
    have hmod : ts.length % 256 = ts.length := Nat.mod_eq_of_lt (by omega)
    simp only [renderStep, hmod] at h
    by_cases he : x.repeats.contains .End = true
    · simp [he, fail] at h
    · simp only [he, Bool.false_eq_true, if_false] at h
      split at h
      · rename_i ri hri
        split at h
        · cases h
        · rename_i hd
          simp only [not_or] at hd
          obtain ⟨l, v, r, h1, h2, h3⟩ := hi
          split at h
          · rename_i hv
            cases h
            refine ⟨l, v, r ++ [x], by rw [h1]; simp, h2, ?_⟩
            have := Endings_stay h3 (x := x) ⟨he, hd.1, hd.2, endingNo_some.2 ⟨ri, hri, by omega⟩⟩
            simpa using this
          · split at h
            · rename_i hv
              cases h
              refine ⟨l, v, r ++ [x], by rw [h1]; simp, h2, ?_⟩
              have := Endings_next h3 (x := x) ⟨he, hd.1, hd.2, endingNo_some.2 ⟨ri, hri, by omega⟩⟩
              simpa using this
            · split at h <;> cases h
      · rename_i hri
        rw [RR_bind_eq_ok] at h
        obtain ⟨_, _, h⟩ := h
        rw [RR_bind_eq_ok] at h
        obtain ⟨_, _, h⟩ := h
        simp only [RR_pure, Except.ok.injEq, Prod.mk.injEq] at h
        rw [← h.2]
        by_cases hs : x.repeats.contains .Start = true
        · rw [if_pos hs]
          exact opened hs
        · rw [if_neg hs]
          exact ⟨pre, x, [], rfl, rfl, hs, .inr ⟨endingNo_none.2 hri, ts, hi⟩, by simp⟩

theorem Inv_loop (xs : List Bar) : ∀ (pre : List Bar) (g g' : GlobalRepeatBuilder) (st st' : RenderState) (rs : List SimpleRegion),
    Inv pre st → renderLoop g st xs = .ok (g', rs, st') → Inv (pre ++ xs) st' ∧ buildLoop g xs = .ok g' := by
  induction xs with
  | nil =>
    intro pre g g' st st' rs hi h
    cases h
    exact ⟨by simpa using hi, rfl⟩
  | cons x xs ih =>
    intro pre g g' st st' rs hi h
    rw [renderLoop, RR_bind_eq_ok] at h
    obtain ⟨g1, h1, h⟩ := h
    rw [RR_bind_eq_ok] at h
    obtain ⟨⟨r1, s1⟩, h2, h⟩ := h
    rw [RR_bind_eq_ok] at h
    obtain ⟨⟨g2, r2, s2⟩, h3, h⟩ := h
    simp only [RR_pure, Except.ok.injEq, Prod.mk.injEq] at h
    obtain ⟨rfl, _, rfl⟩ := h
    obtain ⟨k1, k2⟩ := ih (pre ++ [x]) g1 _ s1 _ r2 (Inv_step hi h2) h3
    refine ⟨by simpa using k1, ?_⟩
    rw [buildLoop, h1, RR_bind_ok, k2]

/-- Where the loop fails. -/
theorem loop_error (xs : List Bar) : ∀ (pre : List Bar) (g : GlobalRepeatBuilder) (st : RenderState) (e : Fail),
    Inv pre st → renderLoop g st xs = .error e →
    ∃ l x r g' st', xs = l ++ x :: r ∧ buildLoop g l = .ok g' ∧ Inv (pre ++ l) st' ∧
      (g'.onBar x = .error e ∨ ∃ g'', g'.onBar x = .ok g'' ∧ renderStep g''.segno st' x = .error e) := by
  induction xs with
  | nil => intro pre g st e _ h; cases h
  | cons x xs ih =>
    intro pre g st e hi h
    rw [renderLoop, RR_bind_eq_error] at h
    rcases h with h | ⟨g1, h1, h⟩
    · exact ⟨[], x, xs, g, st, rfl, rfl, by simpa using hi, .inl h⟩
    · rw [RR_bind_eq_error] at h
      rcases h with h | ⟨⟨r1, s1⟩, h2, h⟩
      · exact ⟨[], x, xs, g, st, rfl, rfl, by simpa using hi, .inr ⟨g1, h1, h⟩⟩
      · rw [RR_bind_eq_error] at h
        rcases h with h | ⟨_, _, h⟩
        · obtain ⟨l, y, r, g', st', k1, k2, k3, k4⟩ := ih (pre ++ [x]) g1 s1 e (Inv_step hi h2) h
          refine ⟨x :: l, y, r, g', st', by rw [k1]; rfl, ?_, by simpa using k3, k4⟩
          rw [buildLoop, h1, RR_bind_ok, k2]
        · cases h

/-! ## Errors of one step -/

theorem fromValue_value {n : Nat} {v : VarIndex} (h : VarIndex.fromValue n = .ok v) : v.value = n := by
  unfold VarIndex.fromValue at h
  by_cases h1 : n = 1
  · rw [if_pos h1] at h; cases h; exact h1.symm
  by_cases h2 : n = 2
  · rw [if_neg h1, if_pos h2] at h; cases h; exact h2.symm
  by_cases h3 : n = 3
  · rw [if_neg h1, if_neg h2, if_pos h3] at h; cases h; exact h3.symm
  by_cases h4 : n = 4
  · rw [if_neg h1, if_neg h2, if_neg h3, if_pos h4] at h; cases h; exact h4.symm
  · rw [if_neg h1, if_neg h2, if_neg h3, if_neg h4] at h; cases h

theorem fromValue_error {n : Nat} {e : Nat} (h : VarIndex.fromValue n = .error e) : n = 0 ∨ 5 ≤ n := by
  match n with
  | 0 => exact .inl rfl
  | 1 => cases h
  | 2 => cases h
  | 3 => cases h
  | 4 => cases h
  | n + 5 => exact .inr (by omega)

theorem step_error {sg : Option Nat} {st : RenderState} {x : Bar} {pre rest bars : List Bar} {e : Fail}
    (hb : bars = pre ++ x :: rest) (hsg : ∀ s, sg = some s → s ∈ marks bars .Segno) (hi : Inv pre st)
    (h : renderStep sg st x = .error e) :
    (∃ r, e = .err r ∧ Describes bars r) ∨
    (e = .panic .unwrap ∧ ∃ ts, InEndings pre ts ∧ ts.length = 4 ∧ endingNo x ≠ none ∧ endingNo x ≠ some 4 ∧
      ¬ Has x .End ∧ ¬ Has x .Dc ∧ ¬ Has x .Ds) := by
  have ne_of : ∀ {v : VarIndex}, x.repeats.regionIndex = some v → endingNo x = some v.value :=
    fun hv => endingNo_some.2 ⟨_, hv, rfl⟩
  cases st with
  | idle =>
    simp only [renderStep] at h
    split at h
    · cases h
    · split at h
      · cases h
      · rename_i he
        split at h
        · cases h
        · rename_i hs
          split at h
          · rename_i idx hidx
            split at h
            · rename_i hne
              cases h
              exact .inl ⟨_, rfl, pre, x, rest, hb, rfl, ne_of hidx, hne, he, .inl ⟨rfl, hs, .inl hi⟩⟩
            · cases h
          · cases h
  | seq s =>
    simp only [renderStep] at h
    split at h
    · rename_i he
      cases h
      exact .inl ⟨_, rfl, pre, x, rest, s, hb, rfl, he, hi⟩
    · split at h <;> cases h
  | repeatStart s =>
    simp only [renderStep] at h
    split at h
    · cases h
    · split at h
      · cases h
      · rename_i he
        split at h
        · rename_i hs
          cases h
          exact .inl ⟨_, rfl, pre, x, rest, s, hb, rfl, hs, he, hi⟩
        · rename_i hs
          split at h
          · rename_i hd
            cases h
            exact .inl ⟨_, rfl, pre, x, rest, s, hb, rfl, hd, hs, he, hi⟩
          · rename_i hd
            simp only [not_or] at hd
            split at h
            · rename_i idx hidx
              split at h
              · rename_i hne
                cases h
                exact .inl ⟨_, rfl, pre, x, rest, hb, rfl, ne_of hidx, hne, he, .inl ⟨rfl, hs, .inr ⟨hd.1, hd.2, s, hi⟩⟩⟩
              · cases h
            · cases h
  | variation s ts =>
    have hlen := InEndings_length hi
    have hmod : ts.length % 256 = ts.length := Nat.mod_eq_of_lt (by omega)
    simp only [renderStep, hmod] at h
    split at h
    · rename_i he
      cases h
      exact .inl ⟨_, rfl, pre, x, rest, ts, hb, rfl, he, hi⟩
    · rename_i he
      split at h
      · rename_i ri hri
        have hno := ne_of hri
        split at h
        · rename_i hd
          cases h
          exact .inl ⟨_, rfl, pre, x, rest, ts, hb, rfl, hd, he, by rw [hno]; simp, hi⟩
        · rename_i hd
          simp only [not_or] at hd
          split at h
          · cases h
          · rename_i hn1
            split at h
            · cases h
            · rename_i hn2
              split at h
              · rename_i ex hex
                cases h
                have hv := fromValue_value hex
                refine .inl ⟨_, rfl, pre, x, rest, hb, rfl, hno, ?_, he, .inr ⟨hd.1, hd.2, ts, hi, hv, hn1⟩⟩
                intro c
                rw [c, hv] at hn2
                exact hn2 rfl
              · rename_i hex
                cases h
                have := fromValue_error hex
                have h4 : ts.length = 4 := by omega
                refine .inr ⟨rfl, ts, hi, h4, by rw [hno]; simp, ?_, he, hd.1, hd.2⟩
                rw [hno]
                intro c
                have := Option.some.inj c
                omega
      · rename_i hri
        rw [RR_bind_eq_error] at h
        rcases h with h | ⟨_, _, h⟩
        · unfold checkSegno at h
          split at h
          · cases h
          · rename_i sg'
            cases hts : ts with
            | nil => rw [hts] at hlen; simp at hlen
            | cons t0 ts' =>
              have hl : ∃ l, ts.getLast? = some l := by
                rw [hts]
                exact ⟨_, List.getLast?_eq_some_getLast (by simp)⟩
              obtain ⟨l, hl⟩ := hl
              have hh : ts.head? = some t0 := by rw [hts]; rfl
              rw [hh, hl] at h
              dsimp only at h
              split at h
              · rename_i hcond
                cases h
                exact .inl ⟨_, rfl, pre, x, rest, ts, sg', t0, l, hb, rfl, endingNo_none.2 hri, he, hi, hsg _ rfl, hh, hl, hcond.1, hcond.2⟩
              · cases h
        · cases hts : ts with
          | nil => rw [hts] at hlen; simp at hlen
          | cons t0 ts' =>
            rw [hts] at h
            simp [createVariation, liftR] at h

/-! ## Errors of the marks -/

namespace GlobalRepeatBuilder

theorem marks_append (a b : List Bar) (m : Repeat) : marks (a ++ b) m = marks a m ++ marks b m := by simp [marks]

theorem jumpTicks_from (bars : List Bar) : ∀ f, (jumpsFrom f bars).map DsDc.tick = jumpTicks bars := by
  induction bars with
  | nil => intro f; rfl
  | cons x xs ih =>
    intro f
    have : jumpTicks (x :: xs) = ((if Has x .Dc then [x.startTick] else []) ++ (if Has x .Ds then [x.startTick] else [])) ++ jumpTicks xs := rfl
    rw [this, jumpsFrom, List.map_append, ih]
    congr 1
    simp only [jumpsAt, at_, Has]
    by_cases h1 : x.repeats.contains .Dc = true <;> by_cases h2 : x.repeats.contains .Ds = true <;> simp [h1, h2, DsDc.tick]

theorem onBar_error {g : GlobalRepeatBuilder} {x : Bar} {e : Fail} (h : g.onBar x = .error e) :
    (∃ p, e = .err (.duplicatedDsDc p x.startTick) ∧
      ((∃ j, g.dsDc = some j ∧ j.tick = p ∧ (Has x .Dc ∨ Has x .Ds)) ∨ (g.dsDc = none ∧ p = x.startTick ∧ Has x .Dc ∧ Has x .Ds))) ∨
    (∃ p, e = .err (.duplicatedFine p x.startTick) ∧ g.fine = some p ∧ Has x .Fine) ∨
    (∃ p, e = .err (.duplicatedSegno p x.startTick) ∧ g.segno = some p ∧ Has x .Segno) ∨
    (∃ p q, e = .err (.moreThanTwoCodas p q x.startTick) ∧ g.coda = some (.two p q) ∧ Has x .Coda) := by
  have hn := noteFirstBar_eq g x
  have n1 : (g.noteFirstBar x).dsDc = g.dsDc := by rw [hn]
  have n2 : (g.noteFirstBar x).fine = g.fine := by rw [hn]
  have n3 : (g.noteFirstBar x).segno = g.segno := by rw [hn]
  have n4 : (g.noteFirstBar x).coda = g.coda := by rw [hn]
  rw [onBar, RR_bind_eq_error] at h
  clear hn
  generalize g.noteFirstBar x = g0 at n1 n2 n3 n4 h
  have dup : ∀ (g : GlobalRepeatBuilder) (t : Nat) (e : Fail), (∃ b f, addIf b f g = .error e ∧ b = true ∧
      (f = (fun g : GlobalRepeatBuilder => g.addingDc t (g.firstBarLen.getD 0)) ∨ f = (fun g : GlobalRepeatBuilder => g.addingDs t))) →
      ∃ j, g.dsDc = some j ∧ e = .err (.duplicatedDsDc j.tick t) := by
    rintro g t e ⟨b, f, h, rfl, rfl | rfl⟩
    · simp only [addIf, if_true, addingDc] at h
      split at h
      · cases h
      · rename_i p l hj; cases h; exact ⟨_, hj, rfl⟩
      · rename_i p hj; cases h; exact ⟨_, hj, rfl⟩
    · simp only [addIf, if_true, addingDs] at h
      split at h
      · cases h
      · rename_i p l hj; cases h; exact ⟨_, hj, rfl⟩
      · rename_i p hj; cases h; exact ⟨_, hj, rfl⟩
  have isTrue : ∀ {b : Bool} {f : GlobalRepeatBuilder → RR GlobalRepeatBuilder} {g : GlobalRepeatBuilder} {e : Fail},
      addIf b f g = .error e → b = true ∧ f g = .error e := by
    intro b f g e h
    cases b with
    | false => cases h
    | true => exact ⟨rfl, h⟩
  rcases h with h | ⟨g1, h1, h⟩
  · have hb := (isTrue h).1
    obtain ⟨j, hj, he⟩ := dup g0 x.startTick e ⟨_, _, h, hb, .inl rfl⟩
    exact .inl ⟨j.tick, he, .inl ⟨j, by rw [← n1]; exact hj, rfl, .inl hb⟩⟩
  rw [addDc_ok] at h1
  rw [RR_bind_eq_error] at h
  rcases h with h | ⟨g2, h2, h⟩
  · have hb := (isTrue h).1
    obtain ⟨j, hj, he⟩ := dup g1 x.startTick e ⟨_, _, h, hb, .inr rfl⟩
    rw [h1.2] at hj
    dsimp only at hj
    rw [n1] at hj
    cases hd : g.dsDc with
    | some j' =>
      rw [hd] at hj
      simp at hj
      subst hj
      exact .inl ⟨_, he, .inl ⟨_, rfl, rfl, .inr hb⟩⟩
    | none =>
      rw [hd] at hj
      by_cases hc : x.repeats.contains .Dc = true
      · simp [at_, hc] at hj
        subst hj
        exact .inl ⟨_, he, .inr ⟨rfl, rfl, hc, hb⟩⟩
      · simp [at_, hc] at hj
  rw [addDs_ok] at h2
  rw [RR_bind_eq_error] at h
  rcases h with h | ⟨g3, h3, h⟩
  · obtain ⟨hb, h⟩ := isTrue h
    simp only [addingFine] at h
    split at h
    · rename_i p hp
      cases h
      rw [h2.2, h1.2] at hp
      exact .inr (.inl ⟨p, rfl, by rw [← n2]; exact hp, hb⟩)
    · cases h
  rw [addFine_ok] at h3
  rw [RR_bind_eq_error] at h
  rcases h with h | ⟨g4, h4, h⟩
  · obtain ⟨hb, h⟩ := isTrue h
    simp only [addingSegno] at h
    split at h
    · rename_i p hp
      cases h
      rw [h3.2, h2.2, h1.2] at hp
      exact .inr (.inr (.inl ⟨p, rfl, by rw [← n3]; exact hp, hb⟩))
    · cases h
  rw [addSegno_ok] at h4
  obtain ⟨hb, h⟩ := isTrue h
  simp only [addingCoda] at h
  split at h
  · cases h
  · cases h
  · rename_i p q hp
    cases h
    rw [h4.2, h3.2, h2.2, h1.2] at hp
    exact .inr (.inr (.inr ⟨p, q, rfl, by rw [← n4]; exact hp, hb⟩))

/-- The builder after some bars, whatever their order. -/
theorem buildLoop_new' {tune : Rhythm} {pre : List Bar} {g : GlobalRepeatBuilder} (h : buildLoop (new tune) pre = .ok g) :
    (g.dsDc.toList.map DsDc.tick = jumpTicks pre) ∧ marks pre .Fine = g.fine.toList ∧ marks pre .Segno = g.segno.toList ∧
      marks pre .Coda = codaList g.coda := by
  rw [buildLoop_ok pre (new tune) g (by simp [new])] at h
  simp only [new, Option.toList_none, List.nil_append, codaList] at h
  obtain ⟨h1, h2, h3, h4, rfl⟩ := h
  refine ⟨?_, ?_, ?_, ?_⟩
  · rw [head_toList h1, jumpTicks_from]
  · rw [head_toList h2]
  · rw [head_toList h3]
  · rw [codaList_of h4]

theorem jumpTicks_append (a b : List Bar) : jumpTicks (a ++ b) = jumpTicks a ++ jumpTicks b := by simp [jumpTicks]

theorem marks_error {tune : Rhythm} {pre rest bars : List Bar} {x : Bar} {g : GlobalRepeatBuilder} {e : Fail}
    (hb : bars = pre ++ x :: rest) (hg : buildLoop (new tune) pre = .ok g) (h : g.onBar x = .error e) :
    ∃ r, e = .err r ∧ Describes bars r := by
  obtain ⟨b1, b2, b3, b4⟩ := buildLoop_new' hg
  have hm : ∀ m, Has x m → marks bars m = marks pre m ++ x.startTick :: marks rest m := by
    intro m hx
    rw [hb, marks_append, marks_cons]
    simp only [Has] at hx
    simp [at_, hx]
  rcases onBar_error h with ⟨p, rfl, h'⟩ | ⟨p, rfl, h1, h2⟩ | ⟨p, rfl, h1, h2⟩ | ⟨p, q, rfl, h1, h2⟩
  · refine ⟨_, rfl, ?_⟩
    show (jumpTicks bars).take 2 = [p, x.startTick]
    rw [hb, jumpTicks_append, ← b1]
    have hx : ∃ l, jumpTicks (x :: rest) = ((if Has x .Dc then [x.startTick] else []) ++ (if Has x .Ds then [x.startTick] else [])) ++ l := ⟨_, rfl⟩
    obtain ⟨l, hl⟩ := hx
    rw [hl]
    rcases h' with ⟨j, h1, h2, h3⟩ | ⟨h1, h2, h3, h4⟩
    · rw [h1]
      rcases h3 with h3 | h3
      · simp [h2, h3]
      · by_cases h4 : Has x .Dc
        · simp [h2, h4]
        · simp [h2, h3, h4]
    · simp [h1, h2, h3, h4]
  · refine ⟨_, rfl, ?_⟩
    show (marks bars .Fine).take 2 = _
    rw [hm _ h2, b2, h1]
    rfl
  · refine ⟨_, rfl, ?_⟩
    show (marks bars .Segno).take 2 = _
    rw [hm _ h2, b3, h1]
    rfl
  · refine ⟨_, rfl, ?_⟩
    show (marks bars .Coda).take 3 = _
    rw [hm _ h2, b4, h1]
    rfl

/-! ## Errors of the jump -/

theorem codaOf_cases (l : List Nat) (h : l.length ≤ 2) : l = [] ∨ (∃ a, l = [a]) ∨ ∃ a b, l = [a, b] := by
  match l with
  | [] => exact .inl rfl
  | [a] => exact .inr (.inl ⟨a, rfl⟩)
  | [a, b] => exact .inr (.inr ⟨a, b, rfl⟩)
  | a :: b :: c :: l => simp at h

theorem head_eq {l : List Nat} {a : Nat} (h1 : l.length ≤ 1) (h2 : l.head? = some a) : l = [a] := by
  match l with
  | [] => cases h2
  | [b] => cases h2; rfl
  | b :: c :: l => simp at h1

theorem checkCodaPos_error {bars : List Bar} {f t : Nat} {e : Fail} (hm : MarksOk bars) (hc : marks bars .Coda = [f, t])
    (hj : jumpTicks bars ≠ []) (h : checkCodaPos f t (marks bars .Fine).head? = .error e) : ∃ r, e = .err r ∧ Describes bars r := by
  unfold checkCodaPos at h
  split at h
  · rename_i fine hf
    split at h
    · rename_i hlt
      cases h
      exact ⟨_, rfl, hc, head_eq hm.2.1 hf, hlt, hj⟩
    · cases h
  · cases h

theorem checkCodaPos_le {bars : List Bar} {f t : Nat} (h : checkCodaPos f t (marks bars .Fine).head? = .ok ()) (ht : t ≤ U32_MAX) :
    t ≤ endTick bars := by
  unfold checkCodaPos at h
  unfold endTick
  cases hf : marks bars .Fine with
  | nil => simpa using ht
  | cons a l =>
    rw [hf] at h
    simp only [List.head?_cons] at h
    split at h
    · cases h
    · simp; omega

/-- The interval set, when the Codas are in order, fails only as said. -/
theorem interval_error {bars : List Bar} {ip : Bool} {target f t : Nat} {p : Panic} (hft : f < t) (hte : t ≤ endTick bars)
    (h : toIntervalSet ip target (marks bars .Fine).head? (some (f, t)) = .error p) :
    f = 0 ∨ (ip = true ∧ (f ≤ target ∨ t = endTick bars)) := by
  by_cases h0 : f = 0
  · exact .inl h0
  · refine .inr ?_
    by_cases hg : ip = true → target < f ∧ t < endTick bars
    · obtain ⟨S, hS, _⟩ := toIntervalSet_coda ip target (marks bars .Fine).head? (f := f) (t := t) (by omega)
        (by rw [endTick_eq]; omega) (by rw [endTick_eq]; exact hg)
      rw [hS] at h
      cases h
    · cases ip with
      | false => exact absurd (fun h => by cases h) hg
      | true => exact ⟨rfl, by simp at hg; omega⟩

theorem jumpTicks_of_dc {bars : List Bar} {d : Nat} {m : Repeat} (hm : m = .Dc ∨ m = .Ds) (h : marks bars m = [d]) : jumpTicks bars ≠ [] := by
  intro c
  have : d ∈ marks bars m := by simp [h]
  obtain ⟨x, h1, h2, h3⟩ := mem_marks.1 this
  have : d ∈ jumpTicks bars := by
    simp only [jumpTicks, List.mem_flatMap]
    refine ⟨x, h1, ?_⟩
    rcases hm with rfl | rfl <;> simp [h2, h3]
  rw [c] at this
  simp at this

theorem build_error {bars : List Bar} {ip : Bool} {tune : Rhythm} {e : Fail} (hb : BarsOk bars) (hm : MarksOk bars)
    (h : (builtOf tune bars).build ip = .error e) :
    (∃ r, e = .err r ∧ Describes bars r) ∨ ((∃ p, e = .panic p) ∧ PanicProne ip tune bars) := by
  have hcl := codaOf_cases _ hm.2.2.2
  have hcoda : ∀ {f t}, marks bars .Coda = [f, t] → f < t ∧ t ≤ U32_MAX := by
    intro f t hc
    have hsort := marks_sorted hb.1 .Coda
    simp only [hc, List.pairwise_cons, List.mem_singleton, forall_eq] at hsort
    have : t ∈ marks bars .Coda := by simp [hc]
    obtain ⟨x, h1, _, h3⟩ := mem_marks.1 this
    have := hb.2 x h1
    exact ⟨hsort.1, by omega⟩
  have lift : ∀ {α : Type} {x : R α} {e : Fail}, liftR x = .error e → ∃ p, e = .panic p ∧ x = .error p := by
    intro α x e h
    cases x with
    | ok a => cases h
    | error p => cases h; exact ⟨p, rfl, rfl⟩
  cases hdc : marks bars .Dc with
  | nil =>
    cases hds : marks bars .Ds with
    | nil => rw [build_none ip tune hdc hds] at h; cases h
    | cons d l =>
      have hl : marks bars .Ds = [d] := by
        refine head_eq ?_ (by rw [hds]; rfl)
        have := hm.1
        omega
      have hbuild : (builtOf tune bars).build ip = (do
          let segno ← (builtOf tune bars).dsSegno d
          let coda ← (builtOf tune bars).dsCoda
          let s ← liftR (toIntervalSet ip segno (marks bars .Fine).head? coda)
          pure (some ⟨.ds d, (marks bars .Fine).head?, segno, coda, s⟩, [])) := by
        simp only [build, builtOf, jumpOf, hdc, hds]
      rw [hbuild, RR_bind_eq_error] at h
      rcases h with h | ⟨sg, h1, h⟩
      · left
        simp only [dsSegno, builtOf] at h
        split at h
        · cases h
        · rename_i hs
          cases h
          exact ⟨_, rfl, hl, by simpa using hs⟩
      have hsg : marks bars .Segno = [sg] := by
        simp only [dsSegno, builtOf] at h1
        split at h1
        · rename_i s hs
          cases h1
          exact head_eq hm.2.2.1 hs
        · cases h1
      rw [RR_bind_eq_error] at h
      rcases hcl with hc | ⟨o, hc⟩ | ⟨f, t, hc⟩
      · have hco : (builtOf tune bars).dsCoda = .ok none := by simp [dsCoda, builtOf, hc, codaOf]
        rw [hco] at h
        rcases h with h | ⟨c, h2, h⟩
        · cases h
        · cases h2
          obtain ⟨S, hS, _⟩ := toIntervalSet_plain ip sg (marks bars .Fine).head?
          rw [hS] at h
          simp [liftR] at h
      · left
        have hco : (builtOf tune bars).dsCoda = fail (.onlyOneCoda o) := by simp [dsCoda, builtOf, hc, codaOf]
        rw [hco] at h
        rcases h with h | ⟨c, h2, h⟩
        · cases h
          exact ⟨_, rfl, hc, by rw [hds]; simp⟩
        · cases h2
      · have hco : (builtOf tune bars).dsCoda = (do
            checkCodaPos f t (marks bars .Fine).head?
            pure (some (f, t))) := by simp [dsCoda, builtOf, hc, codaOf]
        rw [hco] at h
        rcases h with h | ⟨c, h2, h⟩
        · left
          rw [RR_bind_eq_error] at h
          rcases h with h | ⟨_, _, h⟩
          · exact checkCodaPos_error hm hc (jumpTicks_of_dc (.inr rfl) hl) h
          · cases h
        · rw [RR_bind_eq_ok] at h2
          obtain ⟨_, h3, h2⟩ := h2
          cases h2
          rw [RR_bind_eq_error] at h
          rcases h with h | ⟨_, _, h⟩
          · obtain ⟨p, rfl, h'⟩ := lift h
            have := hcoda hc
            refine .inr ⟨⟨p, rfl⟩, .inr (.inr ⟨f, t, sg, hc, .inl ⟨d, hl, hsg⟩, interval_error this.1 (checkCodaPos_le h3 this.2) h'⟩)⟩
          · cases h
  | cons d l =>
    have hl : marks bars .Dc = [d] := by
      refine head_eq ?_ (by rw [hdc]; rfl)
      have := hm.1
      omega
    cases hfi : firstBarEnd bars with
    | none => simp [build, builtOf, jumpOf, hdc, hfi] at h
    | some first =>
      have hpos : 0 < first := by
        have := List.find?_some hfi
        simpa using this
      have hbuild : (builtOf tune bars).build ip = (do
          let (segno, warnings) ← (builtOf tune bars).dcSegno d (if d = 0 then 0 else first) first
          let (coda, warnings) ← (builtOf tune bars).dcCoda warnings
          let s ← liftR (toIntervalSet ip segno (marks bars .Fine).head? coda)
          pure (some ⟨.dc d (if d = 0 then 0 else first), (marks bars .Fine).head?, segno, coda, s⟩, warnings)) := by
        simp only [build, builtOf, jumpOf, hdc, hfi, Option.getD_some]
      rw [hbuild, RR_bind_eq_error] at h
      have hsegno : (∃ w, (builtOf tune bars).dcSegno d (if d = 0 then 0 else first) first = .ok (dcTarget tune bars first d, w)) ∨
          ((∃ p, (builtOf tune bars).dcSegno d (if d = 0 then 0 else first) first = .error (.panic p)) ∧ PanicProne ip tune bars) := by
        rcases codaOf_cases (marks bars .Segno) (Nat.le_trans hm.2.2.1 (by decide)) with hs | ⟨s, hs⟩ | ⟨a, b, hs⟩
        · by_cases hfit : (if d = 0 then 0 else first) + first ≤ U32_MAX
          · left
            refine ⟨[], ?_⟩
            have hi := implicitSegno_ok (builtOf tune bars) d first hpos hfit
            have : dcTarget tune bars first d = dcReturn (openingRhythm tune bars).tickLen first d := by
              rw [dcTarget, hs]; rfl
            rw [this]
            have e1 : (builtOf tune bars).segno = none := by simp [builtOf, hs]
            simp only [dcSegno, e1, hi, liftR, RR_bind_ok, RR_pure]
            rfl
          · right
            refine ⟨⟨.overflow, ?_⟩, .inr (.inl ⟨d, first, hl, ?_, hs, hfi, ?_⟩)⟩
            · have e1 : (builtOf tune bars).segno = none := by simp [builtOf, hs]
              simp [dcSegno, e1, implicitSegno, addU32, hfit, liftR]
            · split at hfit
              · obtain ⟨y, hy, he⟩ := List.mem_map.1 (List.mem_of_find?_eq_some hfi)
                have := hb.2 y hy
                omega
              · omega
            · split at hfit <;> omega
        · left
          refine ⟨[.segnoAndDcFound s d], ?_⟩
          have : dcTarget tune bars first d = s := by rw [dcTarget, hs]; rfl
          rw [this]
          simp [dcSegno, builtOf, hs]
        · have := hm.2.2.1
          rw [hs] at this
          simp at this
      rcases hsegno with ⟨w, hsegno⟩ | ⟨⟨p, hsegno⟩, hpp⟩
      · rw [hsegno] at h
        rcases h with h | ⟨⟨sg, w'⟩, h1, h⟩
        · cases h
        cases h1
        dsimp only at h
        rw [RR_bind_eq_error] at h
        rcases hcl with hc | ⟨o, hc⟩ | ⟨f, t, hc⟩
        · have hco : (builtOf tune bars).dcCoda w = .ok (none, w) := by simp [dcCoda, builtOf, hc, codaOf]
          rw [hco] at h
          rcases h with h | ⟨c, h2, h⟩
          · cases h
          · cases h2
            obtain ⟨S, hS, _⟩ := toIntervalSet_plain ip (dcTarget tune bars first d) (marks bars .Fine).head?
            rw [hS] at h
            simp [liftR] at h
        · have hco : (builtOf tune bars).dcCoda w = .ok (none, w ++ [.orphanCodaFound o]) := by simp [dcCoda, builtOf, hc, codaOf]
          rw [hco] at h
          rcases h with h | ⟨c, h2, h⟩
          · cases h
          · cases h2
            obtain ⟨S, hS, _⟩ := toIntervalSet_plain ip (dcTarget tune bars first d) (marks bars .Fine).head?
            rw [hS] at h
            simp [liftR] at h
        · have hco : (builtOf tune bars).dcCoda w = (do
              checkCodaPos f t (marks bars .Fine).head?
              pure (some (f, t), w)) := by simp [dcCoda, builtOf, hc, codaOf]
          rw [hco] at h
          rcases h with h | ⟨c, h2, h⟩
          · left
            rw [RR_bind_eq_error] at h
            rcases h with h | ⟨_, _, h⟩
            · exact checkCodaPos_error hm hc (jumpTicks_of_dc (.inl rfl) hl) h
            · cases h
          · rw [RR_bind_eq_ok] at h2
            obtain ⟨_, h3, h2⟩ := h2
            cases h2
            dsimp only at h
            rw [RR_bind_eq_error] at h
            rcases h with h | ⟨_, _, h⟩
            · obtain ⟨p, rfl, h'⟩ := lift h
              have := hcoda hc
              exact .inr ⟨⟨p, rfl⟩, .inr (.inr ⟨f, t, _, hc, .inr ⟨d, first, hl, hfi, rfl⟩,
                interval_error this.1 (checkCodaPos_le h3 this.2) h'⟩)⟩
            · cases h
      · rw [hsegno] at h
        rcases h with h | ⟨_, h1, _⟩
        · cases h
          exact .inr ⟨⟨p, rfl⟩, hpp⟩
        · cases h1

end GlobalRepeatBuilder

open GlobalRepeatBuilder in
/-- However rendering fails. -/
theorem render_error {bars : List Bar} {ip : Bool} {tune : Rhythm} {e : Fail} (hb : BarsOk bars)
    (h : renderRegion ip tune bars = .error e) :
    (∃ r, e = .err r ∧ Describes bars r) ∨ ((∃ p, e = .panic p) ∧ PanicProne ip tune bars) := by
  rw [renderRegion, RR_bind_eq_error] at h
  rcases h with h | ⟨⟨g, rs, st⟩, h1, h⟩
  · obtain ⟨l, x, r, g', st', k1, k2, k3, k4⟩ := loop_error bars [] _ .idle e (by simp [Inv]) h
    simp only [List.nil_append] at k3
    rcases k4 with k4 | ⟨g'', k4, k5⟩
    · exact .inl (marks_error k1 k2 k4)
    · have hsg : ∀ s, g''.segno = some s → s ∈ marks bars .Segno := by
        intro s hs
        have hl : buildLoop (new tune) (l ++ [x]) = .ok g'' := by
          have gen : ∀ (l : List Bar) (g g' : GlobalRepeatBuilder), buildLoop g l = .ok g' → buildLoop g (l ++ [x]) = g'.onBar x := by
            intro l
            induction l with
            | nil =>
              intro g g' h
              cases h
              simp only [List.nil_append, buildLoop]
              cases g.onBar x <;> rfl
            | cons y l ih =>
              intro g g' h
              rw [buildLoop, RR_bind_eq_ok] at h
              obtain ⟨g1, h1, h2⟩ := h
              rw [List.cons_append, buildLoop, h1, RR_bind_ok, ih g1 g' h2]
          rw [gen l _ _ k2, k4]
        have := (buildLoop_new' hl).2.2.1
        have hm : s ∈ marks (l ++ [x]) .Segno := by rw [this, hs]; simp
        rw [k1]
        obtain ⟨y, h1, h2, h3⟩ := mem_marks.1 hm
        refine mem_marks.2 ⟨y, ?_, h2, h3⟩
        simp only [List.mem_append, List.mem_cons, List.not_mem_nil, or_false] at h1 ⊢
        rcases h1 with h1 | h1
        · exact .inl h1
        · exact .inr (.inl h1)
      rcases step_error k1 hsg k3 k5 with h | ⟨rfl, ts, h⟩
      · exact .inl h
      · exact .inr ⟨⟨_, rfl⟩, .inl ⟨l, x, r, ts, k1, h⟩⟩
  · obtain ⟨hi, hg⟩ := Inv_loop bars [] _ _ _ _ _ (by simp [Inv]) h1
    simp only [List.nil_append] at hi
    obtain ⟨hm, rfl⟩ := (buildLoop_new hb.1 tune g).1 hg
    dsimp only at h
    cases st with
    | idle =>
      dsimp only at h
      rw [RR_bind_eq_error] at h
      rcases h with h | ⟨_, _, h⟩
      · exact build_error hb hm h
      · cases h
    | seq s =>
      dsimp only at h
      rw [RR_bind_eq_error] at h
      rcases h with h | ⟨_, _, h⟩
      · exact build_error hb hm h
      · cases h
    | repeatStart s =>
      cases h
      exact .inl ⟨_, rfl, hi⟩
    | variation s ts =>
      dsimp only at h
      split at h
      · rename_i t ht
        cases h
        exact .inl ⟨_, rfl, ts, hi, ht⟩
      · rename_i ht
        have := InEndings_length hi
        rw [List.getLast?_eq_none_iff] at ht
        rw [ht] at this
        simp at this

end Klavier
