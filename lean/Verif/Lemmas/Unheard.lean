import Verif.Spec.Unheard
import Verif.Model.Repeat
import Verif.Lemmas.Basic

/-! # Lemmas for C79 -/
set_option autoImplicit false
namespace Klavier
open Spec GlobalRepeatBuilder

/-- The end of `renderRegion`. -/
def closeRegion (ip : Bool) (r : RR (GlobalRepeatBuilder × List SimpleRegion × RenderState)) :
    RR (CompoundRegion × List RenderRegionWarning) := do
  let (g, regions, state) ← r
  match state with
  | .idle => do
    let (gr, w) ← g.build ip
    pure (⟨gr, regions ++ [.seq ⟨0, U32_MAX⟩]⟩, w)
  | .seq s => do
    let (gr, w) ← g.build ip
    pure (⟨gr, regions ++ [.seq ⟨s, U32_MAX⟩]⟩, w)
  | .repeatStart s => fail (.noRepeatEnd s)
  | .variation _ ts =>
    match ts.getLast? with
    | some t => fail (.variationNotClosed t)
    | none => .error (.panic .unwrap)

theorem renderRegion_close (ip : Bool) (tune : Rhythm) (bars : List Bar) :
    renderRegion ip tune bars = closeRegion ip (renderLoop (GlobalRepeatBuilder.new tune) .idle bars) := rfl

/-- Both fail alike, or both succeed with related values. -/
inductive Both {α : Type} (P : α → α → Prop) : RR α → RR α → Prop
  | error (e : Fail) : Both P (.error e) (.error e)
  | ok (a b : α) (h : P a b) : Both P (.ok a) (.ok b)

theorem Both.bind {α β : Type} {P : α → α → Prop} {Q : β → β → Prop} {a b : RR α} {f g : α → RR β}
    (h : Both P a b) (hf : ∀ x y, P x y → Both Q (f x) (g y)) : Both Q (a >>= f) (b >>= g) := by
  cases h with
  | error e => exact .error e
  | ok x y hxy => exact hf x y hxy

theorem Both.refl {α : Type} {P : α → α → Prop} (h : ∀ x, P x x) (a : RR α) : Both P a a := by
  cases a with
  | error e => exact .error e
  | ok x => exact .ok x x (h x)

/-- No D.C. has been met. -/
def NoDc (g : GlobalRepeatBuilder) : Prop := ∀ t l, g.dsDc ≠ some (.dc t l)

/-- Alike but for the opening time signature. -/
structure SimT (g g' : GlobalRepeatBuilder) : Prop where
  dsDc : g.dsDc = g'.dsDc
  fine : g.fine = g'.fine
  segno : g.segno = g'.segno
  coda : g.coda = g'.coda
  first : g.firstBarLen = g'.firstBarLen
  warnings : g.warnings = g'.warnings

/-- Alike but for what a D.C. needs, without a D.C. -/
structure Sim (g g' : GlobalRepeatBuilder) : Prop where
  dsDc : g.dsDc = g'.dsDc
  fine : g.fine = g'.fine
  segno : g.segno = g'.segno
  coda : g.coda = g'.coda
  warnings : g.warnings = g'.warnings
  noDc : NoDc g

private theorem both_addIf {P : GlobalRepeatBuilder → GlobalRepeatBuilder → Prop} (b : Bool)
    {f f' : GlobalRepeatBuilder → RR GlobalRepeatBuilder}
    (hf : b = true → ∀ g g', P g g' → Both P (f g) (f' g')) (g g' : GlobalRepeatBuilder) (h : P g g') :
    Both P (addIf b f g) (addIf b f' g') := by
  cases b with
  | false => exact .ok _ _ h
  | true => exact hf rfl g g' h

theorem simT_onBar {g g' : GlobalRepeatBuilder} (h : SimT g g') (x : Bar) : Both SimT (g.onBar x) (g'.onBar x) := by
  have hn : SimT (g.noteFirstBar x) (g'.noteFirstBar x) := by
    obtain ⟨a, b, c, d, f, r, w⟩ := g
    obtain ⟨a', b', c', d', f', r', w'⟩ := g'
    obtain ⟨h1, h2, h3, h4, h5, h6⟩ := h
    simp only at h1 h2 h3 h4 h5 h6
    subst h1 h2 h3 h4 h5 h6
    cases f with
    | some l => exact ⟨rfl, rfl, rfl, rfl, rfl, rfl⟩
    | none =>
      by_cases h0 : x.startTick = 0
      · cases hr : x.rhythm <;> simp only [noteFirstBar, h0, hr, if_true] <;> exact ⟨rfl, rfl, rfl, rfl, rfl, rfl⟩
      · simp only [noteFirstBar, h0, if_false]; exact ⟨rfl, rfl, rfl, rfl, rfl, rfl⟩
  refine Both.bind (P := SimT) (both_addIf _ (fun _ g g' h => ?_) _ _ hn) fun g g' h => ?_
  · obtain ⟨a, b, c, d, f, r, w⟩ := g
    obtain ⟨a', b', c', d', f', r', w'⟩ := g'
    obtain ⟨h1, h2, h3, h4, h5, h6⟩ := h
    simp only at h1 h2 h3 h4 h5 h6
    subst h1 h2 h3 h4 h5 h6
    rcases a with _ | (_ | _)
    · exact .ok _ _ ⟨rfl, rfl, rfl, rfl, rfl, rfl⟩
    · exact .error _
    · exact .error _
  refine Both.bind (P := SimT) (both_addIf _ (fun _ g g' h => ?_) _ _ h) fun g g' h => ?_
  · obtain ⟨a, b, c, d, f, r, w⟩ := g
    obtain ⟨a', b', c', d', f', r', w'⟩ := g'
    obtain ⟨h1, h2, h3, h4, h5, h6⟩ := h
    simp only at h1 h2 h3 h4 h5 h6
    subst h1 h2 h3 h4 h5 h6
    rcases a with _ | (_ | _)
    · exact .ok _ _ ⟨rfl, rfl, rfl, rfl, rfl, rfl⟩
    · exact .error _
    · exact .error _
  refine Both.bind (P := SimT) (both_addIf _ (fun _ g g' h => ?_) _ _ h) fun g g' h => ?_
  · obtain ⟨a, b, c, d, f, r, w⟩ := g
    obtain ⟨a', b', c', d', f', r', w'⟩ := g'
    obtain ⟨h1, h2, h3, h4, h5, h6⟩ := h
    simp only at h1 h2 h3 h4 h5 h6
    subst h1 h2 h3 h4 h5 h6
    cases b
    · exact .ok _ _ ⟨rfl, rfl, rfl, rfl, rfl, rfl⟩
    · exact .error _
  refine Both.bind (P := SimT) (both_addIf _ (fun _ g g' h => ?_) _ _ h) fun g g' h => ?_
  · obtain ⟨a, b, c, d, f, r, w⟩ := g
    obtain ⟨a', b', c', d', f', r', w'⟩ := g'
    obtain ⟨h1, h2, h3, h4, h5, h6⟩ := h
    simp only at h1 h2 h3 h4 h5 h6
    subst h1 h2 h3 h4 h5 h6
    cases c
    · exact .ok _ _ ⟨rfl, rfl, rfl, rfl, rfl, rfl⟩
    · exact .error _
  refine both_addIf _ (fun _ g g' h => ?_) _ _ h
  obtain ⟨a, b, c, d, f, r, w⟩ := g
  obtain ⟨a', b', c', d', f', r', w'⟩ := g'
  obtain ⟨h1, h2, h3, h4, h5, h6⟩ := h
  simp only at h1 h2 h3 h4 h5 h6
  subst h1 h2 h3 h4 h5 h6
  rcases d with _ | (_ | _)
  · exact .ok _ _ ⟨rfl, rfl, rfl, rfl, rfl, rfl⟩
  · exact .ok _ _ ⟨rfl, rfl, rfl, rfl, rfl, rfl⟩
  · exact .error _

theorem sim_note {g g' : GlobalRepeatBuilder} (h : Sim g g') (x y : Bar) :
    Sim (g.noteFirstBar x) (g'.noteFirstBar y) := by
  have e : ∀ (g : GlobalRepeatBuilder) (x : Bar), (g.noteFirstBar x).dsDc = g.dsDc ∧ (g.noteFirstBar x).fine = g.fine ∧
      (g.noteFirstBar x).segno = g.segno ∧ (g.noteFirstBar x).coda = g.coda ∧
      (g.noteFirstBar x).warnings = g.warnings := by
    intro g x
    unfold noteFirstBar
    cases g.firstBarLen with
    | some l => exact ⟨rfl, rfl, rfl, rfl, rfl⟩
    | none =>
      by_cases h0 : x.startTick = 0
      · cases hr : x.rhythm <;> simp [h0]
      · simp [h0]
  obtain ⟨a1, a2, a3, a4, a5⟩ := e g x
  obtain ⟨b1, b2, b3, b4, b5⟩ := e g' y
  refine ⟨?_, ?_, ?_, ?_, ?_, ?_⟩
  · rw [a1, b1, h.dsDc]
  · rw [a2, b2, h.fine]
  · rw [a3, b3, h.segno]
  · rw [a4, b4, h.coda]
  · rw [a5, b5, h.warnings]
  · intro t l; rw [a1]; exact h.noDc t l

theorem sim_onBar {g g' : GlobalRepeatBuilder} (h : Sim g g') (x : Bar) (hx : x.repeats.contains .Dc = false) :
    Both Sim (g.onBar x) (g'.onBar x) := by
  refine Both.bind (P := Sim) (both_addIf _ (fun hb _ _ _ => ?_) _ _ (sim_note h x x)) fun g g' h => ?_
  · rw [hx] at hb; cases hb
  refine Both.bind (P := Sim) (both_addIf _ (fun _ g g' h => ?_) _ _ h) fun g g' h => ?_
  · obtain ⟨a, b, c, d, f, r, w⟩ := g
    obtain ⟨a', b', c', d', f', r', w'⟩ := g'
    obtain ⟨h1, h2, h3, h4, h5, h6⟩ := h
    simp only at h1 h2 h3 h4 h5
    subst h1 h2 h3 h4 h5
    rcases a with _ | (_ | _)
    · exact .ok _ _ ⟨rfl, rfl, rfl, rfl, rfl, by intro t l he; cases he⟩
    · exact .error _
    · exact .error _
  refine Both.bind (P := Sim) (both_addIf _ (fun _ g g' h => ?_) _ _ h) fun g g' h => ?_
  · obtain ⟨a, b, c, d, f, r, w⟩ := g
    obtain ⟨a', b', c', d', f', r', w'⟩ := g'
    obtain ⟨h1, h2, h3, h4, h5, h6⟩ := h
    simp only at h1 h2 h3 h4 h5
    subst h1 h2 h3 h4 h5
    cases b
    · exact .ok _ _ ⟨rfl, rfl, rfl, rfl, rfl, h6⟩
    · exact .error _
  refine Both.bind (P := Sim) (both_addIf _ (fun _ g g' h => ?_) _ _ h) fun g g' h => ?_
  · obtain ⟨a, b, c, d, f, r, w⟩ := g
    obtain ⟨a', b', c', d', f', r', w'⟩ := g'
    obtain ⟨h1, h2, h3, h4, h5, h6⟩ := h
    simp only at h1 h2 h3 h4 h5
    subst h1 h2 h3 h4 h5
    cases c
    · exact .ok _ _ ⟨rfl, rfl, rfl, rfl, rfl, h6⟩
    · exact .error _
  refine both_addIf _ (fun _ g g' h => ?_) _ _ h
  obtain ⟨a, b, c, d, f, r, w⟩ := g
  obtain ⟨a', b', c', d', f', r', w'⟩ := g'
  obtain ⟨h1, h2, h3, h4, h5, h6⟩ := h
  simp only at h1 h2 h3 h4 h5
  subst h1 h2 h3 h4 h5
  rcases d with _ | (_ | _)
  · exact .ok _ _ ⟨rfl, rfl, rfl, rfl, rfl, h6⟩
  · exact .ok _ _ ⟨rfl, rfl, rfl, rfl, rfl, h6⟩
  · exact .error _

/-- Related builders, the same regions and the same state. -/
def Loops (P : GlobalRepeatBuilder → GlobalRepeatBuilder → Prop)
    (a b : GlobalRepeatBuilder × List SimpleRegion × RenderState) : Prop := P a.1 b.1 ∧ a.2 = b.2

theorem loop_both {P : GlobalRepeatBuilder → GlobalRepeatBuilder → Prop} (hs : ∀ g g', P g g' → g.segno = g'.segno)
    (bars : List Bar) (hb : ∀ x ∈ bars, ∀ g g', P g g' → Both P (g.onBar x) (g'.onBar x)) :
    ∀ (g g' : GlobalRepeatBuilder) (st : RenderState), P g g' →
      Both (Loops P) (renderLoop g st bars) (renderLoop g' st bars) := by
  induction bars with
  | nil => intro g g' st h; exact .ok _ _ ⟨h, rfl⟩
  | cons x xs ih =>
    intro g g' st h
    refine Both.bind (P := P) (hb x (by simp) g g' h) fun g g' h => ?_
    rw [hs g g' h]
    refine Both.bind (P := Eq) (Both.refl (fun _ => rfl) _) ?_
    rintro ⟨rs, st'⟩ _ rfl
    refine Both.bind (ih (fun y hy => hb y (by simp [hy])) g g' st' h) ?_
    rintro ⟨g1, r1, s1⟩ ⟨g2, r2, s2⟩ ⟨h1, h2⟩
    cases h2
    exact .ok _ _ ⟨h1, rfl⟩

theorem closeRegion_both {P : GlobalRepeatBuilder → GlobalRepeatBuilder → Prop} (ip : Bool)
    (hP : ∀ g g', P g g' → g.build ip = g'.build ip)
    {a b : RR (GlobalRepeatBuilder × List SimpleRegion × RenderState)} (h : Both (Loops P) a b) :
    closeRegion ip a = closeRegion ip b := by
  cases h with
  | error e => rfl
  | ok x y hxy =>
    obtain ⟨g1, r1, s1⟩ := x
    obtain ⟨g2, r2, s2⟩ := y
    obtain ⟨h1, h2⟩ := hxy
    cases h2
    have := hP g1 g2 h1
    cases s1 with
    | idle => change (g1.build ip >>= _) = (g2.build ip >>= _); rw [this]
    | seq s => change (g1.build ip >>= _) = (g2.build ip >>= _); rw [this]
    | repeatStart s => rfl
    | variation s ts => rfl

theorem simT_build {g g' : GlobalRepeatBuilder} (ip : Bool) (h : SimT g g') (hd : g.segno ≠ none ∨ NoDc g) :
    g.build ip = g'.build ip := by
  obtain ⟨a, b, c, d, f, r, w⟩ := g
  obtain ⟨a', b', c', d', f', r', w'⟩ := g'
  obtain ⟨h1, h2, h3, h4, h5, h6⟩ := h
  simp only at h1 h2 h3 h4 h5 h6
  subst h1 h2 h3 h4 h5 h6
  rcases a with _ | (⟨t, l⟩ | t)
  · rfl
  · rcases hd with hd | hd
    · cases c with
      | none => exact absurd rfl hd
      | some s => cases f <;> rfl
    · exact absurd rfl (hd t l)
  · rfl

theorem sim_build {g g' : GlobalRepeatBuilder} (ip : Bool) (h : Sim g g') : g.build ip = g'.build ip := by
  obtain ⟨a, b, c, d, f, r, w⟩ := g
  obtain ⟨a', b', c', d', f', r', w'⟩ := g'
  obtain ⟨h1, h2, h3, h4, h5, h6⟩ := h
  simp only at h1 h2 h3 h4 h5
  subst h1 h2 h3 h4 h5
  rcases a with _ | (⟨t, l⟩ | t)
  · rfl
  · exact absurd rfl (h6 t l)
  · rfl

theorem Both.also {α : Type} {P : α → α → Prop} {Q : α → Prop} {a b : RR α} (h : Both P a b)
    (hq : ∀ v, a = .ok v → Q v) : Both (fun x y => P x y ∧ Q x) a b := by
  cases h with
  | error e => exact .error e
  | ok x y hxy => exact .ok x y ⟨hxy, hq x rfl⟩

private theorem bind_ok {α β : Type} {a : RR α} {f : α → RR β} {b : β} (h : (a >>= f) = .ok b) :
    ∃ x, a = .ok x ∧ f x = .ok b := by
  cases a with
  | error e => cases h
  | ok x => exact ⟨x, rfl, h⟩

private theorem bind_assoc {α β γ : Type} (a : RR α) (f : α → RR β) (g : β → RR γ) :
    ((a >>= f) >>= g) = (a >>= fun x => f x >>= g) := by cases a <;> rfl

/-- What later marks do to the Segno and the first bar. -/
private theorem addIf_keeps {α : Type} (p : GlobalRepeatBuilder → α) {b : Bool}
    {f : GlobalRepeatBuilder → RR GlobalRepeatBuilder} {g g' : GlobalRepeatBuilder}
    (hf : ∀ h, f g = .ok h → p h = p g) (h : addIf b f g = .ok g') : p g' = p g := by
  cases b with
  | false => cases h; rfl
  | true => exact hf g' h

private theorem dc_ok {g g' : GlobalRepeatBuilder} {t l : Nat} (h : g.addingDc t l = .ok g') :
    g' = { g with dsDc := some (.dc t l) } := by
  unfold addingDc at h
  rcases hd : g.dsDc with _ | (_ | _) <;> rw [hd] at h <;> cases h; rfl

private theorem ds_ok {g g' : GlobalRepeatBuilder} {t : Nat} (h : g.addingDs t = .ok g') :
    g' = { g with dsDc := some (.ds t) } := by
  unfold addingDs at h
  rcases hd : g.dsDc with _ | (_ | _) <;> rw [hd] at h <;> cases h; rfl

private theorem fine_ok {g g' : GlobalRepeatBuilder} {t : Nat} (h : g.addingFine t = .ok g') :
    g' = { g with fine := some t } := by
  unfold addingFine at h
  rcases hd : g.fine with _ | _ <;> rw [hd] at h <;> cases h; rfl

private theorem segno_ok {g g' : GlobalRepeatBuilder} {t : Nat} (h : g.addingSegno t = .ok g') :
    g' = { g with segno := some t } := by
  unfold addingSegno at h
  rcases hd : g.segno with _ | _ <;> rw [hd] at h <;> cases h; rfl

private theorem coda_ok {g g' : GlobalRepeatBuilder} {t : Nat} (h : g.addingCoda t = .ok g') :
    ∃ c, g' = { g with coda := c } := by
  unfold addingCoda at h
  rcases hd : g.coda with _ | (_ | _) <;> rw [hd] at h <;> cases h <;> exact ⟨_, rfl⟩

/-- After a bar line the first bar is known as noted, and the Segno is not lost. -/
theorem onBar_keeps {g g' : GlobalRepeatBuilder} {x : Bar} (h : g.onBar x = .ok g') :
    g'.firstBarLen = (g.noteFirstBar x).firstBarLen ∧
    ((g.segno ≠ none ∨ x.repeats.contains .Segno = true) → g'.segno ≠ none) := by
  obtain ⟨g1, h1, h⟩ := bind_ok h
  obtain ⟨g2, h2, h⟩ := bind_ok h
  obtain ⟨g3, h3, h⟩ := bind_ok h
  obtain ⟨g4, h4, h5⟩ := bind_ok h
  have hn : (g.noteFirstBar x).segno = g.segno := by
    unfold noteFirstBar
    cases g.firstBarLen with
    | some l => rfl
    | none =>
      by_cases h0 : x.startTick = 0
      · cases hr : x.rhythm <;> simp [h0]
      · simp [h0]
  refine ⟨?_, fun hs => ?_⟩
  · rw [addIf_keeps firstBarLen (fun _ e => by obtain ⟨c, rfl⟩ := coda_ok e; rfl) h5,
      addIf_keeps firstBarLen (fun _ e => by rw [segno_ok e]) h4,
      addIf_keeps firstBarLen (fun _ e => by rw [fine_ok e]) h3,
      addIf_keeps firstBarLen (fun _ e => by rw [ds_ok e]) h2,
      addIf_keeps firstBarLen (fun _ e => by rw [dc_ok e]) h1]
  · have e5 := addIf_keeps segno (fun _ e => by obtain ⟨c, rfl⟩ := coda_ok e; rfl) h5
    have e3 := addIf_keeps segno (fun _ e => by rw [fine_ok e]) h3
    have e2 := addIf_keeps segno (fun _ e => by rw [ds_ok e]) h2
    have e1 := addIf_keeps segno (fun _ e => by rw [dc_ok e]) h1
    rw [e5]
    cases hc : x.repeats.contains .Segno with
    | true =>
      rw [hc] at h4
      rw [segno_ok h4]
      simp
    | false =>
      rw [hc] at h4
      cases h4
      rw [e3, e2, e1, hn]
      exact hs.resolve_right (by simp [hc])

/-- The loop over two parts of a score. -/
theorem loop_append (l r : List Bar) : ∀ (g : GlobalRepeatBuilder) (st : RenderState),
    renderLoop g st (l ++ r) = (renderLoop g st l >>= fun a => renderLoop a.1 a.2.2 r >>= fun b =>
      pure (b.1, a.2.1 ++ b.2.1, b.2.2)) := by
  induction l with
  | nil =>
    intro g st
    change renderLoop g st r = (renderLoop g st r >>= fun b => pure (b.1, [] ++ b.2.1, b.2.2))
    cases renderLoop g st r <;> rfl
  | cons x xs ih =>
    intro g st
    simp only [List.cons_append, renderLoop, bind_assoc]
    cases g.onBar x with
    | error e => rfl
    | ok g1 =>
      change ((renderStep g1.segno st x) >>= _) = ((renderStep g1.segno st x) >>= _)
      cases renderStep g1.segno st x with
      | error e => rfl
      | ok o =>
        obtain ⟨rs, st1⟩ := o
        change (renderLoop g1 st1 (xs ++ r) >>= _) = (renderLoop g1 st1 xs >>= _)
        rw [ih, bind_assoc]
        cases renderLoop g1 st1 xs with
        | error e => rfl
        | ok o =>
          obtain ⟨g2, rs2, st2⟩ := o
          change ((renderLoop g2 st2 r >>= _) >>= _) = (renderLoop g2 st2 r >>= _)
          cases renderLoop g2 st2 r with
          | error e => rfl
          | ok o =>
            obtain ⟨g3, rs3, st3⟩ := o
            change Except.ok _ = Except.ok _
            simp

/-- A bar line without marks outside endings only tells where the first bar ends. -/
theorem loop_unmarked {x : Bar} (hx : x.repeats = {}) (g : GlobalRepeatBuilder) {st : RenderState}
    (hst : ∀ s ts, st ≠ .variation s ts) (r : List Bar) :
    renderLoop g st (x :: r) = renderLoop (g.noteFirstBar x) st r := by
  have h1 : g.onBar x = .ok (g.noteFirstBar x) := by unfold onBar; rw [hx]; rfl
  have h2 : ∀ sg, renderStep sg st x = .ok ([], st) := by
    intro sg
    unfold renderStep
    rw [hx]
    cases st with
    | variation s ts => exact absurd rfl (hst s ts)
    | _ => rfl
  rw [renderLoop, h1]
  change (renderStep _ st x >>= _) = _
  rw [h2]
  change (renderLoop (g.noteFirstBar x) st r >>= _) = _
  cases renderLoop (g.noteFirstBar x) st r <;> rfl

private theorem index_none {x : Bar} (h : ¬ Numbered x) : x.repeats.regionIndex = none := by
  unfold Numbered at h
  unfold RepeatSet.regionIndex
  simp only [RepeatSet.contains]
  simp at h
  simp [h]

/-- No ending is open after a bar line without a number. -/
theorem step_closed {sg : Option Nat} {st st' : RenderState} {x : Bar} {rs : List SimpleRegion} (hx : ¬ Numbered x)
    (h : renderStep sg st x = .ok (rs, st')) : ∀ s ts, st' ≠ .variation s ts := by
  have hi := index_none hx
  unfold renderStep at h
  simp only [hi] at h
  intro s ts he
  subst he
  cases st with
  | idle => simp only at h; split at h <;> (try split at h) <;> (try split at h) <;> cases h
  | seq s => simp only [fail] at h; split at h <;> (try split at h) <;> cases h
  | repeatStart s =>
    simp only [fail] at h
    split at h <;> (try split at h) <;> (try split at h) <;> (try split at h) <;> cases h
  | variation s ts =>
    simp only [fail] at h
    split at h
    · cases h
    · obtain ⟨_, _, h⟩ := bind_ok h
      obtain ⟨_, _, h⟩ := bind_ok h
      split at h <;> cases h

/-- The state after a part of the score that does not end inside an ending. -/
theorem loop_closed {g g' : GlobalRepeatBuilder} {st' : RenderState} {l : List Bar} {rs : List SimpleRegion}
    (hl : ∀ y, l.getLast? = some y → ¬ Numbered y) (h : renderLoop g .idle l = .ok (g', rs, st')) :
    ∀ s ts, st' ≠ .variation s ts := by
  by_cases he : l = []
  · subst he; cases h; intro s ts e; cases e
  · have e := List.dropLast_concat_getLast he
    rw [← e, loop_append] at h
    obtain ⟨⟨g1, r1, s1⟩, _, h⟩ := bind_ok h
    obtain ⟨⟨g2, r2, s2⟩, h2, h⟩ := bind_ok h
    cases h
    rw [renderLoop] at h2
    obtain ⟨g3, _, h2⟩ := bind_ok h2
    obtain ⟨⟨r3, s3⟩, h3, h2⟩ := bind_ok h2
    cases h2
    exact step_closed (hl _ (List.getLast?_eq_some_getLast he)) h3

/-- Once a bar line after tick 0 has been met, the first bar is known. -/
theorem loop_firstKnown {l : List Bar} : ∀ {g g' : GlobalRepeatBuilder} {st st' : RenderState} {rs : List SimpleRegion},
    (g.firstBarLen ≠ none ∨ ∃ y ∈ l, y.startTick ≠ 0) → renderLoop g st l = .ok (g', rs, st') →
    g'.firstBarLen ≠ none := by
  induction l with
  | nil =>
    intro g g' st st' rs hf h
    cases h
    rcases hf with hf | ⟨y, hy, _⟩
    · exact hf
    · simp at hy
  | cons x xs ih =>
    intro g g' st st' rs hf h
    rw [renderLoop] at h
    obtain ⟨g1, h1, h⟩ := bind_ok h
    obtain ⟨⟨r2, s2⟩, _, h⟩ := bind_ok h
    obtain ⟨⟨g3, r3, s3⟩, h3, h⟩ := bind_ok h
    cases h
    refine ih ?_ h3
    have e := (onBar_keeps h1).1
    rw [e]
    unfold noteFirstBar
    cases hg : g.firstBarLen with
    | some k => left; simp [hg]
    | none =>
      rcases hf with hf | ⟨y, hy, h0⟩
      · exact absurd hg hf
      · rcases List.mem_cons.1 hy with rfl | hy
        · left; simp [h0]
        · exact .inr ⟨y, hy, h0⟩

/-- Once a Segno has been met, it is known. -/
theorem loop_segno {l : List Bar} : ∀ {g g' : GlobalRepeatBuilder} {st st' : RenderState} {rs : List SimpleRegion},
    (g.segno ≠ none ∨ Carries l .Segno) → renderLoop g st l = .ok (g', rs, st') → g'.segno ≠ none := by
  induction l with
  | nil =>
    intro g g' st st' rs hf h
    cases h
    rcases hf with hf | ⟨y, hy, _⟩
    · exact hf
    · simp at hy
  | cons x xs ih =>
    intro g g' st st' rs hf h
    rw [renderLoop] at h
    obtain ⟨g1, h1, h⟩ := bind_ok h
    obtain ⟨⟨r2, s2⟩, _, h⟩ := bind_ok h
    obtain ⟨⟨g3, r3, s3⟩, h3, h⟩ := bind_ok h
    cases h
    refine ih ?_ h3
    have e := (onBar_keeps h1).2
    rcases hf with hf | ⟨y, hy, h0⟩
    · exact .inl (e (.inl hf))
    · rcases List.mem_cons.1 hy with rfl | hy
      · exact .inl (e (.inr h0))
      · exact .inr ⟨y, hy, h0⟩

end Klavier
