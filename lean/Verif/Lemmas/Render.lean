import Verif.Spec.Score
import Verif.Lemmas.Chunk

/-! # render_region: splitting the loop, and the grammar -/
set_option autoImplicit false
namespace Klavier
open Spec

@[simp] theorem RR_bind_ok {α β : Type} (a : α) (f : α → RR β) : (Except.ok a >>= f : RR β) = f a := rfl
@[simp] theorem RR_bind_error {α β : Type} (e : Fail) (f : α → RR β) : (Except.error e >>= f : RR β) = .error e := rfl
@[simp] theorem RR_pure {α : Type} (a : α) : (pure a : RR α) = .ok a := rfl
theorem RR_bind_eq_ok {α β : Type} (x : RR α) (f : α → RR β) (b : β) :
    (x >>= f) = .ok b ↔ ∃ a, x = .ok a ∧ f a = .ok b := by
  cases x with
  | error e => simp
  | ok a => simp

/-- The global marks of all bars. -/
def buildLoop (g : GlobalRepeatBuilder) : List Bar → RR GlobalRepeatBuilder
  | [] => .ok g
  | x :: xs => do
    let g ← g.onBar x
    buildLoop g xs

/-- The steps over all bars, for a fixed Segno. -/
def stepLoop (segno : Option Nat) (st : RenderState) : List Bar → RR (List SimpleRegion × RenderState)
  | [] => .ok ([], st)
  | x :: xs => do
    let (rs, st) ← renderStep segno st x
    let (rs', st) ← stepLoop segno st xs
    pure (rs ++ rs', st)

theorem onBar_segno {g g' : GlobalRepeatBuilder} {x : Bar} (h : g.onBar x = .ok g') :
    (∀ s, g.segno = some s → g'.segno = some s) ∧ (g.segno = none → g'.segno = none ∨ g'.segno = some x.startTick) := by
  have gen : ∀ (b : Bool) (f : GlobalRepeatBuilder → RR GlobalRepeatBuilder) (g g' : GlobalRepeatBuilder),
      (∀ g g', f g = .ok g' → g'.segno = g.segno) → GlobalRepeatBuilder.addIf b f g = .ok g' → g'.segno = g.segno := by
    intro b f g g' hf h
    cases b with
    | false => simp [GlobalRepeatBuilder.addIf] at h; rw [h]
    | true => exact hf _ _ (by simpa [GlobalRepeatBuilder.addIf] using h)
  have h0 : (g.noteFirstBar x).segno = g.segno := by
    simp only [GlobalRepeatBuilder.noteFirstBar]
    split
    · rfl
    · split
      · split <;> rfl
      · rfl
  simp only [GlobalRepeatBuilder.onBar, RR_bind_eq_ok] at h
  obtain ⟨a, ha, b, hb, c, hc, d, hd, he⟩ := h
  have ea : a.segno = g.segno := by
    rw [← h0]
    refine gen _ _ _ _ ?_ ha
    intro g g' h
    simp only [GlobalRepeatBuilder.addingDc, fail] at h
    split at h <;> simp at h
    rw [← h]
  have eb : b.segno = g.segno := by
    rw [← ea]
    refine gen _ _ _ _ ?_ hb
    intro g g' h
    simp only [GlobalRepeatBuilder.addingDs, fail] at h
    split at h <;> simp at h
    rw [← h]
  have ec : c.segno = g.segno := by
    rw [← eb]
    refine gen _ _ _ _ ?_ hc
    intro g g' h
    simp only [GlobalRepeatBuilder.addingFine, fail] at h
    split at h <;> simp at h
    rw [← h]
  have ee : g'.segno = d.segno := by
    refine gen _ _ _ _ ?_ he
    intro g g' h
    simp only [GlobalRepeatBuilder.addingCoda, fail] at h
    split at h <;> simp at h
    · rw [← h]
    · rw [← h]
  rw [ee]
  simp only [GlobalRepeatBuilder.addIf] at hd
  split at hd
  · simp only [GlobalRepeatBuilder.addingSegno, fail] at hd
    split at hd
    · simp at hd
    · rename_i hn
      simp at hd
      rw [ec] at hn
      rw [← hd, hn]
      exact ⟨by simp, fun _ => .inr rfl⟩
  · simp at hd
    rw [← hd, ec]
    exact ⟨fun s hs => hs, fun hs => .inl hs⟩

theorem buildLoop_segno (bars : List Bar) : ∀ g g' : GlobalRepeatBuilder, buildLoop g bars = .ok g' →
    (∀ s, g.segno = some s → g'.segno = some s) ∧
    (g.segno = none → g'.segno = none ∨ ∃ x ∈ bars, g'.segno = some x.startTick) := by
  induction bars with
  | nil =>
    intro g g' h
    simp [buildLoop] at h
    rw [← h]
    exact ⟨fun s hs => hs, fun hs => .inl hs⟩
  | cons x xs ih =>
    intro g g' h
    rw [buildLoop, RR_bind_eq_ok] at h
    obtain ⟨g1, h1, h2⟩ := h
    obtain ⟨a1, a2⟩ := onBar_segno h1
    obtain ⟨b1, b2⟩ := ih g1 g' h2
    refine ⟨fun s hs => b1 s (a1 s hs), fun hs => ?_⟩
    rcases a2 hs with h | h
    · rcases b2 h with h | ⟨y, hy, h⟩
      · exact .inl h
      · exact .inr ⟨y, by simp [hy], h⟩
    · exact .inr ⟨x, by simp, b1 _ h⟩

/-- The Segno only matters between the first and the last ending. -/
theorem renderStep_congr (s1 s2 : Option Nat) (st : RenderState) (x : Bar)
    (h : ∀ s ts, st = .variation s ts → ∀ a b, ts.head? = some a → ts.getLast? = some b →
      ((∃ sg, s1 = some sg ∧ a ≤ sg ∧ sg < b) ↔ ∃ sg, s2 = some sg ∧ a ≤ sg ∧ sg < b)) :
    (∀ s ts, st = .variation s ts → ts ≠ []) → renderStep s1 st x = renderStep s2 st x := by
  intro hne
  cases st with
  | idle => rfl
  | seq s => rfl
  | repeatStart s => rfl
  | variation s ts =>
    have hne := hne s ts rfl
    obtain ⟨a, ha⟩ : ∃ a, ts.head? = some a := by
      cases ts with
      | nil => exact absurd rfl hne
      | cons a ts => exact ⟨a, rfl⟩
    obtain ⟨b, hb⟩ : ∃ b, ts.getLast? = some b := ⟨ts.getLast hne, List.getLast?_eq_some_getLast hne⟩
    have h := h s ts rfl a b ha hb
    have key : ∀ s1 : Option Nat, checkSegno s1 ts x.startTick =
        if (∃ sg, s1 = some sg ∧ a ≤ sg ∧ sg < b) then fail (.segnoWhileVariation x.startTick) else .ok () := by
      intro s1
      cases s1 with
      | none => simp [checkSegno]
      | some sg => simp [checkSegno, ha, hb]
    have e : checkSegno s1 ts x.startTick = checkSegno s2 ts x.startTick := by
      rw [key, key]
      by_cases hc : ∃ sg, s1 = some sg ∧ a ≤ sg ∧ sg < b
      · rw [if_pos hc, if_pos (h.1 hc)]
      · rw [if_neg hc, if_neg (fun h' => hc (h.2 h'))]
    simp only [renderStep, e]

/-- The state refers to earlier ticks only. -/
def Below (st : RenderState) (bars : List Bar) : Prop :=
  ∀ s ts, st = .variation s ts → ts ≠ [] ∧ ∀ t ∈ ts, ∀ x ∈ bars, t < x.startTick

theorem renderStep_below {sg : Option Nat} {st st' : RenderState} {x : Bar} {xs : List Bar} {rs : List SimpleRegion}
    (hs : (x :: xs).Pairwise (fun x y => x.startTick < y.startTick)) (hb : Below st (x :: xs))
    (h : renderStep sg st x = .ok (rs, st')) : Below st' xs := by
  have hx : ∀ y ∈ xs, x.startTick < y.startTick := (List.pairwise_cons.1 hs).1
  have one : ∀ s, Below (.variation s [x.startTick]) xs := by
    intro s s' ts e
    cases e
    refine ⟨by simp, ?_⟩
    intro t ht y hy
    simp at ht
    rw [ht]
    exact hx y hy
  have nov : ∀ st : RenderState, (∀ s ts, st ≠ .variation s ts) → Below st xs := by
    intro st h s ts e
    exact absurd e (h s ts)
  cases st with
  | idle =>
    simp only [renderStep, fail] at h
    split at h
    · simp at h; rw [← h.2]; exact nov _ (by simp)
    split at h
    · simp at h; rw [← h.2]; exact nov _ (by simp)
    split at h
    · simp at h; rw [← h.2]; exact nov _ (by simp)
    split at h
    · split at h
      · simp at h
      · simp at h; rw [← h.2]; exact one _
    · simp at h; rw [← h.2]; exact nov _ (by simp)
  | seq s =>
    simp only [renderStep, fail] at h
    split at h
    · simp at h
    split at h
    · simp at h; rw [← h.2]; exact nov _ (by simp)
    · simp at h; rw [← h.2]; exact nov _ (by simp)
  | repeatStart s =>
    simp only [renderStep, fail] at h
    split at h
    · simp at h; rw [← h.2]; exact nov _ (by simp)
    split at h
    · simp at h; rw [← h.2]; exact nov _ (by simp)
    split at h
    · simp at h
    split at h
    · simp at h
    split at h
    · split at h
      · simp at h
      · simp at h; rw [← h.2]; exact one _
    · simp at h; rw [← h.2]; exact nov _ (by simp)
  | variation s ts =>
    have ⟨hne, hlt⟩ := hb s ts rfl
    simp only [renderStep, fail] at h
    split at h
    · simp at h
    split at h
    · split at h
      · simp at h
      split at h
      · simp at h
        rw [← h.2]
        intro s' ts' e
        cases e
        exact ⟨hne, fun t ht y hy => hlt t ht y (by simp [hy])⟩
      split at h
      · simp at h
        rw [← h.2]
        intro s' ts' e
        cases e
        refine ⟨by simp, fun t ht y hy => ?_⟩
        rcases List.mem_append.1 ht with ht | ht
        · exact hlt t ht y (by simp [hy])
        · simp at ht
          rw [ht]
          exact hx y hy
      · split at h <;> simp at h
    · rw [RR_bind_eq_ok] at h
      obtain ⟨u, _, h⟩ := h
      rw [RR_bind_eq_ok] at h
      obtain ⟨v, _, h⟩ := h
      simp at h
      rw [← h.2]
      split
      · exact nov _ (by simp)
      · exact nov _ (by simp)

theorem renderLoop_ok (bars : List Bar) : ∀ (g : GlobalRepeatBuilder) (st : RenderState) (gf : GlobalRepeatBuilder)
    (rs : List SimpleRegion) (st' : RenderState), bars.Pairwise (fun x y => x.startTick < y.startTick) → Below st bars →
    (renderLoop g st bars = .ok (gf, rs, st') ↔
      buildLoop g bars = .ok gf ∧ stepLoop gf.segno st bars = .ok (rs, st')) := by
  induction bars with
  | nil =>
    intro g st gf rs st' _ _
    simp only [renderLoop, buildLoop, stepLoop, Except.ok.injEq, Prod.mk.injEq]
  | cons x xs ih =>
    intro g st gf rs st' hs hb
    obtain ⟨hx, hs'⟩ := List.pairwise_cons.1 hs
    have same : ∀ g1 gf : GlobalRepeatBuilder, buildLoop g1 xs = .ok gf →
        renderStep g1.segno st x = renderStep gf.segno st x := by
      intro g1 gf h2
      obtain ⟨b1, b2⟩ := buildLoop_segno xs g1 gf h2
      refine renderStep_congr _ _ st x ?_ (fun s ts e => (hb s ts e).1)
      intro s ts e a b ha hbl
      constructor
      · rintro ⟨sg, e1, e2⟩
        exact ⟨sg, b1 sg e1, e2⟩
      · rintro ⟨sg, e1, e2⟩
        cases hg : g1.segno with
        | some s0 =>
          rw [b1 s0 hg] at e1
          exact ⟨sg, e1, e2⟩
        | none =>
          rcases b2 hg with h | ⟨y, hy, h⟩
          · rw [h] at e1; cases e1
          · rw [h] at e1
            cases e1
            have hbm := (hb s ts e).2 b (List.mem_of_getLast? hbl) y (by simp [hy])
            omega
    rw [renderLoop, buildLoop, stepLoop]
    constructor
    · intro h
      rw [RR_bind_eq_ok] at h
      obtain ⟨g1, h1, h⟩ := h
      rw [RR_bind_eq_ok] at h
      obtain ⟨⟨rs1, st1⟩, h2, h⟩ := h
      rw [RR_bind_eq_ok] at h
      obtain ⟨⟨g2, rs2, st2⟩, h3, h⟩ := h
      simp only [RR_pure, Except.ok.injEq, Prod.mk.injEq] at h
      obtain ⟨e1, e2, e3⟩ := h
      obtain ⟨i1, i2⟩ := (ih g1 st1 g2 rs2 st2 hs' (renderStep_below hs hb h2)).1 h3
      rw [e1] at i1 i2
      rw [same g1 gf i1] at h2
      rw [h1, RR_bind_ok, h2, RR_bind_ok]
      dsimp only
      rw [i2, RR_bind_ok]
      simp only [RR_pure, e2, e3, and_true]
      exact i1
    · rintro ⟨h1, h2⟩
      rw [RR_bind_eq_ok] at h1 h2
      obtain ⟨g1, h1, h3⟩ := h1
      obtain ⟨⟨rs1, st1⟩, h2, h4⟩ := h2
      dsimp only at h4
      rw [RR_bind_eq_ok] at h4
      obtain ⟨⟨rs2, st2⟩, h4, h5⟩ := h4
      simp only [RR_pure, Except.ok.injEq, Prod.mk.injEq] at h5
      obtain ⟨e2, e3⟩ := h5
      have i := (ih g1 st1 gf rs2 st2 hs' (renderStep_below hs hb h2)).2 ⟨h3, h4⟩
      rw [← same g1 gf h3] at h2
      rw [h1, RR_bind_ok, h2, RR_bind_ok]
      dsimp only
      rw [i, RR_bind_ok]
      simp only [RR_pure, e2, e3]

end Klavier
