import Verif.Spec.Afresh
import Verif.Lemmas.Playing
import Verif.Lemmas.Refused

/-! # Cutting a score at a Start -/
set_option autoImplicit false
namespace Klavier
open Spec

theorem jumpFree_marks {bars : List Bar} (h : JumpFree bars) {m : Repeat}
    (hm : m = .Dc ∨ m = .Ds ∨ m = .Fine ∨ m = .Segno ∨ m = .Coda) : marks bars m = [] := by
  rw [List.eq_nil_iff_forall_not_mem]
  intro t ht
  obtain ⟨x, h1, h2, _⟩ := mem_marks.1 ht
  obtain ⟨a, b, c, d, e⟩ := h x h1
  rcases hm with rfl | rfl | rfl | rfl | rfl <;> contradiction

/-- Without marks for a jump only the marks of the repeats matter. -/
theorem jumpFree_render {bars : List Bar} (hs : bars.Pairwise (fun x y => x.startTick < y.startTick)) (h : JumpFree bars)
    (ip : Bool) (tune : Rhythm) (c : CompoundRegion) (w : List RenderRegionWarning) :
    renderRegion ip tune bars = .ok (c, w) ↔ c.globalRepeat = none ∧ w = [] ∧
      ∃ rs st z, stepLoop none .idle bars = .ok (rs, st) ∧ finish st = some z ∧ c.regions = rs ++ [.seq ⟨z, U32_MAX⟩] := by
  have e1 := jumpFree_marks h (m := .Dc) (by simp)
  have e2 := jumpFree_marks h (m := .Ds) (by simp)
  have e3 := jumpFree_marks h (m := .Fine) (by simp)
  have e4 := jumpFree_marks h (m := .Segno) (by simp)
  have e5 := jumpFree_marks h (m := .Coda) (by simp)
  have hb : (GlobalRepeatBuilder.builtOf tune bars).build ip = .ok (none, []) := by
    simp [GlobalRepeatBuilder.build, GlobalRepeatBuilder.builtOf, GlobalRepeatBuilder.jumpOf, e1, e2]
  rw [render_ok_iff hs, e4, stepLoop_iff, hb]
  simp only [MarksOk, e1, e2, e3, e4, e5, List.length_nil, List.head?_nil, Except.ok.injEq, Prod.mk.injEq]
  constructor
  · rintro ⟨_, hr, h1, h2⟩; exact ⟨h1.symm, h2.symm, hr⟩
  · rintro ⟨h1, h2, hr⟩; exact ⟨by simp, hr, h1.symm, h2.symm⟩

theorem stepLoop_append_iff {sg : Option Nat} (l r : List Bar) : ∀ {st st' : RenderState} {rs : List SimpleRegion},
    stepLoop sg st (l ++ r) = .ok (rs, st') ↔
    ∃ r1 s1 r2, stepLoop sg st l = .ok (r1, s1) ∧ stepLoop sg s1 r = .ok (r2, st') ∧ rs = r1 ++ r2 := by
  induction l with
  | nil =>
    intro st st' rs
    constructor
    · intro h; exact ⟨[], st, rs, rfl, h, rfl⟩
    · rintro ⟨r1, s1, r2, h1, h2, rfl⟩
      cases h1
      exact h2
  | cons x l ih =>
    intro st st' rs
    rw [List.cons_append, stepLoop, stepLoop, RR_bind_eq_ok]
    constructor
    · rintro ⟨⟨r1, s1⟩, h1, h⟩
      rw [RR_bind_eq_ok] at h
      obtain ⟨⟨r2, s2⟩, h2, h⟩ := h
      obtain ⟨a1, b1, c1, k1, k2, rfl⟩ := ih.1 h2
      simp only [RR_pure, Except.ok.injEq, Prod.mk.injEq] at h
      obtain ⟨rfl, rfl⟩ := h
      refine ⟨r1 ++ a1, b1, c1, ?_, k2, by simp⟩
      rw [h1, RR_bind_ok]
      simp only [k1, RR_bind_ok, RR_pure]
    · rintro ⟨a, b, c, h1, h2, rfl⟩
      rw [RR_bind_eq_ok] at h1
      obtain ⟨⟨r1, s1⟩, h1, h⟩ := h1
      rw [RR_bind_eq_ok] at h
      obtain ⟨⟨r2, s2⟩, h3, h⟩ := h
      simp only [RR_pure, Except.ok.injEq, Prod.mk.injEq] at h
      obtain ⟨rfl, rfl⟩ := h
      refine ⟨(r1, s1), h1, ?_⟩
      have := ih.2 ⟨r2, s2, c, h3, h2, rfl⟩
      simp only [this, RR_bind_ok, RR_pure, List.append_assoc]

theorem stepLoop_cons_iff {sg : Option Nat} {x : Bar} {l : List Bar} {st st' : RenderState} {rs : List SimpleRegion} :
    stepLoop sg st (x :: l) = .ok (rs, st') ↔
    ∃ r1 s1 r2, renderStep sg st x = .ok (r1, s1) ∧ stepLoop sg s1 l = .ok (r2, st') ∧ rs = r1 ++ r2 := by
  rw [stepLoop, RR_bind_eq_ok]
  constructor
  · rintro ⟨⟨r1, s1⟩, h1, h⟩
    rw [RR_bind_eq_ok] at h
    obtain ⟨⟨r2, s2⟩, h2, h⟩ := h
    simp only [RR_pure, Except.ok.injEq, Prod.mk.injEq] at h
    obtain ⟨rfl, rfl⟩ := h
    exact ⟨r1, s1, r2, h1, h2, rfl⟩
  · rintro ⟨r1, s1, r2, h1, h2, rfl⟩
    refine ⟨(r1, s1), h1, ?_⟩
    simp only [h2, RR_bind_ok, RR_pure]

/-- A plain passage begins at a bar line. -/
theorem step_seq_from {sg : Option Nat} {st : RenderState} {x : Bar} {rs : List SimpleRegion} {s : Nat}
    (h : renderStep sg st x = .ok (rs, .seq s)) : s = x.startTick ∨ st = .seq s := by
  cases st with
  | idle =>
    simp only [renderStep, fail] at h
    repeat' split at h
    all_goals simp_all
  | seq s =>
    simp only [renderStep, fail] at h
    repeat' split at h
    all_goals simp_all
  | repeatStart s =>
    simp only [renderStep, fail] at h
    repeat' split at h
    all_goals simp_all
  | variation s' ts =>
    simp only [renderStep, fail] at h
    split at h
    · simp at h
    split at h
    · repeat' split at h
      all_goals simp_all
    · rw [RR_bind_eq_ok] at h
      obtain ⟨u, _, h⟩ := h
      rw [RR_bind_eq_ok] at h
      obtain ⟨v, _, h⟩ := h
      split at h <;> simp_all

theorem loop_seq_from {sg : Option Nat} (bars : List Bar) : ∀ {st : RenderState} {rs : List SimpleRegion} {s : Nat},
    stepLoop sg st bars = .ok (rs, .seq s) → st = .seq s ∨ ∃ y ∈ bars, s = y.startTick := by
  induction bars with
  | nil => intro st rs s h; cases h; exact .inl rfl
  | cons x l ih =>
    intro st rs s h
    obtain ⟨r1, s1, r2, h1, h2, _⟩ := stepLoop_cons_iff.1 h
    rcases ih h2 with rfl | ⟨y, hy, e⟩
    · rcases step_seq_from h1 with e | e
      · exact .inr ⟨x, by simp, e⟩
      · exact .inl e
    · exact .inr ⟨y, by simp [hy], e⟩

/-- What is played of regions without a jump. -/
theorem renderAll_append (ip : Bool) (l r : List SimpleRegion) {cs : List Chunk} :
    CompoundRegion.renderAll ip .nonDcDs (l ++ r) = .ok cs ↔
    ∃ a b, CompoundRegion.renderAll ip .nonDcDs l = .ok a ∧ CompoundRegion.renderAll ip .nonDcDs r = .ok b ∧ cs = a ++ b := by
  induction l generalizing cs with
  | nil => simp [CompoundRegion.renderAll]
  | cons x l ih =>
    rw [List.cons_append, CompoundRegion.renderAll, CompoundRegion.renderAll, R_bind_eq_ok]
    constructor
    · rintro ⟨a, h1, h⟩
      rw [R_bind_eq_ok] at h
      obtain ⟨b, h2, h⟩ := h
      obtain ⟨p, q, k1, k2, rfl⟩ := ih.1 h2
      cases h
      refine ⟨a ++ p, q, ?_, k2, by simp⟩
      rw [h1, R_bind_ok, k1, R_bind_ok]
      rfl
    · rintro ⟨a, b, h1, h2, rfl⟩
      rw [R_bind_eq_ok] at h1
      obtain ⟨a1, h1, h⟩ := h1
      rw [R_bind_eq_ok] at h
      obtain ⟨a2, h3, h⟩ := h
      cases h
      refine ⟨a1, h1, ?_⟩
      rw [ih.2 ⟨a2, b, h3, h2, rfl⟩, R_bind_ok]
      simp [pure, Except.pure]

/-- A Start begins afresh: if it is well placed, what came before could as well have been the
end, and what follows depends on nothing that came before. -/
theorem step_afresh {st : RenderState} {x xl : Bar} (hx : Has x .Start) (hn : endingNo x = none)
    (hd : ¬ Has x .Dc ∧ ¬ Has x .Ds) (hl : LosesStart x xl) :
    (∀ rx sx, renderStep none st x = .ok (rx, sx) → ∃ rl sl z, renderStep none st xl = .ok (rl, sl) ∧ finish sl = some z) ∧
    ∀ rl sl z, renderStep none st xl = .ok (rl, sl) → finish sl = some z →
      ∃ rx, renderStep none st x = .ok (rx, .repeatStart x.startTick) ∧
      ((rx = rl ∧ z = x.startTick) ∨ (rl = [] ∧ rx = [.seq ⟨z, x.startTick⟩] ∧ ((st = .idle ∧ z = 0) ∨ st = .seq z))) := by
  obtain ⟨ht, hm⟩ := hl
  have a1 : xl.repeats.contains .Start = false := by
    have : ¬ Has xl .Start := fun k => absurd rfl ((hm .Start).1 k).2
    simpa [Has] using this
  have a2 : xl.repeats.contains .End = x.repeats.contains .End := by
    have := hm .End
    rw [Bool.eq_iff_iff]
    simpa [Has] using this
  have a3 : xl.repeats.contains .Dc = false := by
    have : ¬ Has xl .Dc := fun k => hd.1 ((hm .Dc).1 k).1
    simpa [Has] using this
  have a4 : xl.repeats.contains .Ds = false := by
    have : ¬ Has xl .Ds := fun k => hd.2 ((hm .Ds).1 k).1
    simpa [Has] using this
  have b1 : x.repeats.contains .Start = true := hx
  have b3 : x.repeats.contains .Dc = false := by simpa [Has] using hd.1
  have b4 : x.repeats.contains .Ds = false := by simpa [Has] using hd.2
  have b5 := endingNo_none.1 hn
  have a5 : xl.repeats.regionIndex = none := by
    rw [← endingNo_none, ← hn]
    simp only [endingNo, hm]
    simp
  have e1 : ∀ st, renderStep none st x = match st with
      | .idle => if x.repeats.contains .End then .ok ([.rep ⟨0, x.startTick⟩], .repeatStart x.startTick)
          else .ok ([.seq ⟨0, x.startTick⟩], .repeatStart x.startTick)
      | .seq s => if x.repeats.contains .End then fail (.orphanRepeatEnd x.startTick)
          else .ok ([.seq ⟨s, x.startTick⟩], .repeatStart x.startTick)
      | .repeatStart s => if x.repeats.contains .End then .ok ([.rep ⟨s, x.startTick⟩], .repeatStart x.startTick)
          else fail (.duplicatedRepeatStart x.startTick)
      | .variation s ts => if x.repeats.contains .End then fail (.repeatInVariation x.startTick)
          else liftR (createVariation s ts x.startTick) >>= fun v => pure ([v], .repeatStart x.startTick) := by
    intro st
    cases st <;> cases h : x.repeats.contains .End <;>
      simp [renderStep, b1, b5, h, checkSegno, RR_bind_ok]
  have e2 : ∀ st, renderStep none st xl = match st with
      | .idle => if x.repeats.contains .End then .ok ([.rep ⟨0, x.startTick⟩], .seq x.startTick) else .ok ([], .idle)
      | .seq s => if x.repeats.contains .End then fail (.orphanRepeatEnd x.startTick) else .ok ([], .seq s)
      | .repeatStart s => if x.repeats.contains .End then .ok ([.rep ⟨s, x.startTick⟩], .seq x.startTick)
          else .ok ([], .repeatStart s)
      | .variation s ts => if x.repeats.contains .End then fail (.repeatInVariation x.startTick)
          else liftR (createVariation s ts x.startTick) >>= fun v => pure ([v], .seq x.startTick) := by
    intro st
    cases st <;> cases h : x.repeats.contains .End <;>
      simp [renderStep, a1, a2, a3, a4, a5, h, ht, checkSegno, RR_bind_ok]
  rw [e1, e2]
  cases st with
  | idle =>
    cases x.repeats.contains .End
    · refine ⟨fun rx sx _ => ⟨_, _, 0, rfl, rfl⟩, fun rl sl z h hz => ?_⟩
      cases h; cases hz
      exact ⟨_, rfl, .inr ⟨rfl, rfl, .inl ⟨rfl, rfl⟩⟩⟩
    · refine ⟨fun rx sx _ => ⟨_, _, x.startTick, rfl, rfl⟩, fun rl sl z h hz => ?_⟩
      cases h; cases hz
      exact ⟨_, rfl, .inl ⟨rfl, rfl⟩⟩
  | seq s =>
    cases x.repeats.contains .End
    · refine ⟨fun rx sx _ => ⟨_, _, s, rfl, rfl⟩, fun rl sl z h hz => ?_⟩
      cases h; cases hz
      exact ⟨_, rfl, .inr ⟨rfl, rfl, .inr rfl⟩⟩
    · exact ⟨fun rx sx h => (by cases h), fun rl sl z h => by cases h⟩
  | repeatStart s =>
    cases x.repeats.contains .End
    · refine ⟨fun rx sx h => (by cases h), fun rl sl z h hz => ?_⟩
      cases h; cases hz
    · refine ⟨fun rx sx _ => ⟨_, _, x.startTick, rfl, rfl⟩, fun rl sl z h hz => ?_⟩
      cases h; cases hz
      exact ⟨_, rfl, .inl ⟨rfl, rfl⟩⟩
  | variation s ts =>
    cases x.repeats.contains .End
    · dsimp only
      cases createVariation s ts x.startTick with
      | error e => exact ⟨fun rx sx h => (by cases h), fun rl sl z h => by cases h⟩
      | ok v =>
        refine ⟨fun rx sx _ => ⟨[v], .seq x.startTick, x.startTick, rfl, rfl⟩, fun rl sl z h hz => ?_⟩
        cases h; cases hz
        exact ⟨_, rfl, .inl ⟨rfl, rfl⟩⟩
    · exact ⟨fun rx sx h => (by cases h), fun rl sl z h => by cases h⟩

theorem step_alone {x xr : Bar} (hr : StartAlone x xr) :
    renderStep none .idle xr = .ok ([.seq ⟨0, x.startTick⟩], .repeatStart x.startTick) := by
  obtain ⟨ht, hm⟩ := hr
  have a1 : xr.repeats.contains .Start = true := (hm .Start).2 rfl
  have a2 : xr.repeats.contains .End = false := by
    have : ¬ Has xr .End := fun k => absurd ((hm .End).1 k) (by simp)
    simpa [Has] using this
  simp [renderStep, a1, a2, ht]

end Klavier
