import Verif.Lemmas.AddJump
import Verif.Lemmas.Build
import Verif.Lemmas.Notate

/-! # A D.C. and a D.S. with its Segno compared -/
set_option autoImplicit false
namespace Klavier
open Spec

/-- Two bar lines that differ at most in the Segno and in which of D.C. and D.S. they carry. -/
def Alike (x y : Bar) : Prop :=
  y.startTick = x.startTick ∧ (∀ k, k ≠ .Dc → k ≠ .Ds → k ≠ .Segno → (Has y k ↔ Has x k)) ∧
    ((Has y .Dc ∨ Has y .Ds) ↔ (Has x .Dc ∨ Has x .Ds))

namespace Alike

variable {x y : Bar} (h : Alike x y)
include h

theorem startMark : Has y .Start ↔ Has x .Start := h.2.1 .Start (by decide) (by decide) (by decide)

theorem endMark : Has y .End ↔ Has x .End := h.2.1 .End (by decide) (by decide) (by decide)

theorem ending : endingNo y = endingNo x := by
  have e := h.2.1
  simp [endingNo, e]

theorem after_eq : after y = after x := by
  simp only [after, h.startMark]

theorem free : (¬ Has y .Dc ∧ ¬ Has y .Ds) ↔ (¬ Has x .Dc ∧ ¬ Has x .Ds) := by
  rw [← not_or, ← not_or, h.2.2]

theorem quiet {m : Mode} (k : Quiet m x) : Quiet m y := by
  cases m with
  | first => simpa only [Quiet, h.startMark, h.endMark, h.ending] using k
  | plain => simpa only [Quiet, h.startMark, h.endMark] using k
  | opened =>
    obtain ⟨k1, k2, k3, k4, k5⟩ := k
    obtain ⟨j3, j4⟩ := h.free.2 ⟨k3, k4⟩
    exact ⟨mt h.startMark.1 k1, mt h.endMark.1 k2, j3, j4, h.ending.trans k5⟩

theorem opens {m : Mode} (k : OpensEndings m x) : OpensEndings m y := by
  cases m with
  | first => simpa only [OpensEndings, h.startMark, h.endMark, h.ending] using k
  | plain => simpa only [OpensEndings, h.startMark, h.endMark, h.ending] using k
  | opened =>
    obtain ⟨k1, k2, k3, k4, k5⟩ := k
    obtain ⟨j3, j4⟩ := h.free.2 ⟨k3, k4⟩
    exact ⟨mt h.startMark.1 k1, mt h.endMark.1 k2, j3, j4, h.ending.trans k5⟩

theorem inEnding {n : Nat} (k : InEnding n x) : InEnding n y := by
  obtain ⟨j3, j4⟩ := h.free.2 ⟨k.2.1, k.2.2.1⟩
  exact ⟨mt h.endMark.1 k.1, j3, j4, h.ending.trans k.2.2.2⟩

end Alike

private theorem all_map {zs : List (Bar × Bar)} {p : Bar → Prop} (h : ∀ z ∈ zs, Alike z.1 z.2)
    (hp : ∀ x y, Alike x y → p x → p y) (k : ∀ x ∈ zs.map (·.1), p x) : ∀ y ∈ zs.map (·.2), p y := by
  intro y hy
  obtain ⟨z, hz, rfl⟩ := List.mem_map.1 hy
  exact hp _ _ (h z hz) (k _ (List.mem_map_of_mem hz))

theorem endings_alike {n : Nat} {bars : List Bar} {ts : List Nat} (k : Endings n bars ts) :
    ∀ zs : List (Bar × Bar), zs.map (·.1) = bars → (∀ z ∈ zs, Alike z.1 z.2) → Endings n (zs.map (·.2)) ts := by
  induction k with
  | @last n x xs h1 =>
    intro zs e h
    obtain ⟨z, zs', rfl, rfl, rfl⟩ := List.map_eq_cons_iff.1 e
    rw [List.map_cons, ← (h z List.mem_cons_self).1]
    exact .last (all_map (fun z hz => h z (.tail _ hz)) (fun _ _ a b => a.inEnding b) h1)
  | @more n x y xs ys ts h1 h2 h3 ih =>
    intro zs e h
    obtain ⟨z, zs', rfl, rfl, e1⟩ := List.map_eq_cons_iff.1 e
    obtain ⟨l, r, rfl, rfl, e2⟩ := List.map_eq_append_iff.1 e1
    obtain ⟨w, r', rfl, rfl, rfl⟩ := List.map_eq_cons_iff.1 e2
    have ih' := ih (w :: r') rfl (fun z hz => h z (by simp at hz ⊢; rcases hz with e | e <;> simp [e]))
    rw [List.map_cons] at ih'
    rw [List.map_cons, List.map_append, List.map_cons, ← (h z List.mem_cons_self).1]
    exact .more (all_map (fun z hz => h z (by simp [hz])) (fun _ _ a b => a.inEnding b) h1)
      ((h w (by simp)).inEnding h2) ih'

/-- Scores whose bar lines are alike read as the same passages, apart from where the Segno is. -/
theorem reads_alike {sg sg' : Option Nat} {m : Mode} {a : Nat} {bars : List Bar} {ps : List Passage} (k : Reads sg m a bars ps) :
    ∀ zs : List (Bar × Bar), zs.map (·.1) = bars → (∀ z ∈ zs, Alike z.1 z.2) →
    (∀ a ts b, Passage.endings a ts b ∈ ps → SegnoOk sg' ts) → Reads sg' m a (zs.map (·.2)) ps := by
  induction k with
  | last hm hq =>
    intro zs e h _
    subst e
    exact .last hm (all_map h (fun _ _ a b => a.quiet b) hq)
  | @start m a inside rest x ps hm hq h1 h2 hr ih =>
    intro zs e h hs
    obtain ⟨l, r, rfl, rfl, e1⟩ := List.map_eq_append_iff.1 e
    obtain ⟨w, r', rfl, rfl, rfl⟩ := List.map_eq_cons_iff.1 e1
    have hw := h w (by simp)
    rw [List.map_append, List.map_cons, ← hw.1]
    refine .start hm (all_map (fun z hz => h z (by simp [hz])) (fun _ _ a b => a.quiet b) hq) (hw.startMark.2 h1) (mt hw.endMark.1 h2) ?_
    rw [hw.1]
    exact ih r' rfl (fun z hz => h z (by simp [hz])) (fun a ts b k => hs a ts b (.tail _ k))
  | @close m a inside rest x ps hm hq h1 hr ih =>
    intro zs e h hs
    obtain ⟨l, r, rfl, rfl, e1⟩ := List.map_eq_append_iff.1 e
    obtain ⟨w, r', rfl, rfl, rfl⟩ := List.map_eq_cons_iff.1 e1
    have hw := h w (by simp)
    rw [List.map_append, List.map_cons, ← hw.1]
    refine .close hm (all_map (fun z hz => h z (by simp [hz])) (fun _ _ a b => a.quiet b) hq) (hw.endMark.2 h1) ?_
    rw [hw.after_eq, hw.1]
    exact ih r' rfl (fun z hz => h z (by simp [hz])) (fun a ts b k => hs a ts b (.tail _ k))
  | @endings m a inside es rest v x ts ps hm hq h1 he hok h2 h3 hr ih =>
    intro zs e h hs
    obtain ⟨l, r, rfl, rfl, e1⟩ := List.map_eq_append_iff.1 e
    obtain ⟨u, r', rfl, rfl, e2⟩ := List.map_eq_cons_iff.1 e1
    obtain ⟨l2, r2, rfl, rfl, e3⟩ := List.map_eq_append_iff.1 e2
    obtain ⟨w, r3, rfl, rfl, rfl⟩ := List.map_eq_cons_iff.1 e3
    have hu := h u (by simp)
    have hw := h w (by simp)
    have he' := endings_alike he (u :: l2) rfl (fun z hz => h z (by simp at hz ⊢; rcases hz with e | e <;> simp [e]))
    rw [List.map_cons] at he'
    rw [List.map_append, List.map_cons, List.map_append, List.map_cons, ← hw.1]
    refine .endings hm (all_map (fun z hz => h z (by simp [hz])) (fun _ _ a b => a.quiet b) hq) (hu.opens h1) he'
      (hs _ _ _ List.mem_cons_self) (mt hw.endMark.1 h2) (hw.ending.trans h3) ?_
    rw [hw.after_eq, hw.1]
    exact ih r3 rfl (fun z hz => h z (by simp [hz])) (fun a ts b k => hs a ts b (.tail _ k))

/-- The builder makes of a D.C. what it makes of a D.S. with the Segno at the place the D.C. goes
back to, unless there is a lone Coda. -/
theorem build_dc_ds (ip : Bool) (fine : Option Nat) (coda : Option Coda) (first s d len : Nat) (r : Rhythm)
    (hs : GlobalRepeatBuilder.implicitSegno ⟨some (.dc d len), fine, none, coda, some first, r, []⟩ len first = .ok s)
    (hc : ∀ o, coda ≠ some (.one o)) :
    GlobalRepeatBuilder.build ip ⟨some (.dc d len), fine, none, coda, some first, r, []⟩ =
      (GlobalRepeatBuilder.build ip ⟨some (.ds d), fine, some s, coda, some first, r, []⟩).map
        (fun p => (p.1.map (fun g => { g with dsDc := .dc d len }), p.2)) := by
  simp only [GlobalRepeatBuilder.build, GlobalRepeatBuilder.dcSegno, GlobalRepeatBuilder.dsSegno, hs, liftR, RR_bind_ok, RR_pure]
  match coda, hc with
  | none, _ =>
    simp only [GlobalRepeatBuilder.dcCoda, GlobalRepeatBuilder.dsCoda, RR_bind_ok]
    cases GlobalRepeatBuilder.toIntervalSet ip s fine none <;> rfl
  | some (.one o), hc => exact absurd rfl (hc o)
  | some (.two f t), _ =>
    simp only [GlobalRepeatBuilder.dcCoda, GlobalRepeatBuilder.dsCoda]
    cases GlobalRepeatBuilder.checkCodaPos f t fine with
    | error e => rfl
    | ok u =>
      simp only [RR_bind_ok, RR_pure]
      cases GlobalRepeatBuilder.toIntervalSet ip s fine (some (f, t)) <;> rfl

/-- The same with a written Segno, to which the D.C. goes with a warning. -/
theorem build_dc_segno (ip : Bool) (fine : Option Nat) (coda : Option Coda) (first s d len : Nat) (r : Rhythm)
    (hc : ∀ o, coda ≠ some (.one o)) :
    GlobalRepeatBuilder.build ip ⟨some (.dc d len), fine, some s, coda, some first, r, []⟩ =
      (GlobalRepeatBuilder.build ip ⟨some (.ds d), fine, some s, coda, some first, r, []⟩).map
        (fun p => (p.1.map (fun g => { g with dsDc := .dc d len }), [.segnoAndDcFound s d])) := by
  simp only [GlobalRepeatBuilder.build, GlobalRepeatBuilder.dcSegno, GlobalRepeatBuilder.dsSegno, RR_bind_ok]
  match coda, hc with
  | none, _ =>
    simp only [GlobalRepeatBuilder.dcCoda, GlobalRepeatBuilder.dsCoda, RR_bind_ok]
    cases GlobalRepeatBuilder.toIntervalSet ip s fine none <;> rfl
  | some (.one o), hc => exact absurd rfl (hc o)
  | some (.two f t), _ =>
    simp only [GlobalRepeatBuilder.dcCoda, GlobalRepeatBuilder.dsCoda]
    cases GlobalRepeatBuilder.checkCodaPos f t fine with
    | error e => rfl
    | ok u =>
      simp only [RR_bind_ok, RR_pure]
      cases GlobalRepeatBuilder.toIntervalSet ip s fine (some (f, t)) <;> rfl

end Klavier
