import Verif.Lemmas.RenderAll

/-! # The global repeat -/
set_option autoImplicit false
namespace Klavier
open Spec

theorem IntervalSet.ofPairs_false (l : List (Nat × Nat)) : ∃ s, IntervalSet.ofPairs false l = .ok s := by
  induction l with
  | nil => exact ⟨[], rfl⟩
  | cons p l ih =>
    obtain ⟨s, hs⟩ := ih
    obtain ⟨lo, hi⟩ := p
    by_cases h : lo ≤ hi
    · exact ⟨IntervalSet.insert lo hi s, by simp only [IntervalSet.ofPairs, h, if_true, hs, R_bind_ok, R_pure]⟩
    · exact ⟨s, by simp [IntervalSet.ofPairs, h, hs]⟩

namespace GlobalRepeatBuilder

theorem toIntervalSet_plain (ip : Bool) (s : Nat) (fine : Option Nat) :
    ∃ S, toIntervalSet ip s fine none = .ok S ∧ ∀ t, S.has t = true ↔ s ≤ t ∧ t < fine.getD U32_MAX := by
  generalize he : fine.getD U32_MAX = e
  by_cases h : e ≤ s
  · refine ⟨[], by simp [toIntervalSet, he, h], fun t => ?_⟩
    have : ¬ (s ≤ t ∧ t < e) := by omega
    simp only [this, iff_false]
    simp [IntervalSet.has]
  · obtain ⟨S, hS⟩ := IntervalSet.ofPairs_valid (ip := ip) (l := [(s, e - 1)]) (by
      intro p hp
      simp only [List.mem_singleton] at hp
      subst hp
      show s ≤ e - 1
      omega)
    refine ⟨S, ?_, fun t => ?_⟩
    · have h1 : subU32 e 1 = .ok (e - 1) := by
        rw [subU32, if_pos (by omega)]
      simp only [toIntervalSet, he, h, if_false, h1, R_bind_ok, hS]
    · rw [(IntervalSet.ofPairs_ok hS).2 t]
      simp only [List.mem_singleton, exists_eq_left]
      omega

theorem toIntervalSet_coda (ip : Bool) (s : Nat) (fine : Option Nat) {f t : Nat} (h0 : 0 < f)
    (he : 0 < fine.getD U32_MAX) (hip : ip = true → s < f ∧ t < fine.getD U32_MAX) :
    ∃ S, toIntervalSet ip s fine (some (f, t)) = .ok S ∧
      ∀ x, S.has x = true ↔ (s ≤ x ∧ x < f) ∨ (t ≤ x ∧ x < fine.getD U32_MAX) := by
  have e1 : subU32 f 1 = .ok (f - 1) := by rw [subU32, if_pos (by omega)]
  have e2 : subU32 (fine.getD U32_MAX) 1 = .ok (fine.getD U32_MAX - 1) := by rw [subU32, if_pos (by omega)]
  have : ∃ S, IntervalSet.ofPairs ip [(s, f - 1), (t, fine.getD U32_MAX - 1)] = .ok S := by
    cases ip with
    | false => exact IntervalSet.ofPairs_false _
    | true =>
      have := hip rfl
      refine IntervalSet.ofPairs_valid ?_
      intro p hp
      simp only [List.mem_cons, List.not_mem_nil, or_false] at hp
      rcases hp with rfl | rfl
      · show s ≤ f - 1
        omega
      · show t ≤ fine.getD U32_MAX - 1
        omega
  obtain ⟨S, hS⟩ := this
  refine ⟨S, by simp only [toIntervalSet, e1, e2, R_bind_ok, hS], fun x => ?_⟩
  rw [(IntervalSet.ofPairs_ok hS).2 x]
  simp only [List.mem_cons, List.not_mem_nil, or_false, exists_eq_or_imp, exists_eq_left]
  omega

/-- The Codas as the builder holds them, when they are none or two. -/
def codaPair (bars : List Bar) : Option (Nat × Nat) :=
  match marks bars .Coda with
  | [f, t] => some (f, t)
  | _ => none

theorem endTick_eq (bars : List Bar) : (marks bars .Fine).head?.getD U32_MAX = endTick bars := by
  unfold endTick
  cases marks bars .Fine <;> rfl

theorem marks_sorted {bars : List Bar} (hs : bars.Pairwise (fun x y => x.startTick < y.startTick)) (m : Repeat) :
    (marks bars m).Pairwise (· < ·) := by
  unfold marks
  rw [List.pairwise_map]
  exact hs.filter _

theorem interval_ok {bars : List Bar} (hs : bars.Pairwise (fun x y => x.startTick < y.startTick)) (ip : Bool)
    (target : Nat) (hc : CodasOk ip target bars) :
    ∃ S, toIntervalSet ip target (marks bars .Fine).head? (codaPair bars) = .ok S ∧
      (fun t => S.has t) = fun t => decide (inSecondPass target bars t) := by
  have gen : (∃ f t, marks bars .Coda = [f, t]) ∨ (codaPair bars = none ∧ ∀ x, inSecondPass target bars x ↔
      target ≤ x ∧ x < endTick bars) := by
    match h : marks bars .Coda with
    | [] => exact .inr ⟨by simp only [codaPair, h], fun x => by simp only [inSecondPass, h]⟩
    | [a] => exact .inr ⟨by simp only [codaPair, h], fun x => by simp only [inSecondPass, h]⟩
    | [a, b] => exact .inl ⟨a, b, rfl⟩
    | a :: b :: c :: l => exact .inr ⟨by simp only [codaPair, h], fun x => by simp only [inSecondPass, h]⟩
  rcases gen with ⟨f, t, h⟩ | ⟨h1, h2⟩
  · have hsort := marks_sorted hs .Coda
    simp only [h, List.pairwise_cons, List.mem_singleton, forall_eq] at hsort
    simp only [CodasOk, h] at hc
    have hlt := hsort.1
    obtain ⟨S, k1, k2⟩ := toIntervalSet_coda ip target (marks bars .Fine).head? (f := f) (t := t) hc.1
      (by rw [endTick_eq]; omega) (by rw [endTick_eq]; exact hc.2.2)
    refine ⟨S, by simp only [codaPair, h, k1], ?_⟩
    funext x
    rw [Bool.eq_iff_iff, k2 x, endTick_eq, decide_eq_true_eq]
    simp only [inSecondPass, h]
  · obtain ⟨S, k1, k2⟩ := toIntervalSet_plain ip target (marks bars .Fine).head?
    refine ⟨S, by rw [h1, k1], ?_⟩
    funext x
    rw [Bool.eq_iff_iff, k2 x, endTick_eq, decide_eq_true_eq, h2]

theorem checkCodaPos_ok {bars : List Bar} {ip : Bool} {target f t : Nat} (hc : CodasOk ip target bars)
    (h : marks bars .Coda = [f, t]) : checkCodaPos f t (marks bars .Fine).head? = .ok () := by
  simp only [CodasOk, h] at hc
  have := hc.2.1
  unfold checkCodaPos
  unfold endTick at this
  cases hf : marks bars .Fine with
  | nil => rfl
  | cons x xs =>
    rw [hf] at this
    have : ¬ x < t := by simp at this; omega
    simp [this]

theorem build_ds_all {bars : List Bar} (hs : bars.Pairwise (fun x y => x.startTick < y.startTick)) (ip : Bool)
    (tune : Rhythm) {d s : Nat} (h1 : marks bars .Dc = []) (h2 : marks bars .Ds = [d]) (h3 : marks bars .Segno = [s])
    (h4 : marks bars .Coda = [] ∨ ∃ f t, marks bars .Coda = [f, t]) (hc : CodasOk ip s bars) :
    ∃ S, (builtOf tune bars).build ip = .ok (some ⟨.ds d, (marks bars .Fine).head?, s, codaPair bars, S⟩, []) ∧
      (fun t => S.has t) = fun t => decide (inSecondPass s bars t) := by
  obtain ⟨S, k1, k2⟩ := interval_ok hs ip s hc
  refine ⟨S, ?_, k2⟩
  rcases h4 with h4 | ⟨f, t, h4⟩
  · rw [show codaPair bars = none by simp [codaPair, h4]] at k1 ⊢
    simp only [build, dsSegno, dsCoda, builtOf, jumpOf, h1, h2, h3, h4, codaOf, List.head?_cons, RR_pure, RR_bind_ok, k1, liftR]
  · have hp := checkCodaPos_ok hc h4
    rw [show codaPair bars = some (f, t) by simp [codaPair, h4]] at k1 ⊢
    simp only [build, dsSegno, dsCoda, builtOf, jumpOf, h1, h2, h3, h4, codaOf, List.head?_cons, RR_pure, RR_bind_ok, k1, liftR, hp]

theorem implicitSegno_ok (g : GlobalRepeatBuilder) (d first : Nat) (hf : 0 < first) (h : (if d = 0 then 0 else first) + first ≤ U32_MAX) :
    g.implicitSegno (if d = 0 then 0 else first) first = .ok (dcReturn g.topRhythm.tickLen first d) := by
  unfold implicitSegno dcReturn
  generalize g.topRhythm.tickLen = r
  by_cases hd : d = 0
  · simp only [hd, if_true] at h ⊢
    simp only [addU32, h, if_true, R_bind_ok, R_pure]
    by_cases h1 : first = r
    · simp [h1]
    · have : ¬ (0 = r ∧ first = r) := by omega
      have h2 : ¬ (0 + first = r) := by omega
      simp [h1]
  · simp only [hd, if_false] at h ⊢
    have hd' : 0 < d := by omega
    simp only [addU32, h, if_true, R_bind_ok, R_pure]
    by_cases h1 : first + first = r
    · have : first = r ∨ (0 < d ∧ 2 * first = r) := .inr ⟨hd', by omega⟩
      rw [if_pos h1, if_pos this]
    · by_cases h2 : first = r
      · rw [if_neg h1, if_pos ⟨h2, h2⟩, if_pos (.inl h2)]
      · rw [if_neg h1, if_neg (by omega), if_neg (by omega)]

theorem build_dc_all {bars : List Bar} (hs : bars.Pairwise (fun x y => x.startTick < y.startTick)) (ip : Bool)
    (tune : Rhythm) {d first : Nat} (hm : MarksOk bars) (h1 : marks bars .Dc = [d])
    (h2 : firstBarEnd bars = some first) (h3 : marks bars .Segno = [] → (if d = 0 then 0 else first) + first ≤ U32_MAX)
    (hc : CodasOk ip (dcTarget tune bars first d) bars) :
    ∃ S, (builtOf tune bars).build ip = .ok (some ⟨.dc d (if d = 0 then 0 else first), (marks bars .Fine).head?,
        dcTarget tune bars first d, codaPair bars, S⟩, dcWarnings bars d) ∧
      (fun t => S.has t) = fun t => decide (inSecondPass (dcTarget tune bars first d) bars t) := by
  obtain ⟨S, k1, k2⟩ := interval_ok hs ip _ hc
  refine ⟨S, ?_, k2⟩
  have hf : 0 < first := by
    have := List.find?_some h2
    simpa using this
  have hlen : ∀ l : List Nat, l.length ≤ 2 → l = [] ∨ (∃ a, l = [a]) ∨ ∃ a b, l = [a, b] := by
    intro l hl
    match l with
    | [] => exact .inl rfl
    | [a] => exact .inr (.inl ⟨a, rfl⟩)
    | [a, b] => exact .inr (.inr ⟨a, b, rfl⟩)
    | a :: b :: c :: l => simp at hl
  have hs2 := hlen (marks bars .Segno) (Nat.le_trans hm.2.2.1 (by decide))
  have hc2 := hlen (marks bars .Coda) hm.2.2.2
  rcases hs2 with h5 | ⟨s, h5⟩ | ⟨a, b, h5⟩
  · have ht : dcTarget tune bars first d = dcReturn (openingRhythm tune bars).tickLen first d := by
      rw [dcTarget, h5]
      rfl
    rw [ht] at k1 ⊢
    have hi := fun g h => implicitSegno_ok g d first hf (h3 h)
    rcases hc2 with h4 | ⟨o, h4⟩ | ⟨f, t, h4⟩
    · rw [show codaPair bars = none by simp [codaPair, h4]] at k1 ⊢
      simp only [build, dcSegno, dcCoda, builtOf, jumpOf, h1, h2, h5, h4, codaOf, List.head?_nil, RR_pure, RR_bind_ok, Option.getD_some, hi, liftR, k1, dcWarnings, List.map_nil, List.nil_append]
    · rw [show codaPair bars = none by simp [codaPair, h4]] at k1 ⊢
      simp only [build, dcSegno, dcCoda, builtOf, jumpOf, h1, h2, h5, h4, codaOf, List.head?_nil, RR_pure, RR_bind_ok, Option.getD_some, hi, liftR, k1, dcWarnings, List.map_nil, List.nil_append]
    · have hp := checkCodaPos_ok hc h4
      rw [show codaPair bars = some (f, t) by simp [codaPair, h4]] at k1 ⊢
      simp only [build, dcSegno, dcCoda, builtOf, jumpOf, h1, h2, h5, h4, codaOf, List.head?_nil, RR_pure, RR_bind_ok, Option.getD_some, hi, liftR, k1, dcWarnings, List.map_nil, List.nil_append, hp]
  · have ht : dcTarget tune bars first d = s := by
      rw [dcTarget, h5]
      rfl
    rw [ht] at k1 ⊢
    rcases hc2 with h4 | ⟨o, h4⟩ | ⟨f, t, h4⟩
    · rw [show codaPair bars = none by simp [codaPair, h4]] at k1 ⊢
      simp only [build, dcSegno, dcCoda, builtOf, jumpOf, h1, h2, h5, h4, codaOf, List.head?_cons, RR_pure, RR_bind_ok, Option.getD_some, liftR, k1, dcWarnings, List.map_cons, List.map_nil, List.nil_append, List.append_nil]
    · rw [show codaPair bars = none by simp [codaPair, h4]] at k1 ⊢
      simp only [build, dcSegno, dcCoda, builtOf, jumpOf, h1, h2, h5, h4, codaOf, List.head?_cons, RR_pure, RR_bind_ok, Option.getD_some, liftR, k1, dcWarnings, List.map_cons, List.map_nil, List.nil_append]
    · have hp := checkCodaPos_ok hc h4
      rw [show codaPair bars = some (f, t) by simp [codaPair, h4]] at k1 ⊢
      simp only [build, dcSegno, dcCoda, builtOf, jumpOf, h1, h2, h5, h4, codaOf, List.head?_cons, RR_pure, RR_bind_ok, Option.getD_some, liftR, k1, dcWarnings, List.map_cons, List.map_nil, List.nil_append, List.append_nil, hp]
  · have := hm.2.2.1
    rw [h5] at this
    simp at this

theorem build_ds {bars : List Bar} (hs : bars.Pairwise (fun x y => x.startTick < y.startTick)) (ip : Bool)
    (tune : Rhythm) {d s : Nat} (h1 : marks bars .Dc = []) (h2 : marks bars .Ds = [d]) (h3 : marks bars .Segno = [s])
    (h4 : marks bars .Coda = [] ∨ ∃ f t, marks bars .Coda = [f, t]) (hc : CodasOk ip s bars) :
    ∃ g, (builtOf tune bars).build ip = .ok (some g, []) ∧ g.dsDc.tick = d ∧
      (fun t => g.iter1.has t) = fun t => decide (inSecondPass s bars t) := by
  obtain ⟨S, k1, k2⟩ := build_ds_all hs ip tune h1 h2 h3 h4 hc
  exact ⟨_, k1, rfl, k2⟩

theorem build_dc {bars : List Bar} (hs : bars.Pairwise (fun x y => x.startTick < y.startTick)) (ip : Bool)
    (tune : Rhythm) {d first : Nat} (hm : MarksOk bars) (h1 : marks bars .Dc = [d])
    (h2 : firstBarEnd bars = some first) (h3 : marks bars .Segno = [] → (if d = 0 then 0 else first) + first ≤ U32_MAX)
    (hc : CodasOk ip (dcTarget tune bars first d) bars) :
    ∃ g, (builtOf tune bars).build ip = .ok (some g, dcWarnings bars d) ∧ g.dsDc.tick = d ∧
      (fun t => g.iter1.has t) = fun t => decide (inSecondPass (dcTarget tune bars first d) bars t) := by
  obtain ⟨S, k1, k2⟩ := build_dc_all hs ip tune hm h1 h2 h3 hc
  exact ⟨_, k1, rfl, k2⟩

theorem build_none {bars : List Bar} (ip : Bool) (tune : Rhythm) (h1 : marks bars .Dc = []) (h2 : marks bars .Ds = []) :
    (builtOf tune bars).build ip = .ok (none, []) := by
  simp only [build, builtOf, jumpOf, h1, h2]

end GlobalRepeatBuilder
end Klavier
