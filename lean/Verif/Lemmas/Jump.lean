import Verif.Spec.Jump
import Verif.Lemmas.Refused

/-! # Every rendered score with a jump -/
set_option autoImplicit false
namespace Klavier
open Spec

/-- The score has at most one jump. -/
theorem Jump_unique {tune : Rhythm} {bars : List Bar} (hm : MarksOk bars) {d e s t : Nat} (h : Jump tune bars d s)
    (h' : Jump tune bars e t) : d = e ∧ s = t := by
  have h1 := hm.1
  rcases h with ⟨a, b⟩ | ⟨f, a, b, c⟩ <;> rcases h' with ⟨a', b'⟩ | ⟨f', a', b', c'⟩
  · rw [a] at a'; rw [b] at b'
    cases a'; cases b'
    exact ⟨rfl, rfl⟩
  · rw [a, a'] at h1; simp at h1
  · rw [a, a'] at h1; simp at h1
  · rw [a] at a'; rw [b] at b'
    cases a'; cases b'
    exact ⟨rfl, c.trans c'.symm⟩

theorem Jump_mem {tune : Rhythm} {bars : List Bar} {d s : Nat} (h : Jump tune bars d s) :
    d ∈ marks bars .Dc ∨ d ∈ marks bars .Ds := by
  rcases h with ⟨a, _⟩ | ⟨f, a, _⟩
  · exact .inr (by simp [a])
  · exact .inl (by simp [a])

/-- What the builder makes of a jump. -/
theorem jump_build {bars : List Bar} (hb : BarsOk bars) (hm : MarksOk bars) {ip : Bool} {tune : Rhythm}
    (h : JumpOk ip tune bars) {d target : Nat} (hj : Jump tune bars d target) :
    ∃ g, (GlobalRepeatBuilder.builtOf tune bars).build ip = .ok (some g, jumpWarnings bars) ∧ g.dsDc.tick = d ∧
      (fun t => g.iter1.has t) = fun t => decide (inSecondPass target bars t) := by
  rcases hj with ⟨h1, h2⟩ | ⟨first, h1, h2, rfl⟩
  · have hdc : marks bars .Dc = [] := by
      have := hm.1
      rw [h1] at this
      rw [← List.length_eq_zero_iff]
      simp only [List.length_singleton] at this
      omega
    obtain ⟨s, e1, e2, e3⟩ := h.1 d h1
    rw [h2] at e1
    cases e1
    have hw : jumpWarnings bars = [] := by simp only [jumpWarnings, hdc]
    rw [hw]
    refine GlobalRepeatBuilder.build_ds hb.1 ip tune hdc h1 h2 ?_ e3
    rcases GlobalRepeatBuilder.codaOf_cases _ hm.2.2.2 with c | ⟨o, c⟩ | c
    · exact .inl c
    · rw [c] at e2; simp at e2
    · exact .inr c
  · obtain ⟨e1, e2⟩ := h.2 d first h1 h2
    have hw : jumpWarnings bars = dcWarnings bars d := by simp only [jumpWarnings, h1, h2]
    rw [hw]
    exact GlobalRepeatBuilder.build_dc hb.1 ip tune hm h1 h2 e1 e2

/-- The recorded form of the jump from `d`. -/
def dsDcOf (bars : List Bar) (d : Nat) : DsDc :=
  match marks bars .Dc with
  | [] => .ds d
  | _ :: _ => .dc d (if d = 0 then 0 else (firstBarEnd bars).getD 0)

/-- Everything the builder records of a jump. -/
theorem jump_build_all {bars : List Bar} (hb : BarsOk bars) (hm : MarksOk bars) {ip : Bool} {tune : Rhythm}
    (h : JumpOk ip tune bars) {d target : Nat} (hj : Jump tune bars d target) :
    ∃ S, (GlobalRepeatBuilder.builtOf tune bars).build ip = .ok (some ⟨dsDcOf bars d, (marks bars .Fine).head?, target,
        GlobalRepeatBuilder.codaPair bars, S⟩, jumpWarnings bars) ∧
      (fun t => S.has t) = fun t => decide (inSecondPass target bars t) := by
  rcases hj with ⟨h1, h2⟩ | ⟨first, h1, h2, rfl⟩
  · have hdc : marks bars .Dc = [] := by
      have := hm.1
      rw [h1] at this
      rw [← List.length_eq_zero_iff]
      simp only [List.length_singleton] at this
      omega
    obtain ⟨s, e1, e2, e3⟩ := h.1 d h1
    rw [h2] at e1
    cases e1
    have hw : jumpWarnings bars = [] := by simp only [jumpWarnings, hdc]
    have hd : dsDcOf bars d = .ds d := by simp only [dsDcOf, hdc]
    rw [hw, hd]
    refine GlobalRepeatBuilder.build_ds_all hb.1 ip tune hdc h1 h2 ?_ e3
    rcases GlobalRepeatBuilder.codaOf_cases _ hm.2.2.2 with c | ⟨o, c⟩ | c
    · exact .inl c
    · rw [c] at e2; simp at e2
    · exact .inr c
  · obtain ⟨e1, e2⟩ := h.2 d first h1 h2
    have hw : jumpWarnings bars = dcWarnings bars d := by simp only [jumpWarnings, h1, h2]
    have hd : dsDcOf bars d = .dc d (if d = 0 then 0 else first) := by simp only [dsDcOf, h1, h2, Option.getD_some]
    rw [hw, hd]
    exact GlobalRepeatBuilder.build_dc_all hb.1 ip tune hm h1 h2 e1 e2

/-- The union of what the regions play once through. -/
theorem unionAll_ok (ip : Bool) {ps : List Passage} (ho : ∀ p ∈ ps, p.Ordered) (hp : ∀ p ∈ ps, p.Positive) :
    ∀ u : IntervalSet, IntervalSet.Normal u → ∃ s, CompoundRegion.unionAll ip u (ps.map Passage.region) = .ok s ∧
      IntervalSet.Normal s ∧ ∀ t, s.has t = true ↔ u.has t = true ∨ t ∈ ps.flatMap Passage.once := by
  induction ps with
  | nil => intro u hu; exact ⟨u, rfl, hu, by simp⟩
  | cons p ps ih =>
    intro u hu
    obtain ⟨s, h1, h2, h3⟩ := iter1Set_ok ip (ho p (by simp)) (hp p (by simp))
    obtain ⟨n1, n2⟩ := IntervalSet.union_spec hu.2 h2
    obtain ⟨r, k1, k2, k3⟩ := ih (fun q hq => ho q (by simp [hq])) (fun q hq => hp q (by simp [hq])) _ n1
    refine ⟨r, ?_, k2, ?_⟩
    · simp only [List.map_cons, CompoundRegion.unionAll, h1, R_bind_ok, k1]
    · intro t
      rw [k3, n2, h3, List.flatMap_cons, List.mem_append, or_assoc]

/-- Without a jump the builder makes nothing. -/
theorem no_jump_build {bars : List Bar} (hm : MarksOk bars) {ip : Bool} {tune : Rhythm}
    (h : JumpOk ip tune bars) (hj : ∀ d target, ¬ Jump tune bars d target) :
    (GlobalRepeatBuilder.builtOf tune bars).build ip = .ok (none, []) := by
  have one : ∀ {l : List Nat}, l.length ≤ 1 → l = [] ∨ ∃ a, l = [a] := by
    intro l hl
    match l with
    | [] => exact .inl rfl
    | [a] => exact .inr ⟨a, rfl⟩
    | a :: b :: l => simp at hl
  have h1 := hm.1
  rcases one (l := marks bars .Dc) (by omega) with hdc | ⟨d, hdc⟩
  · rcases one (l := marks bars .Ds) (by omega) with hds | ⟨d, hds⟩
    · exact GlobalRepeatBuilder.build_none ip tune hdc hds
    · obtain ⟨s, hs, _⟩ := h.1 d hds
      exact absurd (.inl ⟨hds, hs⟩) (hj d s)
  · cases hfi : firstBarEnd bars with
    | none => simp [GlobalRepeatBuilder.build, GlobalRepeatBuilder.builtOf, GlobalRepeatBuilder.jumpOf, hdc, hfi]
    | some first => exact absurd (.inr ⟨first, hdc, hfi, rfl⟩) (hj d _)

/-- The jump is outside all passages but the first. -/
theorem outside_tail {bars : List Bar} {ps : List Passage} {sg : Option Nat} {d : Nat} (hb : BarsOk bars)
    (hr : Reads sg .first 0 bars ps) (hd : d ∈ marks bars .Dc ∨ d ∈ marks bars .Ds) : ∀ p ∈ ps.tail, p.Outside d := by
  have hy : ∃ y ∈ bars, (Has y .Dc ∨ Has y .Ds) ∧ y.startTick = d := by
    rcases hd with hd | hd <;> obtain ⟨y, h1, h2, h3⟩ := mem_marks.1 hd
    · exact ⟨y, h1, .inl h2, h3⟩
    · exact ⟨y, h1, .inr h2, h3⟩
  obtain ⟨y, h1, h2, rfl⟩ := hy
  exact (Reads_outside hr hb).1 y h1 h2

/-- A mark at tick 0 makes a passage of no length. -/
theorem Reads_not_positive {sg : Option Nat} {bars : List Bar} {ps : List Passage} (h : Reads sg .first 0 bars ps)
    (hs : bars.Pairwise (fun x y => x.startTick < y.startTick)) (hq : ¬ QuietStart bars) : ∃ p ∈ ps, ¬ p.Positive := by
  have hx : ∃ x ∈ bars, x.startTick = 0 ∧ ¬ Quiet .first x := by
    refine Classical.byContradiction fun hn => hq fun x h1 h2 => Classical.byContradiction fun h3 => hn ⟨x, h1, h2, h3⟩
  obtain ⟨x, hx, h0, hnq⟩ := hx
  have zero : ∀ {inside rest : List Bar} {v : Bar}, bars = inside ++ v :: rest → (∀ y ∈ inside, Quiet .first y) → v.startTick = 0 := by
    intro inside rest v e hi
    rw [e] at hx hs
    rcases List.mem_append.1 hx with hx | hx
    · exact absurd (hi x hx) hnq
    · rcases List.mem_cons.1 hx with rfl | hx
      · exact h0
      · have := (List.pairwise_cons.1 (List.pairwise_append.1 hs).2.1).1 x hx
        omega
  cases h with
  | last hm hqq => exact absurd (hqq x hx) hnq
  | start hm hqq h1 h2 hr =>
    have := zero rfl hqq
    exact ⟨_, List.mem_cons_self, by simp [Passage.Positive, this]⟩
  | close hm hqq h1 hr =>
    have := zero rfl hqq
    exact ⟨_, List.mem_cons_self, by simp [Passage.Positive, this]⟩
  | @endings _ _ inside es rest v x ts ps hm hqq h1 he hsg h2 h3 hr =>
    have hv := zero rfl hqq
    refine ⟨_, List.mem_cons_self, ?_⟩
    have ht : v.startTick ∈ ts := by cases he <;> simp
    intro hp
    have := hp.2 _ ht
    omega

/-- What is known of a rendered score with a jump. -/
theorem rendered_jump {bars : List Bar} (hb : BarsOk bars) {ip : Bool} {tune : Rhythm} {c : CompoundRegion}
    {w : List RenderRegionWarning} (h : renderRegion ip tune bars = .ok (c, w)) {d target : Nat} (hj : Jump tune bars d target)
    {ps : List Passage} (hr : Reads (marks bars .Segno).head? .first 0 bars ps) :
    w = jumpWarnings bars ∧ c.regions = ps.map Passage.region ∧ ∃ g, c.globalRepeat = some g ∧ g.dsDc.tick = d ∧ d < U32_MAX ∧
      (fun t => g.iter1.has t) = fun t => decide (inSecondPass target bars t) := by
  obtain ⟨hm, ⟨qs, hq, hreg⟩, hbuild⟩ := (render_ok_iff hb.1 ip tune c w).1 h
  cases Reads_unique hb hq hr
  obtain ⟨g, g1, g2, g3⟩ := jump_build hb hm (GlobalRepeatBuilder.build_ok hb hm hbuild) hj
  rw [g1] at hbuild
  simp only [Except.ok.injEq, Prod.mk.injEq] at hbuild
  have hlt : d < U32_MAX := by
    rcases Jump_mem hj with hd | hd <;> (obtain ⟨x, h1, _, rfl⟩ := mem_marks.1 hd; exact hb.2 x h1)
  exact ⟨hbuild.2.symm, hreg, g, hbuild.1.symm, g2, hlt, g3⟩

theorem no_jump_rendered {bars : List Bar} (hb : BarsOk bars) {ip : Bool} {tune : Rhythm} {c : CompoundRegion}
    {w : List RenderRegionWarning} (h : renderRegion ip tune bars = .ok (c, w)) (hj : ∀ d target, ¬ Jump tune bars d target)
    {ps : List Passage} (hr : Reads (marks bars .Segno).head? .first 0 bars ps) :
    w = [] ∧ c.regions = ps.map Passage.region ∧ c.globalRepeat = none := by
  obtain ⟨hm, ⟨qs, hq, hreg⟩, hbuild⟩ := (render_ok_iff hb.1 ip tune c w).1 h
  cases Reads_unique hb hq hr
  have := no_jump_build hm (GlobalRepeatBuilder.build_ok hb hm hbuild) hj
  rw [this] at hbuild
  simp only [Except.ok.injEq, Prod.mk.injEq] at hbuild
  exact ⟨hbuild.2.symm, hreg, hbuild.1.symm⟩

/-- Nothing is played of passages after the jump on the first pass. -/
theorem upTo_after {d : Nat} {ps : List Passage} {a : Nat} (ha : a < U32_MAX) (hc : Chain a ps) (hd : d < a) :
    ps.flatMap (Passage.upTo d) = [] := by
  induction ps generalizing a with
  | nil => rfl
  | cons p ps ih =>
    have hst : p.start = a := by
      cases ps with
      | nil =>
        simp only [Chain] at hc
        subst hc
        rfl
      | cons q ps => exact hc.1
    have hm := Chain_mem hc ha p (by simp)
    have hle : p.start ≤ p.stop := by
      cases p with
      | plain x y => have : x < y ∨ (x = 0 ∧ y = 0) := hm.1; simp only [Passage.start, Passage.stop]; omega
      | repeated x y => have : x < y ∨ (x = 0 ∧ y = 0) := hm.1; simp only [Passage.start, Passage.stop]; omega
      | endings x ts y =>
        cases ts with
        | nil => exact hm.1.elim
        | cons v ts =>
          obtain ⟨o1, o2, o3, o4⟩ := hm.1
          have := o3 v (by simp)
          simp only [Passage.start, Passage.stop]; omega
    have h1 : p.upTo d = [] := by
      rw [Passage.upTo, if_neg (by omega)]
      unfold span
      rw [show d - p.start = 0 by omega]
      rfl
    rw [List.flatMap_cons, h1, List.nil_append]
    cases ps with
    | nil => rfl
    | cons q ps => exact ih hc.2.2.1 hc.2.2.2 (by omega)

end Klavier
