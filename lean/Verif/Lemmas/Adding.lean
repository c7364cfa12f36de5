import Verif.Spec.Adding
import Verif.Lemmas.Playing
import Verif.Lemmas.Structure

/-! # Adding a repeat to a score -/
set_option autoImplicit false
namespace Klavier
open Spec

/-- `y` is the bar line `x` with the mark `m` added. -/
def Adds (m : Repeat) (x y : Bar) : Prop :=
  y.startTick = x.startTick ∧ y.rhythm = x.rhythm ∧ ∀ k, Has y k ↔ Has x k ∨ k = m

/-- Two ways of cutting a list of bar lines in order. -/
theorem cut_cut {l1 l2 k1 k2 : List Bar} {x s : Bar} (e : l1 ++ x :: l2 = k1 ++ s :: k2)
    (hs : (l1 ++ x :: l2).Pairwise (fun x y => x.startTick < y.startTick)) :
    (x.startTick < s.startTick ∧ ∃ m, k1 = l1 ++ x :: m ∧ l2 = m ++ s :: k2) ∨
    (x = s ∧ l1 = k1 ∧ l2 = k2) ∨
    (s.startTick < x.startTick ∧ ∃ m, l1 = k1 ++ s :: m ∧ k2 = m ++ x :: l2) := by
  rcases List.append_eq_append_iff.1 e with ⟨m, e1, e2⟩ | ⟨m, e1, e2⟩
  · cases m with
    | nil =>
      simp only [List.append_nil] at e1
      simp only [List.nil_append, List.cons.injEq] at e2
      exact .inr (.inl ⟨e2.1, e1.symm, e2.2⟩)
    | cons y m =>
      simp only [List.cons_append, List.cons.injEq] at e2
      obtain ⟨rfl, rfl⟩ := e2
      refine .inl ⟨?_, m, e1, rfl⟩
      have := (List.pairwise_cons.1 (List.pairwise_append.1 hs).2.1).1 s (by simp)
      exact this
  · cases m with
    | nil =>
      simp only [List.append_nil] at e1
      simp only [List.nil_append, List.cons.injEq] at e2
      exact .inr (.inl ⟨e2.1.symm, e1, e2.2.symm⟩)
    | cons y m =>
      simp only [List.cons_append, List.cons.injEq] at e2
      obtain ⟨rfl, rfl⟩ := e2
      refine .inr (.inr ⟨?_, m, e1, rfl⟩)
      have := (List.pairwise_append.1 hs).2.2 s (by simp [e1]) x (by simp)
      exact this

theorem quiet_plain {m : Mode} {x : Bar} (h : Quiet m x) : Quiet .plain x := by
  cases m
  · exact ⟨h.1, h.2.1⟩
  · exact h
  · exact ⟨h.1, h.2.1⟩

/-- A bar line that may stand inside a repeat (Start and End apart). -/
def Inner (x : Bar) : Prop := ¬ Has x .Dc ∧ ¬ Has x .Ds ∧ endingNo x = none

theorem quiet_opened {m : Mode} {x : Bar} (h : Quiet m x) (k : Inner x) : Quiet .opened x :=
  ⟨(quiet_plain h).1, (quiet_plain h).2, k⟩

/-- A plain passage up to a Start or the end may begin later. -/
theorem reads_later {sg : Option Nat} {m : Mode} {a q : Nat} {pre rest : List Bar} {x : Bar} {ps : List Passage}
    (hs : (pre ++ x :: rest).Pairwise (fun x y => x.startTick < y.startTick))
    (h : Reads sg m a (pre ++ x :: rest) (.plain a q :: ps)) (hx : x.startTick < q) :
    Reads sg .plain x.startTick rest (.plain x.startTick q :: ps) ∧ m ≠ .opened ∧ (∀ z ∈ pre, Quiet m z) ∧ Quiet m x := by
  generalize hb : pre ++ x :: rest = bars at h hs
  generalize hp : Passage.plain a q :: ps = qs at h
  cases h with
  | last hm hq =>
    obtain ⟨e, rfl⟩ := List.cons.inj hp
    obtain ⟨_, rfl⟩ := Passage.plain.inj e
    subst hb
    exact ⟨.last (by decide) (fun z hz => quiet_plain (hq z (by simp [hz]))), hm, fun z hz => hq z (by simp [hz]), hq x (by simp)⟩
  | @start _ _ inside rest' s ps' hm hq h1 h2 hr =>
    obtain ⟨e, rfl⟩ := List.cons.inj hp
    obtain ⟨_, rfl⟩ := Passage.plain.inj e
    rcases cut_cut hb (hb ▸ hs) with ⟨_, z, rfl, rfl⟩ | ⟨rfl, _⟩ | ⟨k, _⟩
    · exact ⟨.start (by decide) (fun y hy => quiet_plain (hq y (by simp [hy]))) h1 h2 hr, hm, fun y hy => hq y (by simp [hy]),
        hq x (by simp)⟩
    · omega
    · omega
  | close => cases (List.cons.inj hp).1
  | endings => cases (List.cons.inj hp).1

theorem after_end {y y' : Bar} (h : Adds .End y y') : after y' = after y := by
  have : Has y' .Start ↔ Has y .Start := by simp [h.2.2]
  unfold after
  by_cases k : Has y .Start
  · rw [if_pos k, if_pos (this.2 k)]
  · rw [if_neg k, if_neg (fun c => k (this.1 c))]

/-- What a plain passage becomes if it is opened by a Start and closed by an End. -/
theorem reads_closed {sg : Option Nat} {m : Mode} {a q : Nat} {mid rest : List Bar} {y y' : Bar} {ps : List Passage}
    (hs : (mid ++ y :: rest).Pairwise (fun x y => x.startTick < y.startTick)) (hlt : y.startTick < U32_MAX)
    (h : Reads sg m a (mid ++ y :: rest) (.plain a q :: ps)) (hy : y.startTick ≤ q) (hmid : ∀ z ∈ mid, Inner z)
    (had : Adds .End y y') :
    ∃ R, Reads sg .opened a (mid ++ y' :: rest) (.repeated a y.startTick :: (R ++ ps)) ∧
      (R = [.plain y.startTick q] ∨ R = [] ∧ y.startTick = q) := by
  have hend : Has y' .End := (had.2.2 .End).2 (.inr rfl)
  by_cases hlt' : y.startTick < q
  · obtain ⟨h1, hm, h3, h4⟩ := reads_later hs h hlt'
    refine ⟨[.plain y.startTick q], ?_, .inl rfl⟩
    rw [← had.1]
    refine .close (by decide) (fun z hz => quiet_opened (h3 z hz) (hmid z hz)) hend ?_
    rw [after_end had, had.1]
    rw [show after y = .plain from if_neg (quiet_plain h4).1]
    exact h1
  · obtain rfl : y.startTick = q := by omega
    refine ⟨[], ?_, .inr ⟨rfl, rfl⟩⟩
    generalize hb : mid ++ y :: rest = bars at h hs
    generalize hp : Passage.plain a y.startTick :: ps = qs at h
    cases h with
    | last hm hq =>
      have := (Passage.plain.inj (List.cons.inj hp).1).2
      omega
    | @start _ _ inside rest' s ps' hm hq h1 h2 hr =>
      obtain ⟨e, rfl⟩ := List.cons.inj hp
      have es := (Passage.plain.inj e).2
      rcases cut_cut hb (hb ▸ hs) with ⟨k, _⟩ | ⟨rfl, rfl, rfl⟩ | ⟨k, _⟩
      · omega
      · rw [← had.1]
        refine .close (by decide) (fun z hz => quiet_opened (hq z hz) (hmid z hz)) hend ?_
        rw [after_end had, had.1, show after y = .opened from if_pos h1]
        exact hr
      · omega
    | close => cases (List.cons.inj hp).1
    | endings => cases (List.cons.inj hp).1

theorem chain_start {a : Nat} {ps : List Passage} (h : Chain a ps) (ha : a < U32_MAX) : ∀ p ∈ ps, a ≤ p.start := by
  induction ps generalizing a with
  | nil => simp
  | cons p ps ih =>
    cases ps with
    | nil =>
      simp only [Chain] at h
      subst h
      intro q hq
      obtain rfl : q = _ := by simpa using hq
      exact Nat.le_refl _
    | cons p2 ps =>
      obtain ⟨h1, h2, h3, h4⟩ := h
      intro q hq
      rcases List.mem_cons.1 hq with rfl | hq
      · omega
      · have := ih h4 h3 q hq
        have := passage_bounds h2
        omega

theorem chain_before {a : Nat} {ps1 ps2 : List Passage} {r : Passage} (h : Chain a (ps1 ++ r :: ps2)) (ha : a < U32_MAX) :
    ∀ p ∈ ps1, p.Ordered ∧ p.stop ≤ r.start := by
  induction ps1 generalizing a with
  | nil => simp
  | cons p ps ih =>
    have hc : p.start = a ∧ p.Ordered ∧ p.stop < U32_MAX ∧ Chain p.stop (ps ++ r :: ps2) := by
      cases ps <;> exact h
    obtain ⟨h1, h2, h3, h4⟩ := hc
    intro z hz
    rcases List.mem_cons.1 hz with rfl | hz
    · exact ⟨h2, chain_start h4 h3 r (by simp)⟩
    · exact ih h4 h3 z hz

/-- A plain passage of a rest that does not begin the score is the first one, or begins
later. -/
theorem reads_plain_start {sg : Option Nat} {m : Mode} {a p q : Nat} {bars : List Bar} {ps : List Passage}
    (h : Reads sg m a bars ps) (hb : BarsOk bars) (ha : ∀ x ∈ bars, a < x.startTick) (hmf : m ≠ .first) (hp : Passage.plain p q ∈ ps) :
    (a = p ∧ m = .plain ∧ ∃ ps', ps = .plain a q :: ps') ∨ a < p := by
  have tail : ∀ {m' : Mode} {s : Bar} {rest : List Bar} {ps' : List Passage} {pre : List Bar}, bars = pre ++ s :: rest → m' ≠ .first →
      Reads sg m' s.startTick rest ps' → Passage.plain p q ∈ ps' → a < p := by
    intro m' s rest ps' pre e hm' hr hp
    subst e
    have hs := List.pairwise_cons.1 (List.pairwise_append.1 hb.1).2.1
    have hch := Reads_chain hr (fun e => absurd e hm') ⟨hs.2, fun x hx => hb.2 x (by simp [hx])⟩ (fun _ => hs.1)
    have := chain_start hch (hb.2 s (by simp)) _ hp
    have h2 := ha s (by simp)
    simp only [Passage.start] at this
    omega
  have hafter : ∀ x : Bar, after x ≠ .first := by
    intro x
    unfold after
    split <;> decide
  cases h with
  | last hm hq =>
    obtain ⟨rfl, rfl⟩ : p = a ∧ q = U32_MAX := by simpa using hp
    refine .inl ⟨rfl, ?_, _, rfl⟩
    cases m <;> first | rfl | exact absurd rfl hm | exact absurd rfl hmf
  | @start _ _ inside rest s ps' hm hq h1 h2 hr =>
    rcases List.mem_cons.1 hp with e | hp
    · obtain ⟨rfl, rfl⟩ := Passage.plain.inj e
      refine .inl ⟨rfl, ?_, _, rfl⟩
      cases m <;> first | rfl | exact absurd rfl hm | exact absurd rfl hmf
    · exact .inr (tail rfl (by decide) hr hp)
  | @close _ _ inside rest s ps' hm hq h1 hr =>
    rcases List.mem_cons.1 hp with e | hp
    · cases e
    · exact .inr (tail rfl (hafter s) hr hp)
  | @endings _ _ inside es rest v s ts ps' hm hq h1 h2 h3 h4 h5 hr =>
    rcases List.mem_cons.1 hp with e | hp
    · cases e
    · exact .inr (tail (pre := inside ++ v :: es) (by simp) (hafter s) hr hp)

/-- What a score reads in which a part of a plain passage, from a Start put on `x` to the bar line
`y`, is replaced by what reads as the passage `P`. -/
theorem reads_replace {sg : Option Nat} {m : Mode} {a p q : Nat} {bars : List Bar} {ps : List Passage}
    (h : Reads sg m a bars ps) :
    ∀ {pre mid post mid' : List Bar} {x x' y y' : Bar} {P : Passage}, bars = pre ++ x :: (mid ++ y :: post) → BarsOk bars → (m = .first → a = 0) →
      (m ≠ .first → ∀ x ∈ bars, a < x.startTick) → Passage.plain p q ∈ ps → p ≤ x.startTick → y.startTick ≤ q →
      Adds .Start x x' →
      (∀ {m : Mode} {ps : List Passage}, Reads sg m x.startTick (mid ++ y :: post) (.plain x.startTick q :: ps) →
        ∃ R, Reads sg .opened x.startTick (mid' ++ y' :: post) (P :: (R ++ ps)) ∧ (R = [.plain y.startTick q] ∨ R = [] ∧ y.startTick = q)) →
      ∃ ps1 ps2 L R, ps = ps1 ++ .plain p q :: ps2 ∧
        Reads sg m a (pre ++ x' :: (mid' ++ y' :: post)) (ps1 ++ (L ++ P :: (R ++ ps2))) ∧
        (L = [.plain p x.startTick] ∨ L = [] ∧ p = x.startTick ∧ ps1 ≠ []) ∧
        (R = [.plain y.startTick q] ∨ R = [] ∧ y.startTick = q) := by
  have hafter : ∀ x : Bar, after x ≠ .first := by
    intro x
    unfold after
    split <;> decide
  -- the repeat is within the first of the passages, which is plain
  have here : ∀ {m : Mode} {a : Nat} {bars : List Bar} {ps : List Passage} {pre mid post mid' : List Bar} {x x' y y' : Bar} {P : Passage},
      Reads sg m a bars (.plain a q :: ps) → bars = pre ++ x :: (mid ++ y :: post) → BarsOk bars → y.startTick ≤ q →
      Adds .Start x x' →
      (∀ {m : Mode} {ps : List Passage}, Reads sg m x.startTick (mid ++ y :: post) (.plain x.startTick q :: ps) →
        ∃ R, Reads sg .opened x.startTick (mid' ++ y' :: post) (P :: (R ++ ps)) ∧ (R = [.plain y.startTick q] ∨ R = [] ∧ y.startTick = q)) →
      ∃ R, Reads sg m a (pre ++ x' :: (mid' ++ y' :: post)) (.plain a x.startTick :: P :: (R ++ ps)) ∧
        (R = [.plain y.startTick q] ∨ R = [] ∧ y.startTick = q) := by
    intro m a bars ps pre mid post mid' x x' y y' P hr e hb hy hx' hcl
    subst e
    have hs := List.pairwise_cons.1 (List.pairwise_append.1 hb.1).2.1
    have hxy := hs.1 y (by simp)
    obtain ⟨h1, hm, h3, h4⟩ := reads_later hb.1 hr (by omega)
    obtain ⟨R, h5, h6⟩ := hcl h1
    refine ⟨R, ?_, h6⟩
    have hns : ¬ Has x' .End := by
      rw [hx'.2.2]
      simp [(quiet_plain h4).2]
    have := Reads.start (a := a) hm h3 ((hx'.2.2 .Start).2 (.inr rfl)) hns (rest := mid' ++ y' :: post) (hx'.1 ▸ h5)
    rw [hx'.1] at this
    exact this
  -- it begins where a passage ends
  have begins : ∀ {rest : List Bar} {ps : List Passage} {mid post mid' : List Bar} {x x' y y' : Bar} {P : Passage},
      Reads sg (after x) x.startTick rest ps → rest = mid ++ y :: post → BarsOk (x :: rest) → Passage.plain p q ∈ ps →
      p ≤ x.startTick → y.startTick ≤ q → Adds .Start x x' →
      (∀ {m : Mode} {ps : List Passage}, Reads sg m x.startTick (mid ++ y :: post) (.plain x.startTick q :: ps) →
        ∃ R, Reads sg .opened x.startTick (mid' ++ y' :: post) (P :: (R ++ ps)) ∧ (R = [.plain y.startTick q] ∨ R = [] ∧ y.startTick = q)) →
      ∃ ps2 R, p = x.startTick ∧ ps = .plain p q :: ps2 ∧
        Reads sg (after x') x'.startTick (mid' ++ y' :: post) (P :: (R ++ ps2)) ∧
        (R = [.plain y.startTick q] ∨ R = [] ∧ y.startTick = q) := by
    intro rest ps mid post mid' x x' y y' P hr e hb hp hpx hy hx' hcl
    have hs := List.pairwise_cons.1 hb.1
    have hb' : BarsOk rest := ⟨hs.2, fun x hx => hb.2 x (by simp [hx])⟩
    rcases reads_plain_start hr hb' hs.1 (hafter x) hp with ⟨e1, e2, ps2, rfl⟩ | k
    · subst e
      obtain ⟨R, h1, h2⟩ := hcl hr
      refine ⟨ps2, R, e1.symm, by rw [e1], ?_, h2⟩
      rw [show after x' = .opened from if_pos ((hx'.2.2 .Start).2 (.inr rfl)), hx'.1]
      exact h1
    · omega
  induction h with
  | @last m a bars hm hq =>
    intro pre mid post mid' x x' y y' P e hb h0 ha hp hpx hy hx' hcl
    obtain ⟨rfl, rfl⟩ : p = a ∧ q = U32_MAX := by simpa using hp
    obtain ⟨R, h1, h2⟩ := here (.last hm hq) e hb hy hx' hcl
    exact ⟨[], [], [.plain p x.startTick], R, rfl, h1, .inl rfl, h2⟩
  | @start m a inside rest s ps hm hq h1 h2 hr ih =>
    intro pre mid post mid' x x' y y' P e hb h0 ha hp hpx hy hx' hcl
    rcases List.mem_cons.1 hp with ep | hp
    · obtain ⟨rfl, rfl⟩ := Passage.plain.inj ep
      obtain ⟨R, k1, k2⟩ := here (.start hm hq h1 h2 hr) e hb hy hx' hcl
      exact ⟨[], ps, [.plain p x.startTick], R, rfl, k1, .inl rfl, k2⟩
    · have hs := List.pairwise_cons.1 (List.pairwise_append.1 hb.1).2.1
      have hb' : BarsOk rest := ⟨hs.2, fun x hx => hb.2 x (by simp [hx])⟩
      have hps : s.startTick < p := by
        rcases reads_plain_start hr hb' hs.1 (by decide) hp with ⟨_, k, _⟩ | k
        · cases k
        · exact k
      rcases cut_cut e hb.1 with ⟨_, z, rfl, rfl⟩ | ⟨rfl, _⟩ | ⟨k, _⟩
      · obtain ⟨ps1, ps2, L, R, rfl, k1, k2, k3⟩ := ih rfl hb' (fun c => by cases c) (fun _ => hs.1) hp hpx hy hx' hcl
        refine ⟨.plain a s.startTick :: ps1, ps2, L, R, rfl, ?_, ?_, k3⟩
        · have := Reads.start (a := a) hm hq h1 h2 k1
          simpa using this
        · rcases k2 with k | ⟨k, k', _⟩
          · exact .inl k
          · exact .inr ⟨k, k', by simp⟩
      · omega
      · omega
  | @close m a inside rest s ps hm hq h1 hr ih =>
    intro pre mid post mid' x x' y y' P e hb h0 ha hp hpx hy hx' hcl
    have hp : Passage.plain p q ∈ ps := by
      rcases List.mem_cons.1 hp with ep | hp
      · cases ep
      · exact hp
    have hs := List.pairwise_cons.1 (List.pairwise_append.1 hb.1).2.1
    have hb' : BarsOk rest := ⟨hs.2, fun x hx => hb.2 x (by simp [hx])⟩
    have hps : s.startTick ≤ p := by
      rcases reads_plain_start hr hb' hs.1 (hafter s) hp with ⟨k, _⟩ | k <;> omega
    rcases cut_cut e hb.1 with ⟨_, z, rfl, rfl⟩ | ⟨rfl, rfl, rfl⟩ | ⟨k, _⟩
    · obtain ⟨ps1, ps2, L, R, rfl, k1, k2, k3⟩ := ih rfl hb' (fun c => absurd c (hafter s)) (fun _ => hs.1) hp hpx hy hx' hcl
      refine ⟨.repeated a s.startTick :: ps1, ps2, L, R, rfl, ?_, ?_, k3⟩
      · have := Reads.close (a := a) hm hq h1 k1
        simpa using this
      · rcases k2 with k | ⟨k, k', _⟩
        · exact .inl k
        · exact .inr ⟨k, k', by simp⟩
    · obtain ⟨ps2, R, e1, rfl, k1, k2⟩ := begins hr rfl ⟨(List.pairwise_append.1 hb.1).2.1, fun x hx => hb.2 x (by simp at hx; simp [hx])⟩
        hp hpx hy hx' hcl
      refine ⟨[.repeated a s.startTick], ps2, [], R, rfl, ?_, .inr ⟨rfl, e1, by simp⟩, k2⟩
      have := Reads.close (a := a) hm hq ((hx'.2.2 .End).2 (.inl h1)) k1
      rw [hx'.1] at this
      exact this
    · omega
  | @endings m a inside es rest v s ts ps hm hq h1 h2 h3 h4 h5 hr ih =>
    intro pre mid post mid' x x' y y' P e hb h0 ha hp hpx hy hx' hcl
    have hp : Passage.plain p q ∈ ps := by
      rcases List.mem_cons.1 hp with ep | hp
      · cases ep
      · exact hp
    have e' : (inside ++ v :: es) ++ s :: rest = pre ++ x :: (mid ++ y :: post) := by simpa using e
    have hb0 : BarsOk ((inside ++ v :: es) ++ s :: rest) := by simpa using hb
    have hs := List.pairwise_cons.1 (List.pairwise_append.1 hb0.1).2.1
    have hb' : BarsOk rest := ⟨hs.2, fun x hx => hb0.2 x (by simp [hx])⟩
    have hps : s.startTick ≤ p := by
      rcases reads_plain_start hr hb' hs.1 (hafter s) hp with ⟨k, _⟩ | k <;> omega
    rcases cut_cut e' hb0.1 with ⟨_, z, rfl, rfl⟩ | ⟨rfl, rfl, rfl⟩ | ⟨k, _⟩
    · obtain ⟨ps1, ps2, L, R, rfl, k1, k2, k3⟩ := ih rfl hb' (fun c => absurd c (hafter s)) (fun _ => hs.1) hp hpx hy hx' hcl
      refine ⟨.endings a ts s.startTick :: ps1, ps2, L, R, rfl, ?_, ?_, k3⟩
      · have := Reads.endings (a := a) hm hq h1 h2 h3 h4 h5 k1
        simpa using this
      · rcases k2 with k | ⟨k, k', _⟩
        · exact .inl k
        · exact .inr ⟨k, k', by simp⟩
    · obtain ⟨ps2, R, e1, rfl, k1, k2⟩ := begins hr rfl ⟨(List.pairwise_append.1 hb0.1).2.1, fun x hx => hb0.2 x (by simp at hx; simp [hx])⟩
        hp hpx hy hx' hcl
      refine ⟨[.endings a ts s.startTick], ps2, [], R, rfl, ?_, .inr ⟨rfl, e1, by simp⟩, k2⟩
      have h4' : ¬ Has x' .End := by
        rw [hx'.2.2]
        simp [h4]
      have h5' : endingNo x' = none := by
        rw [← h5]
        simp [endingNo, hx'.2.2]
      have := Reads.endings (a := a) hm hq h1 h2 h3 h4' h5' k1
      rw [hx'.1] at this
      simpa using this
    · omega

/-- What a score with a repeat added within a plain passage reads. -/
theorem reads_repeat {sg : Option Nat} {a p q : Nat} {bars : List Bar} {ps : List Passage} {m : Mode}
    (h : Reads sg m a bars ps) {pre mid post : List Bar} {x x' y y' : Bar} (e : bars = pre ++ x :: (mid ++ y :: post)) (hb : BarsOk bars)
    (h0 : m = .first → a = 0) (ha : m ≠ .first → ∀ x ∈ bars, a < x.startTick) (hp : Passage.plain p q ∈ ps) (hpx : p ≤ x.startTick)
    (hy : y.startTick ≤ q) (hmid : ∀ z ∈ mid, Inner z) (hx' : Adds .Start x x') (hy' : Adds .End y y') :
    ∃ ps1 ps2 L R, ps = ps1 ++ .plain p q :: ps2 ∧
      Reads sg m a (pre ++ x' :: (mid ++ y' :: post)) (ps1 ++ (L ++ .repeated x.startTick y.startTick :: (R ++ ps2))) ∧
      (L = [.plain p x.startTick] ∨ L = [] ∧ p = x.startTick ∧ ps1 ≠ []) ∧
      (R = [.plain y.startTick q] ∨ R = [] ∧ y.startTick = q) := by
  have hs := (List.pairwise_cons.1 (List.pairwise_append.1 (e ▸ hb.1)).2.1).2
  exact reads_replace h e hb h0 ha hp hpx hy hx' fun k => reads_closed hs (hb.2 y (by simp [e])) k hy hmid hy'


/-! ## The marked score -/

/-- The bar line with the mark `m` put on it if it is at `t`. -/
def markAt (m : Repeat) (t : Nat) (x : Bar) : Bar := if x.startTick = t then { x with repeats := x.repeats.set m true } else x

theorem marked_eq (m : Repeat) (t : Nat) (bars : List Bar) : marked m t bars = bars.map (markAt m t) := rfl

theorem markAt_facts (m : Repeat) (t : Nat) (x : Bar) : (markAt m t x).startTick = x.startTick ∧ (markAt m t x).rhythm = x.rhythm ∧
    ∀ k, Has (markAt m t x) k ↔ Has x k ∨ (k = m ∧ x.startTick = t) := by
  unfold markAt
  by_cases h : x.startTick = t
  · rw [if_pos h]
    refine ⟨rfl, rfl, fun k => ?_⟩
    by_cases hk : k = m
    · subst hk; simp [Has, contains_set, h]
    · simp [Has, contains_set, hk]
  · rw [if_neg h]
    exact ⟨rfl, rfl, fun k => by simp [h]⟩

theorem marks_marked_ne {m k : Repeat} (h : k ≠ m) (t : Nat) (bars : List Bar) : marks (marked m t bars) k = marks bars k := by
  rw [marked_eq]
  induction bars with
  | nil => rfl
  | cons x xs ih =>
    have e : (markAt m t x).repeats.contains k = x.repeats.contains k := by
      rw [Bool.eq_iff_iff]
      have := (markAt_facts m t x).2.2 k
      simpa [Has, h] using this
    simp only [marks, List.map_cons, List.filter_cons] at ih ⊢
    rw [e]
    split
    · rw [List.map_cons, List.map_cons, ih, (markAt_facts m t x).1]
    · exact ih

theorem mem_marks_marked {m : Repeat} {t : Nat} {bars : List Bar} {u : Nat} :
    u ∈ marks (marked m t bars) m ↔ u ∈ marks bars m ∨ (u = t ∧ LineAt bars t) := by
  rw [mem_marks, mem_marks, marked_eq]
  constructor
  · rintro ⟨x, h1, h2, rfl⟩
    obtain ⟨z, hz, rfl⟩ := List.mem_map.1 h1
    obtain ⟨f1, _, f3⟩ := markAt_facts m t z
    rw [f1]
    rcases (f3 m).1 h2 with k | ⟨_, k⟩
    · exact .inl ⟨z, hz, k, rfl⟩
    · exact .inr ⟨k, z, hz, k⟩
  · rintro (⟨x, h1, h2, rfl⟩ | ⟨rfl, x, hx, rfl⟩)
    · exact ⟨_, List.mem_map_of_mem h1, ((markAt_facts m t x).2.2 m).2 (.inl h2), (markAt_facts m t x).1⟩
    · exact ⟨_, List.mem_map_of_mem hx, ((markAt_facts m _ x).2.2 m).2 (.inr ⟨rfl, rfl⟩), (markAt_facts m _ x).1⟩

theorem marked_ticks (m : Repeat) (t : Nat) (bars : List Bar) : (marked m t bars).map (·.startTick) = bars.map (·.startTick) := by
  rw [marked_eq, List.map_map]
  exact List.map_congr_left fun x _ => (markAt_facts m t x).1

theorem barsOk_ticks (bars : List Bar) : BarsOk bars ↔ (bars.map (·.startTick)).Pairwise (· < ·) ∧ ∀ t ∈ bars.map (·.startTick), t < U32_MAX := by
  unfold BarsOk
  rw [List.pairwise_map]
  simp

theorem marked_barsOk {m : Repeat} {t : Nat} {bars : List Bar} : BarsOk (marked m t bars) ↔ BarsOk bars := by
  rw [barsOk_ticks, barsOk_ticks, marked_ticks]

theorem marked_first (m : Repeat) (t : Nat) (bars : List Bar) : firstBarEnd (marked m t bars) = firstBarEnd bars := by
  unfold firstBarEnd
  rw [marked_ticks]

theorem marked_opening (m : Repeat) (t : Nat) (tune : Rhythm) (bars : List Bar) :
    openingRhythm tune (marked m t bars) = openingRhythm tune bars := by
  unfold openingRhythm
  congr 1
  rw [marked_eq]
  induction bars with
  | nil => rfl
  | cons x xs ih =>
    obtain ⟨f1, f2, _⟩ := markAt_facts m t x
    by_cases h : x.startTick = 0
    · have e1 : (List.map (markAt m t) (x :: xs)).find? (fun x => decide (x.startTick = 0)) = some (markAt m t x) := by
        rw [List.map_cons, List.find?_cons_of_pos]
        simpa [f1] using h
      have e2 : (x :: xs).find? (fun x => decide (x.startTick = 0)) = some x := by
        rw [List.find?_cons_of_pos]
        simpa using h
      rw [e1, e2]
      exact f2
    · rw [List.map_cons, List.find?_cons_of_neg (by simpa [f1] using h), List.find?_cons_of_neg (by simpa using h)]
      exact ih

/-- Marks that open and close repeats do not matter to the jump. -/
theorem marked_jump {m : Repeat} (h : m = .Start ∨ m = .End) (t : Nat) (tune : Rhythm) (bars : List Bar) :
    GlobalRepeatBuilder.builtOf tune (marked m t bars) = GlobalRepeatBuilder.builtOf tune bars ∧
    (MarksOk (marked m t bars) ↔ MarksOk bars) ∧ (∀ d target, Jump tune (marked m t bars) d target ↔ Jump tune bars d target) ∧
    (∀ target u, inSecondPass target (marked m t bars) u ↔ inSecondPass target bars u) := by
  have e : ∀ k, k ≠ .Start → k ≠ .End → marks (marked m t bars) k = marks bars k := by
    intro k h1 h2
    refine marks_marked_ne ?_ t bars
    rcases h with rfl | rfl <;> assumption
  have e1 := e .Dc (by decide) (by decide)
  have e2 := e .Ds (by decide) (by decide)
  have e3 := e .Fine (by decide) (by decide)
  have e4 := e .Segno (by decide) (by decide)
  have e5 := e .Coda (by decide) (by decide)
  refine ⟨?_, ?_, ?_, ?_⟩
  · simp only [GlobalRepeatBuilder.builtOf, GlobalRepeatBuilder.jumpOf, e1, e2, e3, e4, e5, marked_first, marked_opening]
  · simp only [MarksOk, e1, e2, e3, e4, e5]
  · intro d target
    simp only [Jump, dcTarget, e1, e2, e4, marked_first, marked_opening]
  · intro target u
    simp only [inSecondPass, endTick, e3, e5]

/-- A score with a repeat put on two of its bar lines, cut there. -/
theorem marked_repeat {bars : List Bar} (hb : BarsOk bars) {s e : Nat} (hs : LineAt bars s) (he : LineAt bars e) (hse : s < e) :
    ∃ pre x x' mid y y' post, bars = pre ++ x :: (mid ++ y :: post) ∧ x.startTick = s ∧ y.startTick = e ∧ Adds .Start x x' ∧
      Adds .End y y' ∧ marked .End e (marked .Start s bars) = pre ++ x' :: (mid ++ y' :: post) := by
  obtain ⟨x, hx, rfl⟩ := hs
  obtain ⟨pre, rest, rfl⟩ := List.append_of_mem hx
  obtain ⟨y, hy, rfl⟩ := he
  have hp := List.pairwise_append.1 hb.1
  have hr := List.pairwise_cons.1 hp.2.1
  have hy : y ∈ rest := by
    rcases List.mem_append.1 hy with k | k
    · have := hp.2.2 y k x (by simp); omega
    · rcases List.mem_cons.1 k with rfl | k
      · omega
      · exact k
  obtain ⟨mid, post, rfl⟩ := List.append_of_mem hy
  have hq := List.pairwise_append.1 hr.2
  have hlast := List.pairwise_cons.1 hq.2.1
  refine ⟨pre, x, markAt .Start x.startTick x, mid, y, markAt .End y.startTick y, post, rfl, rfl, rfl, ?_, ?_, ?_⟩
  · obtain ⟨f1, f2, f3⟩ := markAt_facts .Start x.startTick x
    exact ⟨f1, f2, fun k => by rw [f3]; simp⟩
  · obtain ⟨f1, f2, f3⟩ := markAt_facts .End y.startTick y
    exact ⟨f1, f2, fun k => by rw [f3]; simp⟩
  · have keep : ∀ (m : Repeat) (t : Nat) (l : List Bar), (∀ z ∈ l, z.startTick ≠ t) → l.map (markAt m t) = l := by
      intro m t l h
      conv => rhs; rw [← List.map_id l]
      exact List.map_congr_left fun z hz => if_neg (h z hz)
    have hxy := hr.1 y (by simp)
    rw [marked_eq, marked_eq]
    simp only [List.map_append, List.map_cons, List.map_map]
    have k1 : pre.map (markAt .End y.startTick ∘ markAt .Start x.startTick) = pre := by
      rw [← List.map_map, keep .Start _ pre (fun z hz => by have := hp.2.2 z hz x (by simp); omega),
        keep .End _ pre (fun z hz => by have := hp.2.2 z hz x (by simp); omega)]
    have k2 : mid.map (markAt .End y.startTick ∘ markAt .Start x.startTick) = mid := by
      rw [← List.map_map, keep .Start _ mid (fun z hz => by have := hr.1 z (by simp [hz]); omega),
        keep .End _ mid (fun z hz => by have := hq.2.2 z hz y (by simp); omega)]
    have k3 : post.map (markAt .End y.startTick ∘ markAt .Start x.startTick) = post := by
      rw [← List.map_map, keep .Start _ post (fun z hz => by have := hr.1 z (by simp [hz]); omega),
        keep .End _ post (fun z hz => by have := hlast.1 z hz; omega)]
    have k4 : markAt .End y.startTick (markAt .Start x.startTick x) = markAt .Start x.startTick x :=
      if_neg (by rw [(markAt_facts .Start x.startTick x).1]; omega)
    have k5 : markAt .Start x.startTick y = y := if_neg (by omega)
    rw [k1, k2, k3, k4, k5]

end Klavier
