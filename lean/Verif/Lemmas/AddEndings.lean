import Verif.Spec.AddEndings
import Verif.Lemmas.Adding

/-! # Adding numbered endings to a score -/
set_option autoImplicit false
namespace Klavier
open Spec

/-- Bar lines that carry the numbers of their endings. -/
theorem endings_marked (f : Bar → Bar) (ts : List Nat) : ∀ (k : Nat) (x : Bar) (l : List Bar),
    (x :: l).Pairwise (fun x y => x.startTick < y.startTick) → ts.Pairwise (· < ·) → (∀ t ∈ ts, x.startTick < t ∧ ∃ z ∈ l, z.startTick = t) →
    (∀ z ∈ x :: l, (f z).startTick = z.startTick ∧ InEnding (k + ts.countP (fun t => decide (t ≤ z.startTick))) (f z)) →
    Endings k (f x :: l.map f) (x.startTick :: ts) := by
  induction ts with
  | nil =>
    intro k x l _ _ _ hf
    rw [← (hf x (by simp)).1]
    refine .last fun y hy => ?_
    obtain ⟨z, hz, rfl⟩ := List.mem_map.1 hy
    exact (hf z (by simp [hz])).2
  | cons t ts ih =>
    intro k x l hs ht hm hf
    obtain ⟨y, hy, ey⟩ := (hm t (by simp)).2
    obtain ⟨l1, l2, rfl⟩ := List.append_of_mem hy
    have hs1 := List.pairwise_cons.1 hs
    have hs2 := List.pairwise_append.1 hs1.2
    have hs3 := List.pairwise_cons.1 hs2.2.1
    have ht1 := List.pairwise_cons.1 ht
    have low : ∀ z : Bar, z.startTick < t → (t :: ts).countP (fun u => decide (u ≤ z.startTick)) = 0 := by
      intro z hz
      rw [List.countP_eq_zero]
      intro u hu
      have : t ≤ u := by
        rcases List.mem_cons.1 hu with rfl | hu
        · exact Nat.le_refl _
        · exact Nat.le_of_lt (ht1.1 u hu)
      simp only [decide_eq_true_eq]
      omega
    have high : ∀ z : Bar, t ≤ z.startTick →
        k + (t :: ts).countP (fun u => decide (u ≤ z.startTick)) = k + 1 + ts.countP (fun u => decide (u ≤ z.startTick)) := by
      intro z hz
      rw [List.countP_cons_of_pos (by simpa using hz)]
      omega
    have i := ih (k + 1) y l2 hs2.2.1 ht1.2 (fun u hu => by
      have h1 := ht1.1 u hu
      obtain ⟨z, hz, ez⟩ := (hm u (by simp [hu])).2
      refine ⟨by omega, z, ?_, ez⟩
      rcases List.mem_append.1 hz with hz | hz
      · have := hs2.2.2 z hz y (by simp); omega
      · rcases List.mem_cons.1 hz with rfl | hz
        · omega
        · exact hz) (fun z hz => by
      have h1 : t ≤ z.startTick := by
        rcases List.mem_cons.1 hz with rfl | hz
        · omega
        · have := hs3.1 z hz; omega
      have h2 := hf z (List.mem_cons_of_mem _ (List.mem_append_right _ hz))
      rw [high z h1] at h2
      exact h2)
    have fy := hf y (by simp)
    rw [high y (by omega)] at fy
    have hy0 : ts.countP (fun u => decide (u ≤ y.startTick)) = 0 := by
      rw [List.countP_eq_zero]
      intro u hu
      have := ht1.1 u hu
      simp only [decide_eq_true_eq]
      omega
    rw [hy0] at fy
    rw [← (hf x (by simp)).1, List.map_append, List.map_cons, ← ey]
    refine .more (fun z hz => ?_) fy.2 i
    obtain ⟨z, hz', rfl⟩ := List.mem_map.1 hz
    have := (hf z (by simp [hz'])).2
    rw [low z (by have := hs2.2.2 z hz' y (by simp); omega)] at this
    exact this

/-- A plain passage cut at one of its bar lines. -/
theorem reads_rest {sg : Option Nat} {m : Mode} {a q : Nat} {mid rest : List Bar} {y : Bar} {ps : List Passage}
    (hs : (mid ++ y :: rest).Pairwise (fun x y => x.startTick < y.startTick)) (hlt : y.startTick < U32_MAX)
    (h : Reads sg m a (mid ++ y :: rest) (.plain a q :: ps)) (hy : y.startTick ≤ q) :
    (∀ z ∈ mid, Quiet m z) ∧ ¬ Has y .End ∧ ∃ R, Reads sg (after y) y.startTick rest (R ++ ps) ∧
      (R = [.plain y.startTick q] ∨ R = [] ∧ y.startTick = q) := by
  by_cases hlt' : y.startTick < q
  · obtain ⟨h1, hm, h3, h4⟩ := reads_later hs h hlt'
    refine ⟨h3, (quiet_plain h4).2, [.plain y.startTick q], ?_, .inl rfl⟩
    rw [show after y = .plain from if_neg (quiet_plain h4).1]
    exact h1
  · obtain rfl : y.startTick = q := by omega
    generalize hb : mid ++ y :: rest = bars at h hs
    generalize hp : Passage.plain a y.startTick :: ps = qs at h
    cases h with
    | last hm hq =>
      have := (Passage.plain.inj (List.cons.inj hp).1).2
      omega
    | @start _ _ inside rest' s ps' hm hq h1 h2 hr =>
      obtain ⟨e, rfl⟩ := List.cons.inj hp
      have es := (Passage.plain.inj e).2
      rcases cut_cut hb (hb ▸ hs) with ⟨k, _⟩ | ⟨rfl, rfl, rfl⟩ | ⟨k, _⟩
      · omega
      · refine ⟨hq, h2, [], ?_, .inr ⟨rfl, rfl⟩⟩
        rw [show after y = .opened from if_pos h1]
        exact hr
      · omega
    | close => cases (List.cons.inj hp).1
    | endings => cases (List.cons.inj hp).1

theorem endingNo_set {z : Bar} {k : Nat} (h : endingNo z = none) (h1 : 1 ≤ k) (h4 : k ≤ 4) :
    endingNo { z with repeats := z.repeats.set (endingMark k) true } = some k := by
  have hz : ¬ Has z .Var1 ∧ ¬ Has z .Var2 ∧ ¬ Has z .Var3 ∧ ¬ Has z .Var4 := by
    unfold endingNo at h
    refine ⟨?_, ?_, ?_, ?_⟩ <;> (intro c; revert h; simp only [c, if_true]; repeat' split) <;> simp
  obtain ⟨z1, z2, z3, z4⟩ := hz
  simp only [Has] at z1 z2 z3 z4
  have : k = 1 ∨ k = 2 ∨ k = 3 ∨ k = 4 := by omega
  rcases this with rfl | rfl | rfl | rfl <;> simp [endingNo, endingMark, Has, contains_set, z1, z2, z3]

/-- What is done to a bar line when endings are put on the score. -/
def endAt (s v : Nat) (ts : List Nat) (e : Nat) (x : Bar) : Bar :=
  if x.startTick = s then { x with repeats := x.repeats.set .Start true }
  else if v ≤ x.startTick ∧ x.startTick < e then
    { x with repeats := x.repeats.set (endingMark ((v :: ts).countP (fun t => decide (t ≤ x.startTick)))) true }
  else x

theorem withEndings_eq (s v : Nat) (ts : List Nat) (e : Nat) (bars : List Bar) : withEndings s v ts e bars = bars.map (endAt s v ts e) := rfl

theorem endingMark_cases (k : Nat) : endingMark k = .Var1 ∨ endingMark k = .Var2 ∨ endingMark k = .Var3 ∨ endingMark k = .Var4 := by
  unfold endingMark
  split <;> simp

theorem endAt_facts (s v : Nat) (ts : List Nat) (e : Nat) (x : Bar) : (endAt s v ts e x).startTick = x.startTick ∧
    (endAt s v ts e x).rhythm = x.rhythm ∧
    ∀ k, (k = .End ∨ k = .Dc ∨ k = .Ds ∨ k = .Fine ∨ k = .Segno ∨ k = .Coda) → (endAt s v ts e x).repeats.contains k = x.repeats.contains k := by
  unfold endAt
  split
  · refine ⟨rfl, rfl, fun k hk => ?_⟩
    rcases hk with rfl | rfl | rfl | rfl | rfl | rfl <;> simp [contains_set]
  · split
    · refine ⟨rfl, rfl, fun k hk => ?_⟩
      rw [contains_set, if_neg]
      rcases endingMark_cases ((v :: ts).countP (fun t => decide (t ≤ x.startTick))) with c | c | c | c <;> rw [c] <;>
        rcases hk with rfl | rfl | rfl | rfl | rfl | rfl <;> decide
    · exact ⟨rfl, rfl, fun _ _ => rfl⟩

/-- Changes to the bar lines that do not matter to the jump. -/
theorem kept_jump {f : Bar → Bar} (hf : ∀ x, (f x).startTick = x.startTick ∧ (f x).rhythm = x.rhythm ∧
      ∀ k, (k = .End ∨ k = .Dc ∨ k = .Ds ∨ k = .Fine ∨ k = .Segno ∨ k = .Coda) → (f x).repeats.contains k = x.repeats.contains k)
    (tune : Rhythm) (bars : List Bar) :
    marks (bars.map f) .Segno = marks bars .Segno ∧
    GlobalRepeatBuilder.builtOf tune (bars.map f) = GlobalRepeatBuilder.builtOf tune bars ∧
    (MarksOk (bars.map f) ↔ MarksOk bars) ∧ (∀ d target, Jump tune (bars.map f) d target ↔ Jump tune bars d target) ∧
    (∀ target u, inSecondPass target (bars.map f) u ↔ inSecondPass target bars u) := by
  have e : ∀ k, (k = Repeat.End ∨ k = .Dc ∨ k = .Ds ∨ k = .Fine ∨ k = .Segno ∨ k = .Coda) → marks (bars.map f) k = marks bars k := by
    intro k hk
    induction bars with
    | nil => rfl
    | cons x xs ih =>
      simp only [marks, List.map_cons, List.filter_cons] at ih ⊢
      rw [(hf x).2.2 k hk]
      split
      · rw [List.map_cons, List.map_cons, ih, (hf x).1]
      · exact ih
  have e1 := e .Dc (by simp)
  have e2 := e .Ds (by simp)
  have e3 := e .Fine (by simp)
  have e4 := e .Segno (by simp)
  have e5 := e .Coda (by simp)
  have e6 : firstBarEnd (bars.map f) = firstBarEnd bars := by
    unfold firstBarEnd
    rw [List.map_map]
    congr 1
    exact List.map_congr_left fun x _ => (hf x).1
  have e7 : openingRhythm tune (bars.map f) = openingRhythm tune bars := by
    unfold openingRhythm
    congr 1
    clear e e1 e2 e3 e4 e5 e6
    induction bars with
    | nil => rfl
    | cons x xs ih =>
      obtain ⟨f1, f2, _⟩ := hf x
      by_cases h : x.startTick = 0
      · have e1 : (List.map f (x :: xs)).find? (fun x => decide (x.startTick = 0)) = some (f x) := by
          rw [List.map_cons, List.find?_cons_of_pos]
          simpa [f1] using h
        have e2 : (x :: xs).find? (fun x => decide (x.startTick = 0)) = some x := by
          rw [List.find?_cons_of_pos]
          simpa using h
        rw [e1, e2]
        exact f2
      · rw [List.map_cons, List.find?_cons_of_neg (by simpa [f1] using h), List.find?_cons_of_neg (by simpa using h)]
        exact ih
  refine ⟨e4, ?_, ?_, ?_, ?_⟩
  · simp only [GlobalRepeatBuilder.builtOf, GlobalRepeatBuilder.jumpOf, e1, e2, e3, e4, e5, e6, e7]
  · simp only [MarksOk, e1, e2, e3, e4, e5]
  · intro d target
    simp only [Jump, dcTarget, e1, e2, e4, e6, e7]
  · intro target u
    simp only [inSecondPass, endTick, e3, e5]

/-- A score in order, cut at two of its bar lines. -/
theorem cut_two {l : List Bar} (hs : l.Pairwise (fun x y => x.startTick < y.startTick)) {s e : Nat} (h1 : LineAt l s) (h2 : LineAt l e) (hse : s < e) :
    ∃ pre x mid y post, l = pre ++ x :: (mid ++ y :: post) ∧ x.startTick = s ∧ y.startTick = e ∧
      (∀ z ∈ pre, z.startTick < s) ∧ (∀ z ∈ mid, s < z.startTick ∧ z.startTick < e) ∧ (∀ z ∈ post, e < z.startTick) := by
  obtain ⟨x, hx, rfl⟩ := h1
  obtain ⟨pre, rest, rfl⟩ := List.append_of_mem hx
  obtain ⟨y, hy, rfl⟩ := h2
  have hp := List.pairwise_append.1 hs
  have hr := List.pairwise_cons.1 hp.2.1
  have hy : y ∈ rest := by
    rcases List.mem_append.1 hy with k | k
    · have := hp.2.2 y k x (by simp); omega
    · rcases List.mem_cons.1 k with rfl | k
      · omega
      · exact k
  obtain ⟨mid, post, rfl⟩ := List.append_of_mem hy
  have hq := List.pairwise_append.1 hr.2
  exact ⟨pre, x, mid, y, post, rfl, rfl, rfl, fun z hz => hp.2.2 z hz x (by simp),
    fun z hz => ⟨hr.1 z (by simp [hz]), hq.2.2 z hz y (by simp)⟩, (List.pairwise_cons.1 hq.2.1).1⟩

/-- What a score with endings put on a plain passage reads. -/
theorem reads_endings {sg : Option Nat} {bars : List Bar} {ps : List Passage} (h : Reads sg .first 0 bars ps) (hb : BarsOk bars)
    {p q s v e : Nat} {ts : List Nat} (hp : Passage.plain p q ∈ ps) (hps : p ≤ s) (heq : e ≤ q) (hsv : s < v)
    (hts : (v :: ts).Pairwise (· < ·)) (hlen : ts.length ≤ 3) (hte : ∀ t ∈ v :: ts, t < e) (hs : LineAt bars s) (he : LineAt bars e)
    (hl : ∀ t ∈ v :: ts, LineAt bars t)
    (hmid : ∀ x ∈ bars, s < x.startTick → x.startTick < e → ¬ Has x .Dc ∧ ¬ Has x .Ds ∧ endingNo x = none)
    (hend : ∀ x ∈ bars, x.startTick = e → endingNo x = none)
    (hsg : ∀ g, sg = some g → ¬ (v ≤ g ∧ g < (v :: ts).getLastD v)) :
    ∃ ps1 ps2 L R, ps = ps1 ++ .plain p q :: ps2 ∧
      Reads sg .first 0 (withEndings s v ts e bars) (ps1 ++ (L ++ .endings s (v :: ts) e :: (R ++ ps2))) ∧
      (L = [.plain p s] ∨ L = [] ∧ p = s ∧ ps1 ≠ []) ∧ (R = [.plain e q] ∨ R = [] ∧ e = q) := by
  have hve := hte v (by simp)
  obtain ⟨pre, x, mid, y, post, ebars, ex, ey, o1, o2, o3⟩ := cut_two hb.1 hs he (by omega)
  have hsorted := (List.pairwise_cons.1 (List.pairwise_append.1 (ebars ▸ hb.1)).2.1).2
  have hsmid := (List.pairwise_append.1 hsorted).1
  -- the bar lines of the starts are between
  have inmid : ∀ t, s < t → t < e → LineAt bars t → LineAt mid t := by
    rintro t h1 h2 ⟨z, hz, rfl⟩
    rw [ebars] at hz
    rcases List.mem_append.1 hz with k | k
    · have := o1 z k; omega
    · rcases List.mem_cons.1 k with rfl | k
      · omega
      · rcases List.mem_append.1 k with k | k
        · exact ⟨z, k, rfl⟩
        · rcases List.mem_cons.1 k with rfl | k
          · omega
          · have := o3 z k; omega
  have hge : ∀ t ∈ v :: ts, v ≤ t := by
    intro t ht
    rcases List.mem_cons.1 ht with rfl | ht
    · exact Nat.le_refl _
    · exact Nat.le_of_lt ((List.pairwise_cons.1 hts).1 t ht)
  obtain ⟨b, hb1, eb⟩ := inmid v hsv hve (hl v (by simp))
  obtain ⟨inner, es, emid⟩ := List.append_of_mem hb1
  rw [emid] at hsmid
  have ho := List.pairwise_append.1 hsmid
  have hob := List.pairwise_cons.1 ho.2.1
  have lines : ∀ z ∈ mid, z ∈ bars := fun z hz => by rw [ebars]; simp [hz]
  have keep : ∀ l : List Bar, (∀ z ∈ l, z.startTick ≠ s ∧ ¬ (v ≤ z.startTick ∧ z.startTick < e)) → l.map (endAt s v ts e) = l := by
    intro l h
    conv => rhs; rw [← List.map_id l]
    refine List.map_congr_left fun z hz => ?_
    unfold endAt
    rw [if_neg (h z hz).1, if_neg (h z hz).2]
    rfl
  have enew : withEndings s v ts e bars =
      pre ++ endAt s v ts e x :: ((inner ++ endAt s v ts e b :: es.map (endAt s v ts e)) ++ y :: post) := by
    rw [withEndings_eq, ebars, emid]
    simp only [List.map_append, List.map_cons]
    rw [keep pre (fun z hz => by have := o1 z hz; omega), keep post (fun z hz => by have := o3 z hz; omega),
      keep inner (fun z hz => by
        have := o2 z (by simp [emid, hz])
        have := ho.2.2 z hz b (by simp)
        omega),
      show endAt s v ts e y = y by
        unfold endAt
        rw [if_neg (by omega), if_neg (by omega)]]
  have hx' : Adds .Start x (endAt s v ts e x) := by
    unfold endAt
    rw [if_pos ex]
    refine ⟨rfl, rfl, fun k => ?_⟩
    by_cases hk : k = .Start
    · subst hk; simp [Has, contains_set]
    · simp [Has, contains_set, hk]
  rw [enew]
  have key := reads_replace (P := .endings s (v :: ts) e) (mid' := inner ++ endAt s v ts e b :: es.map (endAt s v ts e)) (y' := y)
    h ebars hb (fun _ => rfl) (fun h => absurd rfl h) hp (by omega) (by omega) hx' (fun {m ps} k => ?_)
  · rw [ex, ey] at key
    exact key
  · obtain ⟨k1, k2, R, k3, k4⟩ := reads_rest hsorted (hb.2 y (by simp [ebars])) k (by omega)
    refine ⟨R, ?_, k4⟩
    have quiet : ∀ z ∈ mid, ¬ Has z .Start ∧ ¬ Has z .End ∧ ¬ Has z .Dc ∧ ¬ Has z .Ds ∧ endingNo z = none := by
      intro z hz
      exact quiet_opened (k1 z hz) (hmid z (lines z hz) (o2 z hz).1 (o2 z hz).2)
    have number : ∀ z ∈ b :: es, (endAt s v ts e z).startTick = z.startTick ∧
        InEnding (1 + ts.countP (fun t => decide (t ≤ z.startTick))) (endAt s v ts e z) ∧ ¬ Has (endAt s v ts e z) .Start := by
      intro z hz
      have hzm : z ∈ mid := by rw [emid]; exact List.mem_append_right _ hz
      have hvz : v ≤ z.startTick := by
        rcases List.mem_cons.1 hz with rfl | hz
        · omega
        · have := hob.1 z hz; omega
      have hzo := o2 z hzm
      obtain ⟨q1, q2, q3, q4, q5⟩ := quiet z hzm
      have hc : (v :: ts).countP (fun t => decide (t ≤ z.startTick)) = 1 + ts.countP (fun t => decide (t ≤ z.startTick)) := by
        rw [List.countP_cons_of_pos (by simpa using hvz)]
        omega
      have hle : ts.countP (fun t => decide (t ≤ z.startTick)) ≤ ts.length := List.countP_le_length
      obtain ⟨f1, _, f3⟩ := endAt_facts s v ts e z
      refine ⟨f1, ⟨?_, ?_, ?_, ?_⟩, ?_⟩
      · unfold Has; rw [f3 .End (by simp)]; exact q2
      · unfold Has; rw [f3 .Dc (by simp)]; exact q3
      · unfold Has; rw [f3 .Ds (by simp)]; exact q4
      · unfold endAt
        rw [if_neg (by omega), if_pos ⟨hvz, hzo.2⟩, hc]
        exact endingNo_set q5 (by omega) (by omega)
      · unfold endAt
        rw [if_neg (by omega), if_pos ⟨hvz, hzo.2⟩]
        simp only [Has, contains_set]
        rw [if_neg]
        · exact q1
        · rcases endingMark_cases ((v :: ts).countP (fun t => decide (t ≤ z.startTick))) with c | c | c | c <;> rw [c] <;> decide
    have E := endings_marked (endAt s v ts e) ts 1 b es ho.2.1 (List.pairwise_cons.1 hts).2 (fun t ht => by
      have h1 := (List.pairwise_cons.1 hts).1 t ht
      refine ⟨by omega, ?_⟩
      obtain ⟨z, hz, ez⟩ := inmid t (by omega) (hte t (by simp [ht])) (hl t (by simp [ht]))
      rw [emid] at hz
      rcases List.mem_append.1 hz with hz | hz
      · have := ho.2.2 z hz b (by simp); omega
      · rcases List.mem_cons.1 hz with rfl | hz
        · omega
        · exact ⟨z, hz, ez⟩) (fun z hz => ⟨(number z hz).1, (number z hz).2.1⟩)
    rw [eb] at E
    have nb := number b (by simp)
    have hopen : OpensEndings .opened (endAt s v ts e b) := by
      obtain ⟨_, ⟨n1, n2, n3, n4⟩, n5⟩ := nb
      refine ⟨n5, n1, n2, n3, ?_⟩
      rw [n4]
      have : ts.countP (fun t => decide (t ≤ b.startTick)) = 0 := by
        rw [List.countP_eq_zero]
        intro u hu
        have := (List.pairwise_cons.1 hts).1 u hu
        simp only [decide_eq_true_eq]
        omega
      rw [this]
    have hsok : SegnoOk sg (v :: ts) := by
      intro g first last e1 e2 e3 hc
      refine hsg g e1 ?_
      obtain rfl : v = first := by simpa using e2
      have : (v :: ts).getLastD v = last := by
        rw [List.getLastD_eq_getLast?, e3]
        rfl
      rw [this]
      exact hc
    have := Reads.endings (segno := sg) (m := .opened) (a := s) (inside := inner) (by decide)
      (fun z hz => quiet z (by simp [emid, hz])) hopen E hsok k2 (hend y (by simp [ebars]) ey) k3
    rw [ey] at this
    rw [ex]
    simpa using this

end Klavier
