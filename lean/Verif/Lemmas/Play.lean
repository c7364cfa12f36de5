import Verif.Lemmas.Builder

/-! # What the regions play -/
set_option autoImplicit false
namespace Klavier
open Spec

/-! ## Order of passages -/

namespace Spec.Passage

/-- A passage is not empty, unless it ends at tick 0. -/
def Ordered : Passage → Prop
  | .plain a b => a < b ∨ (a = 0 ∧ b = 0)
  | .repeated a b => a < b ∨ (a = 0 ∧ b = 0)
  | .endings a (v :: ts) b => (a < v ∨ (a = 0 ∧ v = 0)) ∧ (v :: ts).Pairwise (· < ·) ∧ (∀ t ∈ v :: ts, t < b) ∧
      (v :: ts).length ≤ 4
  | .endings _ [] _ => False

/-- Nothing ends at tick 0. -/
def Positive : Passage → Prop
  | .plain _ b => 0 < b
  | .repeated _ b => 0 < b
  | .endings _ ts b => 0 < b ∧ ∀ t ∈ ts, 0 < t

end Spec.Passage

def Chain : Nat → List Passage → Prop
  | _, [] => False
  | a, [p] => p = .plain a U32_MAX
  | a, p :: q :: ps => p.start = a ∧ p.Ordered ∧ p.stop < U32_MAX ∧ Chain p.stop (q :: ps)

theorem Chain_cons {a : Nat} {p : Passage} {ps : List Passage} (h1 : p.start = a) (h2 : p.Ordered)
    (h3 : p.stop < U32_MAX) (h4 : Chain p.stop ps) : Chain a (p :: ps) := by
  cases ps with
  | nil => exact absurd h4 (by simp [Chain])
  | cons q ps => exact ⟨h1, h2, h3, h4⟩

theorem Endings_facts {k : Nat} {bars : List Bar} {ts : List Nat} (h : Endings k bars ts) (h4 : k ≤ 4) :
    bars.Pairwise (fun x y => x.startTick < y.startTick) →
    ts.head? = bars.head?.map (·.startTick) ∧ ts.Pairwise (· < ·) ∧ (∀ t ∈ ts, ∃ x ∈ bars, t = x.startTick) ∧
      ts.length + k ≤ 5 := by
  induction h with
  | last hx =>
    intro _
    refine ⟨rfl, by simp, ?_, by simp; omega⟩
    intro t ht
    simp at ht
    exact ⟨_, by simp, ht⟩
  | @more k x y xs ys ts hx hy _ ih =>
    intro hs
    obtain ⟨_, _, _, hy4⟩ := hy
    obtain ⟨v, _, hv⟩ := endingNo_some.1 hy4
    have := value_le v
    have hs' := List.pairwise_cons.1 hs
    have hs2 := (List.pairwise_append.1 hs'.2).2.1
    obtain ⟨i1, i2, i3, i4⟩ := ih (by omega) hs2
    refine ⟨rfl, ?_, ?_, by simp only [List.length_cons]; omega⟩
    · rw [List.pairwise_cons]
      refine ⟨?_, i2⟩
      intro t ht
      obtain ⟨z, hz, rfl⟩ := i3 t ht
      exact hs'.1 z (List.mem_append.2 (.inr hz))
    · intro t ht
      rcases List.mem_cons.1 ht with rfl | ht
      · exact ⟨x, by simp, rfl⟩
      · obtain ⟨z, hz, e⟩ := i3 t ht
        exact ⟨z, List.mem_cons_of_mem _ (List.mem_append.2 (.inr hz)), e⟩

theorem Reads_chain {sg : Option Nat} {m : Mode} {a : Nat} {bars : List Bar} {ps : List Passage}
    (h : Reads sg m a bars ps) : (m = .first → a = 0) → BarsOk bars →
    (m ≠ .first → ∀ x ∈ bars, a < x.startTick) → Chain a ps := by
  induction h with
  | last hm hq => intro _ _ _; simp [Chain]
  | @start m a inside rest x ps hm hq h1 h2 hr ih =>
    intro h0 hb ha
    have hs := List.pairwise_append.1 hb.1
    have hx := List.pairwise_cons.1 hs.2.1
    have hmx := hb.2 x (by simp)
    refine Chain_cons rfl ?_ hmx (ih (by simp) ⟨hx.2, fun y hy => hb.2 y (by simp [hy])⟩ (fun _ y hy => hx.1 y hy))
    by_cases hf : m = .first
    · have := h0 hf
      show a < x.startTick ∨ (a = 0 ∧ x.startTick = 0)
      omega
    · exact .inl (ha hf x (by simp))
  | @close m a inside rest x ps hm hq h2 hr ih =>
    intro h0 hb ha
    have hs := List.pairwise_append.1 hb.1
    have hx := List.pairwise_cons.1 hs.2.1
    have hmx := hb.2 x (by simp)
    refine Chain_cons rfl ?_ hmx (ih (by unfold after; split <;> simp)
      ⟨hx.2, fun y hy => hb.2 y (by simp [hy])⟩ (fun _ y hy => hx.1 y hy))
    by_cases hf : m = .first
    · have := h0 hf
      show a < x.startTick ∨ (a = 0 ∧ x.startTick = 0)
      omega
    · exact .inl (ha hf x (by simp))
  | @endings m a inside es rest v x ts ps hm hq hv he hsg h1 h2 hr ih =>
    intro h0 hb ha
    have hs := (List.pairwise_append.1 hb.1).2.1
    rw [← List.cons_append] at hs
    have hs2 := List.pairwise_append.1 hs
    have hx := List.pairwise_cons.1 hs2.2.1
    have hmx := hb.2 x (by simp)
    refine Chain_cons rfl ?_ hmx (ih (by unfold after; split <;> simp)
      ⟨hx.2, fun y hy => hb.2 y (by simp [hy])⟩ (fun _ y hy => hx.1 y hy))
    obtain ⟨e1, e2, e3, e4⟩ := Endings_facts he (by omega) hs2.1
    cases ts with
    | nil => exact absurd rfl (Endings_ne he)
    | cons t ts =>
      simp only [List.head?_cons, Option.map_some, Option.some.injEq] at e1
      refine ⟨?_, e2, ?_, by omega⟩
      · by_cases hf : m = .first
        · rw [h0 hf]; omega
        · rw [e1]; exact .inl (ha hf v (by simp))
      · intro s hs
        obtain ⟨z, hz, rfl⟩ := e3 s hs
        exact hs2.2.2 z hz x (by simp)

theorem Reads_positive {sg : Option Nat} {m : Mode} {a : Nat} {bars : List Bar} {ps : List Passage}
    (h : Reads sg m a bars ps) : bars.Pairwise (fun x y => x.startTick < y.startTick) →
    (∀ x ∈ bars, x.startTick = 0 → ¬ Has x .Start ∧ ¬ Has x .End ∧ endingNo x = none) → ∀ p ∈ ps, p.Positive := by
  induction h with
  | last hm hq =>
    intro _ _ p hp
    simp at hp
    subst hp
    simp [Passage.Positive]
  | @start m a inside rest x ps hm hq h1 h2 hr ih =>
    intro hb h0 p hp
    rcases List.mem_cons.1 hp with rfl | hp
    · refine Nat.pos_of_ne_zero (fun e => (h0 x (by simp) e).1 h1)
    · exact ih (List.pairwise_cons.1 (List.pairwise_append.1 hb).2.1).2 (fun y hy => h0 y (by simp [hy])) p hp
  | @close m a inside rest x ps hm hq h2 hr ih =>
    intro hb h0 p hp
    rcases List.mem_cons.1 hp with rfl | hp
    · refine Nat.pos_of_ne_zero (fun e => (h0 x (by simp) e).2.1 h2)
    · exact ih (List.pairwise_cons.1 (List.pairwise_append.1 hb).2.1).2 (fun y hy => h0 y (by simp [hy])) p hp
  | @endings m a inside es rest v x ts ps hm hq hv he hsg h1 h2 hr ih =>
    intro hb h0 p hp
    have hs := (List.pairwise_append.1 hb).2.1
    rw [← List.cons_append] at hs
    have hs2 := List.pairwise_append.1 hs
    rcases List.mem_cons.1 hp with rfl | hp
    · have hv1 : endingNo v = some 1 := by
        cases m with
        | first => exact hv.2.2
        | plain => exact hv.2.2
        | opened => exact hv.2.2.2.2
      have hvp : 0 < v.startTick := by
        refine Nat.pos_of_ne_zero (fun e => ?_)
        have := (h0 v (by simp) e).2.2
        rw [hv1] at this
        cases this
      obtain ⟨e1, e2, e3, e4⟩ := Endings_facts he (by omega) hs2.1
      have hge : ∀ z ∈ v :: es, 0 < z.startTick := by
        intro z hz
        rcases List.mem_cons.1 hz with rfl | hz
        · exact hvp
        · have := (List.pairwise_cons.1 hs2.1).1 z hz
          omega
      refine ⟨?_, ?_⟩
      · have := hs2.2.2 v (by simp) x (by simp)
        omega
      · intro t ht
        obtain ⟨z, hz, rfl⟩ := e3 t ht
        exact hge z hz
    · exact ih (List.pairwise_cons.1 hs2.2.1).2 (fun y hy => h0 y (by simp [hy])) p hp

/-- A D.C. or D.S. is inside a repeat or endings only in the first passage. -/
theorem Reads_outside {sg : Option Nat} {m : Mode} {a : Nat} {bars : List Bar} {ps : List Passage}
    (h : Reads sg m a bars ps) : BarsOk bars →
    (∀ y ∈ bars, Has y .Dc ∨ Has y .Ds → ∀ p ∈ ps.tail, p.Outside y.startTick) ∧
    (m ≠ .first → ∀ y ∈ bars, Has y .Dc ∨ Has y .Ds → ∀ p ∈ ps, p.Outside y.startTick) := by
  have afterNot : ∀ x, after x ≠ .first := by intro x; unfold after; split <;> simp
  have start_ge : ∀ {m : Mode} {a : Nat} {bars : List Bar} {ps : List Passage}, Reads sg m a bars ps → BarsOk bars →
      m ≠ .first → (∀ x ∈ bars, a < x.startTick) → ∀ p ∈ ps, a ≤ p.start := by
    intro m a bars ps h hb hm ha
    have hc := Reads_chain h (fun e => absurd e hm) hb (fun _ => ha)
    clear h hb ha hm
    induction ps generalizing a with
    | nil => simp
    | cons p ps ih =>
      intro q hq
      cases ps with
      | nil =>
        simp only [Chain] at hc
        simp at hq
        rw [hq, hc]
        exact Nat.le_refl _
      | cons p' ps =>
        obtain ⟨c1, c2, c3, c4⟩ := hc
        rcases List.mem_cons.1 hq with rfl | hq
        · omega
        · have h1 := ih c4 q hq
          have : p.start ≤ p.stop := by
            cases p with
            | plain a b => simp only [Passage.Ordered, Passage.start, Passage.stop] at *; omega
            | repeated a b => simp only [Passage.Ordered, Passage.start, Passage.stop] at *; omega
            | endings a ts b =>
              cases ts with
              | nil => exact absurd c2 (by simp [Passage.Ordered])
              | cons t ts =>
                obtain ⟨d1, _, d3, _⟩ := c2
                have := d3 t (by simp)
                simp only [Passage.start, Passage.stop]
                omega
          omega
  have outside_of : ∀ {p : Passage} {d : Nat}, (d ≤ p.start ∨ p.stop ≤ d) → p.Outside d := by
    intro p d h
    cases p with
    | plain a b => trivial
    | repeated a b => exact h
    | endings a ts b => exact h
  induction h with
  | last hm hq =>
    intro hb
    refine ⟨by simp, ?_⟩
    intro _ y _ _ p hp
    simp at hp
    subst hp
    trivial
  | @start m a inside rest x ps hm hq h1 h2 hr ih =>
    intro hb
    have hs := List.pairwise_append.1 hb.1
    have hx := List.pairwise_cons.1 hs.2.1
    have hbr : BarsOk rest := ⟨hx.2, fun y hy => hb.2 y (by simp [hy])⟩
    have hge := start_ge hr hbr (by simp) hx.1
    have tail : ∀ y ∈ inside ++ x :: rest, Has y .Dc ∨ Has y .Ds → ∀ p ∈ ps, p.Outside y.startTick := by
      intro y hy hd p hp
      rcases List.mem_append.1 hy with hy | hy
      · have := hs.2.2 y hy x (by simp)
        have := hge p hp
        exact outside_of (.inl (by omega))
      · rcases List.mem_cons.1 hy with rfl | hy
        · exact outside_of (.inl (hge p hp))
        · exact (ih hbr).2 (by simp) y hy hd p hp
    refine ⟨tail, ?_⟩
    intro _ y hy hd p hp
    rcases List.mem_cons.1 hp with rfl | hp
    · trivial
    · exact tail y hy hd p hp
  | @close m a inside rest x ps hm hq h2 hr ih =>
    intro hb
    have hs := List.pairwise_append.1 hb.1
    have hx := List.pairwise_cons.1 hs.2.1
    have hbr : BarsOk rest := ⟨hx.2, fun y hy => hb.2 y (by simp [hy])⟩
    have hge := start_ge hr hbr (afterNot x) hx.1
    have tail : ∀ y ∈ inside ++ x :: rest, Has y .Dc ∨ Has y .Ds → ∀ p ∈ ps, p.Outside y.startTick := by
      intro y hy hd p hp
      rcases List.mem_append.1 hy with hy | hy
      · have := hs.2.2 y hy x (by simp)
        have := hge p hp
        exact outside_of (.inl (by omega))
      · rcases List.mem_cons.1 hy with rfl | hy
        · exact outside_of (.inl (hge p hp))
        · exact (ih hbr).2 (afterNot x) y hy hd p hp
    refine ⟨tail, ?_⟩
    intro hmf y hy hd p hp
    rcases List.mem_cons.1 hp with rfl | hp
    · have ho : m = .opened := by cases m <;> simp_all
      subst ho
      refine outside_of ?_
      rcases List.mem_append.1 hy with hy | hy
      · have := hq y hy
        rcases hd with hd | hd
        · exact absurd hd this.2.2.1
        · exact absurd hd this.2.2.2.1
      · rcases List.mem_cons.1 hy with rfl | hy
        · exact .inr (Nat.le_refl _)
        · have := hx.1 y hy
          exact .inr (by simp only [Passage.stop]; omega)
    · exact tail y hy hd p hp
  | @endings m a inside es rest v x ts ps hm hq hv he hsg h1 h2 hr ih =>
    intro hb
    have hs := List.pairwise_append.1 hb.1
    have hs1 := hs.2.1
    rw [← List.cons_append] at hs1
    have hs2 := List.pairwise_append.1 hs1
    have hx := List.pairwise_cons.1 hs2.2.1
    have hbr : BarsOk rest := ⟨hx.2, fun y hy => hb.2 y (by simp [hy])⟩
    have hge := start_ge hr hbr (afterNot x) hx.1
    have before : ∀ y ∈ inside ++ v :: es, y.startTick < x.startTick := by
      intro y hy
      rcases List.mem_append.1 hy with hy | hy
      · exact hs.2.2 y hy x (by simp)
      · exact hs2.2.2 y hy x (by simp)
    have split : ∀ y ∈ inside ++ v :: (es ++ x :: rest), y ∈ inside ++ v :: es ∨ y = x ∨ y ∈ rest := by
      intro y hy
      simp only [List.mem_append, List.mem_cons] at hy ⊢
      rcases hy with h | h | h | h | h
      · exact .inl (.inl h)
      · exact .inl (.inr (.inl h))
      · exact .inl (.inr (.inr h))
      · exact .inr (.inl h)
      · exact .inr (.inr h)
    have tail : ∀ y ∈ inside ++ v :: (es ++ x :: rest), Has y .Dc ∨ Has y .Ds → ∀ p ∈ ps, p.Outside y.startTick := by
      intro y hy hd p hp
      rcases split y hy with hy | rfl | hy
      · have := before y hy
        have := hge p hp
        exact outside_of (.inl (by omega))
      · exact outside_of (.inl (hge p hp))
      · exact (ih hbr).2 (afterNot x) y hy hd p hp
    refine ⟨tail, ?_⟩
    intro hmf y hy hd p hp
    rcases List.mem_cons.1 hp with rfl | hp
    · have ho : m = .opened := by cases m <;> simp_all
      subst ho
      refine outside_of ?_
      have inEs : ∀ {k : Nat} {bars : List Bar} {ts : List Nat}, Endings k bars ts → ∀ z ∈ bars.tail, ¬ Has z .Dc ∧ ¬ Has z .Ds := by
        intro k bars ts h
        induction h with
        | last hx => intro z hz; exact ⟨(hx z hz).2.1, (hx z hz).2.2.1⟩
        | more hx hy _ ih =>
          intro z hz
          rcases List.mem_append.1 hz with hz | hz
          · exact ⟨(hx z hz).2.1, (hx z hz).2.2.1⟩
          · rcases List.mem_cons.1 hz with rfl | hz
            · exact ⟨hy.2.1, hy.2.2.1⟩
            · exact ih z hz
      rcases split y hy with hy | rfl | hy
      · exfalso
        have : ¬ Has y .Dc ∧ ¬ Has y .Ds := by
          rcases List.mem_append.1 hy with hy | hy
          · exact ⟨(hq y hy).2.2.1, (hq y hy).2.2.2.1⟩
          · rcases List.mem_cons.1 hy with rfl | hy
            · exact ⟨hv.2.2.1, hv.2.2.2.1⟩
            · exact inEs he y hy
        rcases hd with hd | hd
        · exact this.1 hd
        · exact this.2 hd
      · exact .inr (Nat.le_refl _)
      · have := hx.1 y hy
        exact .inr (by simp only [Passage.stop]; omega)
    · exact tail y hy hd p hp

/-! ## Chunks of one passage -/

theorem variationsFrom_parts (v : Nat) (ts : List Nat) (b : Nat) :
    (variationsFrom v ts b).map (fun r => span r.start r.stop) = endingParts v ts b := by
  induction ts generalizing v with
  | nil => rfl
  | cons t ts ih => simp only [variationsFrom, endingParts, List.map_cons, ih]

theorem variationsFrom_last (v : Nat) (ts : List Nat) (b : Nat) :
    (variationsFrom v ts b).getLast? = some ⟨(v :: ts).getLastD v, b⟩ := by
  induction ts generalizing v with
  | nil => rfl
  | cons t ts ih =>
    have : variationsFrom v (t :: ts) b = ⟨v, t⟩ :: variationsFrom t ts b := rfl
    rw [this, List.getLast?_cons, ih]
    simp only [List.getLastD_cons, Option.getD_some]

theorem played_fullVariations (a v : Nat) (vs : List SequenceRegion) :
    played (SimpleRegion.fullVariations ⟨a, v⟩ vs) = (vs.map (fun r => span r.start r.stop)).flatMap (fun e => span a v ++ e) := by
  induction vs with
  | nil => rfl
  | cons r vs ih =>
    have e : SimpleRegion.fullVariations ⟨a, v⟩ (r :: vs) =
        ⟨a, v⟩ :: ⟨r.start, r.stop⟩ :: SimpleRegion.fullVariations ⟨a, v⟩ vs := rfl
    rw [e, played_cons, played_cons, ih]
    simp

/-- Everything with all repeats. -/
theorem renderChunks_full (ip : Bool) (p : Passage) :
    ∃ cs, p.region.renderChunks ip .nonDcDs = .ok cs ∧ played cs = p.full := by
  cases p with
  | plain a b => exact ⟨_, rfl, by simp [played, Passage.full]⟩
  | repeated a b => exact ⟨_, rfl, by simp [played, Passage.full, SequenceRegion.toChunks]⟩
  | endings a ts b =>
    cases ts with
    | nil => exact ⟨_, rfl, rfl⟩
    | cons v ts =>
      refine ⟨_, rfl, ?_⟩
      rw [played_fullVariations, variationsFrom_parts]
      rfl

/-- The first pass. -/
theorem renderChunks_iter0 (ip : Bool) (d : Nat) (p : Passage) (ho : p.Ordered) (hd : p.Outside d) :
    ∃ cs, p.region.renderChunks ip (.iter0 d) = .ok cs ∧ played cs = p.upTo d := by
  cases p with
  | plain a b =>
    have e : Passage.upTo d (.plain a b) = if b ≤ d then span a b else span a d := rfl
    rw [e]
    simp only [Passage.region, SimpleRegion.renderChunks]
    by_cases h1 : b ≤ d
    · rw [if_pos h1, if_pos h1]
      exact ⟨_, rfl, by simp [played]⟩
    · rw [if_neg h1, if_neg h1]
      by_cases h2 : a < d ∧ d < b
      · rw [if_pos h2]
        exact ⟨_, rfl, by simp [played]⟩
      · rw [if_neg h2]
        exact ⟨_, rfl, by rw [span_empty (by omega)]; rfl⟩
  | repeated a b =>
    have e : Passage.upTo d (.repeated a b) = if b ≤ d then span a b ++ span a b else span a d := rfl
    rw [e]
    simp only [Passage.region, SimpleRegion.renderChunks]
    by_cases h1 : b ≤ d
    · rw [if_pos h1, if_pos h1]
      exact ⟨_, rfl, by simp [played, SequenceRegion.toChunks]⟩
    · rw [if_neg h1, if_neg h1, if_neg (by omega)]
      refine ⟨_, rfl, ?_⟩
      rcases hd with hd | hd
      · rw [span_empty (show d ≤ a from hd)]; rfl
      · exact absurd hd h1
  | endings a ts b =>
    cases ts with
    | nil => exact absurd ho (by simp [Passage.Ordered])
    | cons v ts =>
      obtain ⟨o1, o2, o3, o4⟩ := ho
      have hvb := o3 v (by simp)
      have e : Passage.upTo d (.endings a (v :: ts) b) =
          if b ≤ d then Passage.full (.endings a (v :: ts) b) else span a d := rfl
      rw [e]
      simp only [Passage.region, SimpleRegion.renderChunks]
      by_cases h1 : d ≤ a
      · rw [if_pos h1, if_neg (by omega)]
        exact ⟨_, rfl, by rw [span_empty h1]; rfl⟩
      · rw [if_neg h1, variationsFrom_last]
        have hbd : b ≤ d := by
          rcases hd with hd | hd
          · exact absurd hd h1
          · exact hd
        rw [if_pos hbd]
        simp only
        rw [if_neg (by omega)]
        refine ⟨_, rfl, ?_⟩
        rw [played_fullVariations, variationsFrom_parts]
        rfl

theorem sectionChunks_ok (s : IntervalSet) (h : ∀ i ∈ s, i.2 + 1 ≤ U32_MAX) :
    SimpleRegion.sectionChunks s = .ok (s.map (fun i => ⟨i.1, i.2 + 1⟩)) := by
  induction s with
  | nil => rfl
  | cons i s ih =>
    obtain ⟨lo, hi⟩ := i
    have := h (lo, hi) (by simp)
    simp only at this
    simp only [SimpleRegion.sectionChunks, addU32, if_pos this, R_bind_ok, ih (fun j hj => h j (by simp [hj]))]
    rfl

theorem played_sections (s : IntervalSet) : played (s.map (fun i => ⟨i.1, i.2 + 1⟩)) = s.toTicks := by
  induction s with
  | nil => rfl
  | cons i s ih =>
    rw [List.map_cons, played_cons, ih]
    rfl

theorem seqSet (ip : Bool) {a b : Nat} (h : a < b) :
    ∃ s, SequenceRegion.iter1Set ip ⟨a, b⟩ = .ok s ∧ IntervalSet.Normal s ∧ ∀ t, s.has t = true ↔ a ≤ t ∧ t < b := by
  obtain ⟨s, hs⟩ := IntervalSet.ofPairs_valid (ip := ip) (l := [(a, b - 1)]) (by simp; omega)
  obtain ⟨n, hh⟩ := IntervalSet.ofPairs_ok hs
  refine ⟨s, ?_, n, ?_⟩
  · simp only [SequenceRegion.iter1Set, subU32]
    rw [if_pos (by omega)]
    exact hs
  · intro t
    rw [hh]
    simp only [List.mem_singleton, exists_eq_left]
    omega

theorem getLast_lt {v b : Nat} {ts : List Nat} (h : ∀ t ∈ v :: ts, t < b) : (v :: ts).getLastD v < b := by
  have : (v :: ts).getLastD v = (v :: ts).getLast (by simp) := by
    rw [List.getLastD_cons, ← List.getLast_eq_getLastD]
  rw [this]
  exact h _ (List.getLast_mem _)

theorem getLast_ge {v : Nat} {ts : List Nat} (h : (v :: ts).Pairwise (· < ·)) : v ≤ (v :: ts).getLastD v := by
  have : (v :: ts).getLastD v = (v :: ts).getLast (by simp) := by
    rw [List.getLastD_cons, ← List.getLast_eq_getLastD]
  rw [this]
  rcases List.mem_cons.1 (List.getLast_mem (by simp : v :: ts ≠ [])) with e | e
  · omega
  · exact Nat.le_of_lt ((List.pairwise_cons.1 h).1 _ e)

theorem once_sorted {p : Passage} (ho : p.Ordered) : p.once.Pairwise (· < ·) := by
  cases p with
  | plain a b => exact span_sorted _ _
  | repeated a b => exact span_sorted _ _
  | endings a ts b =>
    cases ts with
    | nil => simp [Passage.once]
    | cons v ts =>
      obtain ⟨o1, o2, o3, o4⟩ := ho
      have := getLast_ge o2
      simp only [Passage.once]
      refine List.pairwise_append.2 ⟨span_sorted _ _, span_sorted _ _, ?_⟩
      intro x hx y hy
      rw [mem_span] at hx hy
      omega

/-- The set of ticks of a passage for the second pass. -/
theorem iter1Set_ok (ip : Bool) {p : Passage} (ho : p.Ordered) (hp : p.Positive) :
    ∃ s, p.region.iter1Set ip = .ok s ∧ IntervalSet.Normal s ∧ ∀ t, s.has t = true ↔ t ∈ p.once := by
  cases p with
  | plain a b =>
    have hp : 0 < b := hp
    have ho : a < b ∨ (a = 0 ∧ b = 0) := ho
    obtain ⟨s, h1, h2, h3⟩ := seqSet ip (a := a) (b := b) (by omega)
    exact ⟨s, h1, h2, fun t => by rw [h3]; exact mem_span.symm⟩
  | repeated a b =>
    have hp : 0 < b := hp
    have ho : a < b ∨ (a = 0 ∧ b = 0) := ho
    obtain ⟨s, h1, h2, h3⟩ := seqSet ip (a := a) (b := b) (by omega)
    exact ⟨s, h1, h2, fun t => by rw [h3]; exact mem_span.symm⟩
  | endings a ts b =>
    cases ts with
    | nil => exact absurd ho (by simp [Passage.Ordered])
    | cons v ts =>
      obtain ⟨o1, o2, o3, o4⟩ := ho
      have hv := hp.2 v (by simp)
      obtain ⟨s, h1, h2, h3⟩ := seqSet ip (a := a) (b := v) (by omega)
      obtain ⟨u, k1, k2, k3⟩ := seqSet ip (getLast_lt o3)
      obtain ⟨w1, w2⟩ := IntervalSet.union_spec (s := s) (t := u) (fun i hi => h2.2 i hi) k2
      refine ⟨s.union u, ?_, w1, ?_⟩
      · simp only [Passage.region, SimpleRegion.iter1Set, h1, R_bind_ok, variationsFrom_last, k1]
        rfl
      · intro t
        rw [w2, h3, k3]
        simp only [Passage.once, List.mem_append, mem_span]

/-- The second pass. -/
theorem renderChunks_iter1 (ip : Bool) (g : GlobalRepeat) {p : Passage} (ho : p.Ordered) (hp : p.Positive)
    (hm : p.stop ≤ U32_MAX) :
    ∃ cs, p.region.renderChunks ip (.iter1 g) = .ok cs ∧ played cs = p.once.filter (fun t => g.iter1.has t) ∧
      ∃ s : IntervalSet, IntervalSet.Normal s ∧ cs = s.map (fun i => ⟨i.1, i.2 + 1⟩) ∧ ∀ t, s.has t = true → t < p.stop := by
  obtain ⟨s, h1, h2, h3⟩ := iter1Set_ok ip ho hp
  obtain ⟨n, hh⟩ := IntervalSet.inter_spec g.iter1 s
  have hlt : ∀ t ∈ p.once, t < p.stop := by
    intro t ht
    cases p with
    | plain a b => exact (mem_span.1 ht).2
    | repeated a b => exact (mem_span.1 ht).2
    | endings a ts b =>
      cases ts with
      | nil => simp [Passage.once] at ht
      | cons v ts =>
        obtain ⟨o1, o2, o3, o4⟩ := ho
        have := o3 v (by simp)
        simp only [Passage.once, List.mem_append, mem_span] at ht
        simp only [Passage.stop]
        omega
  have hstop : ∀ t, (g.iter1.inter s).has t = true → t < p.stop := by
    intro t ht
    exact hlt t ((h3 t).1 ((hh t).1 ht).2)
  have hsec : ∀ i ∈ g.iter1.inter s, i.2 + 1 ≤ U32_MAX := by
    intro i hi
    have := hstop i.2 (IntervalSet.has_iff.2 ⟨i, hi, n.2 i hi, Nat.le_refl _⟩)
    omega
  have hr : p.region.renderChunks ip (.iter1 g) = p.region.iter1Chunks ip g := by
    cases p with
    | plain a b => rfl
    | repeated a b => rfl
    | endings a ts b => cases ts <;> rfl
  refine ⟨_, ?_, ?_, g.iter1.inter s, n, rfl, hstop⟩
  · rw [hr, SimpleRegion.iter1Chunks, h1, R_bind_ok, sectionChunks_ok _ hsec]
  · rw [played_sections]
    refine sorted_ext (IntervalSet.toTicks_sorted n) ((once_sorted ho).filter _) ?_
    intro t
    rw [IntervalSet.mem_toTicks, hh, h3, List.mem_filter]
    exact And.comm

/-! ## Bounds of the chunks of one passage -/

theorem variationsFrom_bounds (v : Nat) (ts : List Nat) (b : Nat) (h1 : (v :: ts).Pairwise (· < ·))
    (h2 : ∀ t ∈ v :: ts, t < b) : ∀ r ∈ variationsFrom v ts b, r.start ≤ r.stop ∧ r.stop ≤ b := by
  induction ts generalizing v with
  | nil =>
    intro r hr
    simp only [variationsFrom, List.mem_singleton] at hr
    subst hr
    exact ⟨Nat.le_of_lt (h2 v (by simp)), Nat.le_refl _⟩
  | cons t ts ih =>
    intro r hr
    rcases List.mem_cons.1 hr with rfl | hr
    · have := (List.pairwise_cons.1 h1).1 t (by simp)
      have := h2 t (by simp)
      simp only
      omega
    · exact ih t (List.pairwise_cons.1 h1).2 (fun s hs => h2 s (by simp [hs])) r hr

theorem fullVariations_bounds {a v b : Nat} {ts : List Nat} (ho : (Passage.endings a (v :: ts) b).Ordered) :
    ∀ c ∈ SimpleRegion.fullVariations ⟨a, v⟩ (variationsFrom v ts b), c.startTick ≤ c.endTick ∧ c.endTick ≤ b := by
  obtain ⟨o1, o2, o3, o4⟩ := ho
  have hv := o3 v (by simp)
  intro c hc
  simp only [SimpleRegion.fullVariations, SequenceRegion.toChunks, List.mem_flatMap, List.mem_append,
    List.mem_singleton] at hc
  obtain ⟨r, hr, rfl | rfl⟩ := hc
  · simp only; omega
  · exact variationsFrom_bounds v ts b o2 o3 r hr

theorem full_bounds {ip : Bool} {p : Passage} {cs : List Chunk} (ho : p.Ordered)
    (h : p.region.renderChunks ip .nonDcDs = .ok cs) : ∀ c ∈ cs, c.startTick ≤ c.endTick ∧ c.endTick ≤ p.stop := by
  cases p with
  | plain a b =>
    cases h
    have ho : a < b ∨ (a = 0 ∧ b = 0) := ho
    simp only [List.mem_singleton, forall_eq, Passage.stop]
    omega
  | repeated a b =>
    cases h
    have ho : a < b ∨ (a = 0 ∧ b = 0) := ho
    simp only [SequenceRegion.toChunks, List.mem_append, List.mem_singleton, or_self, forall_eq, Passage.stop]
    omega
  | endings a ts b =>
    cases ts with
    | nil => exact absurd ho (by simp [Passage.Ordered])
    | cons v ts =>
      cases h
      exact fullVariations_bounds ho

theorem iter0_bounds {ip : Bool} {d : Nat} {p : Passage} {cs : List Chunk} (ho : p.Ordered)
    (h : p.region.renderChunks ip (.iter0 d) = .ok cs) : ∀ c ∈ cs, c.startTick ≤ c.endTick ∧ c.endTick ≤ d := by
  cases p with
  | plain a b =>
    have ho : a < b ∨ (a = 0 ∧ b = 0) := ho
    simp only [Passage.region, SimpleRegion.renderChunks] at h
    split at h
    · cases h; simp only [List.mem_singleton, forall_eq]; omega
    split at h
    · cases h; simp only [List.mem_singleton, forall_eq]; omega
    · cases h; simp
  | repeated a b =>
    have ho : a < b ∨ (a = 0 ∧ b = 0) := ho
    simp only [Passage.region, SimpleRegion.renderChunks] at h
    split at h
    · cases h; simp only [SequenceRegion.toChunks, List.mem_append, List.mem_singleton, or_self, forall_eq]; omega
    split at h
    · cases h
    · cases h; simp
  | endings a ts b =>
    cases ts with
    | nil => exact absurd ho (by simp [Passage.Ordered])
    | cons v ts =>
      simp only [Passage.region, SimpleRegion.renderChunks, variationsFrom_last] at h
      split at h
      · cases h; simp
      split at h
      · cases h
      · cases h
        intro c hc
        have := fullVariations_bounds ho c hc
        omega

/-! ## All passages -/

theorem Chain_mem {a : Nat} {ps : List Passage} (h : Chain a ps) (ha : a < U32_MAX) :
    ∀ p ∈ ps, p.Ordered ∧ p.stop ≤ U32_MAX := by
  induction ps generalizing a with
  | nil => simp
  | cons p ps ih =>
    cases ps with
    | nil =>
      simp only [Chain] at h
      subst h
      intro q hq
      simp at hq
      subst hq
      exact ⟨.inl ha, Nat.le_refl _⟩
    | cons p' ps =>
      obtain ⟨c1, c2, c3, c4⟩ := h
      intro q hq
      rcases List.mem_cons.1 hq with rfl | hq
      · exact ⟨c2, Nat.le_of_lt c3⟩
      · exact ih c4 c3 q hq

theorem ChunksOk_append {a b : List Chunk} (ha : ∀ c ∈ a, c.startTick ≤ c.endTick ∧ c.endTick < U32_MAX)
    (hb : ChunksOk b) : ChunksOk (a ++ b) := by
  constructor
  · intro c hc
    rcases List.mem_append.1 hc with hc | hc
    · exact ⟨(ha c hc).1, Nat.le_of_lt (ha c hc).2⟩
    · exact hb.1 c hc
  · intro c hc
    by_cases hn : b = []
    · subst hn
      rw [List.append_nil] at hc
      exact Nat.ne_of_lt (ha c (List.dropLast_subset _ hc)).2
    · rw [List.dropLast_append_of_ne_nil hn] at hc
      rcases List.mem_append.1 hc with hc | hc
      · exact Nat.ne_of_lt (ha c hc).2
      · exact hb.2 c hc

theorem ChunksOk_sections {s : IntervalSet} (hn : IntervalSet.Normal s) (hs : ∀ t, s.has t = true → t < U32_MAX) :
    ChunksOk (s.map (fun i => ⟨i.1, i.2 + 1⟩)) := by
  have hlt : ∀ i ∈ s, i.1 ≤ i.2 ∧ i.2 < U32_MAX := fun i hi =>
    ⟨hn.2 i hi, hs i.2 (IntervalSet.has_iff.2 ⟨i, hi, hn.2 i hi, Nat.le_refl _⟩)⟩
  constructor
  · intro c hc
    obtain ⟨i, hi, rfl⟩ := List.mem_map.1 hc
    have := hlt i hi
    simp only
    omega
  · intro c hc
    rw [← List.map_dropLast] at hc
    obtain ⟨i, hi, rfl⟩ := List.mem_map.1 hc
    cases s with
    | nil => simp at hi
    | cons j s =>
      have hsp : j :: s = (j :: s).dropLast ++ [(j :: s).getLast (by simp)] := (List.dropLast_concat_getLast (by simp)).symm
      have hp := hn.1
      rw [hsp] at hp
      have h1 := (List.pairwise_append.1 hp).2.2 i hi ((j :: s).getLast (by simp)) (by simp)
      have h2 := hlt _ (List.getLast_mem (by simp : j :: s ≠ []))
      simp only
      omega

theorem renderAll_full (ip : Bool) (ps : List Passage) : ∀ a, a < U32_MAX → Chain a ps →
    ∃ cs, CompoundRegion.renderAll ip .nonDcDs (ps.map Passage.region) = .ok cs ∧ played cs = ps.flatMap Passage.full ∧
      ChunksOk cs := by
  induction ps with
  | nil => intro a _ h; exact absurd h (by simp [Chain])
  | cons p ps ih =>
    intro a ha h
    obtain ⟨c1, h1, h2⟩ := renderChunks_full ip p
    have hb := full_bounds (Chain_mem h ha p (by simp)).1 h1
    cases ps with
    | nil =>
      simp only [Chain] at h
      subst h
      cases h1
      refine ⟨_, rfl, by simp [played, Passage.full], ?_, by simp⟩
      intro c hc
      exact hb c (by simpa using hc)
    | cons q ps =>
      obtain ⟨d1, d2, d3, d4⟩ := h
      obtain ⟨c2, k1, k2, k3⟩ := ih p.stop d3 d4
      refine ⟨c1 ++ c2, ?_, ?_, ChunksOk_append (fun c hc => ?_) k3⟩
      · rw [List.map_cons, CompoundRegion.renderAll, h1, R_bind_ok, k1, R_bind_ok]
        rfl
      · rw [played_append, h2, k2]
        rfl
      · have := hb c hc
        exact ⟨this.1, by omega⟩

theorem renderAll_iter0 (ip : Bool) (d : Nat) (ps : List Passage) (ho : ∀ p ∈ ps, p.Ordered)
    (hd : ∀ p ∈ ps, p.Outside d) :
    ∃ cs, CompoundRegion.renderAll ip (.iter0 d) (ps.map Passage.region) = .ok cs ∧
      played cs = ps.flatMap (Passage.upTo d) ∧ ∀ c ∈ cs, c.startTick ≤ c.endTick ∧ c.endTick ≤ d := by
  induction ps with
  | nil => exact ⟨[], rfl, rfl, by simp⟩
  | cons p ps ih =>
    obtain ⟨c1, h1, h2⟩ := renderChunks_iter0 ip d p (ho p (by simp)) (hd p (by simp))
    have hb := iter0_bounds (ho p (by simp)) h1
    obtain ⟨c2, k1, k2, k3⟩ := ih (fun q hq => ho q (by simp [hq])) (fun q hq => hd q (by simp [hq]))
    refine ⟨c1 ++ c2, ?_, ?_, ?_⟩
    · rw [List.map_cons, CompoundRegion.renderAll, h1, R_bind_ok, k1, R_bind_ok]
      rfl
    · rw [played_append, h2, k2]
      rfl
    · intro c hc
      rcases List.mem_append.1 hc with hc | hc
      · exact hb c hc
      · exact k3 c hc

theorem renderAll_iter1 (ip : Bool) (g : GlobalRepeat) (ps : List Passage) : ∀ a, a < U32_MAX → Chain a ps →
    (∀ p ∈ ps, p.Positive) →
    ∃ cs, CompoundRegion.renderAll ip (.iter1 g) (ps.map Passage.region) = .ok cs ∧
      played cs = (ps.flatMap Passage.once).filter (fun t => g.iter1.has t) ∧ ChunksOk cs := by
  induction ps with
  | nil => intro a _ h; exact absurd h (by simp [Chain])
  | cons p ps ih =>
    intro a ha h hp
    have hm := Chain_mem h ha p (by simp)
    obtain ⟨c1, h1, h2, s, n1, n2, n3⟩ := renderChunks_iter1 ip g hm.1 (hp p (by simp)) hm.2
    cases ps with
    | nil =>
      refine ⟨c1, ?_, ?_, ?_⟩
      · rw [List.map_cons, CompoundRegion.renderAll, h1, R_bind_ok]
        simp [CompoundRegion.renderAll]
      · simpa using h2
      · rw [n2]
        exact ChunksOk_sections n1 (fun t ht => Nat.lt_of_lt_of_le (n3 t ht) hm.2)
    | cons q ps =>
      obtain ⟨d1, d2, d3, d4⟩ := h
      obtain ⟨c2, k1, k2, k3⟩ := ih p.stop d3 d4 (fun q hq => hp q (by simp [hq]))
      refine ⟨c1 ++ c2, ?_, ?_, ChunksOk_append (fun c hc => ?_) k3⟩
      · rw [List.map_cons, CompoundRegion.renderAll, h1, R_bind_ok, k1, R_bind_ok]
        rfl
      · rw [played_append, h2, k2, ← List.filter_append, ← List.flatMap_cons]
      · rw [n2] at hc
        obtain ⟨i, hi, rfl⟩ := List.mem_map.1 hc
        have := n3 i.2 (IntervalSet.has_iff.2 ⟨i, hi, n1.2 i hi, Nat.le_refl _⟩)
        have := n1.2 i hi
        simp only
        omega

/-! ## How often a tick is played -/

theorem Chain_count (f : Passage → List Nat) (k : Nat) (t : Nat)
    (hf : ∀ p : Passage, p.Ordered → (f p).count t ≤ k ∧ (0 < (f p).count t → p.start ≤ t ∧ t < p.stop))
    (ps : List Passage) :
    ∀ a, a < U32_MAX → Chain a ps → (ps.flatMap f).count t ≤ k ∧ (0 < (ps.flatMap f).count t → a ≤ t) := by
  induction ps with
  | nil => intro a _ h; exact absurd h (by simp [Chain])
  | cons p ps ih =>
    intro a ha h
    have hm := Chain_mem h ha p (by simp)
    have h1 := hf p hm.1
    rw [List.flatMap_cons, List.count_append]
    cases ps with
    | nil =>
      simp only [Chain] at h
      subst h
      simp only [Passage.start, Passage.stop] at h1
      simp only [List.flatMap_nil, List.count_nil, Nat.add_zero]
      exact ⟨h1.1, fun h => (h1.2 h).1⟩
    | cons q ps =>
      obtain ⟨d1, d2, d3, d4⟩ := h
      have h2 := ih p.stop d3 d4
      have hle : p.start ≤ p.stop := by
        cases p with
        | plain a b => simp only [Passage.Ordered, Passage.start, Passage.stop] at *; omega
        | repeated a b => simp only [Passage.Ordered, Passage.start, Passage.stop] at *; omega
        | endings a ts b =>
          cases ts with
          | nil => exact absurd d2 (by simp [Passage.Ordered])
          | cons v ts =>
            obtain ⟨e1, _, e3, _⟩ := d2
            have := e3 v (by simp)
            simp only [Passage.start, Passage.stop]
            omega
      generalize (List.flatMap f (q :: ps)).count t = n2 at *
      generalize (f p).count t = n1 at *
      generalize p.start = u at *
      generalize p.stop = w at *
      omega

theorem count_span_le (a b t : Nat) : (span a b).count t ≤ 1 ∧ (0 < (span a b).count t → a ≤ t ∧ t < b) := by
  rw [count_span]
  split
  · simp_all
  · simp

theorem endingParts_count (t v : Nat) (ts : List Nat) (b : Nat) (h1 : (v :: ts).Pairwise (· < ·))
    (h2 : ∀ s ∈ v :: ts, s < b) :
    (endingParts v ts b).flatten.count t ≤ 1 ∧ (0 < (endingParts v ts b).flatten.count t → v ≤ t ∧ t < b) := by
  induction ts generalizing v with
  | nil => simpa [endingParts] using count_span_le v b t
  | cons w ts ih =>
    have i := ih w (List.pairwise_cons.1 h1).2 (fun s hs => h2 s (by simp [hs]))
    have hw := (List.pairwise_cons.1 h1).1 w (by simp)
    have hb := h2 w (by simp)
    have := count_span_le v w t
    simp only [endingParts, List.flatten_cons, List.count_append]
    omega

theorem flatMap_prefix_count (t : Nat) (p : List Nat) (es : List (List Nat)) :
    (es.flatMap (fun e => p ++ e)).count t = es.length * p.count t + es.flatten.count t := by
  induction es with
  | nil => simp
  | cons e es ih =>
    simp only [List.flatMap_cons, List.count_append, ih, List.flatten_cons, List.length_cons, Nat.add_mul, Nat.one_mul]
    omega

theorem endingParts_length (v : Nat) (ts : List Nat) (b : Nat) : (endingParts v ts b).length = ts.length + 1 := by
  induction ts generalizing v with
  | nil => rfl
  | cons t ts ih => simp [endingParts, ih]

theorem full_count (p : Passage) (t : Nat) (ho : p.Ordered) :
    p.full.count t ≤ 4 ∧ (0 < p.full.count t → p.start ≤ t ∧ t < p.stop) := by
  cases p with
  | plain a b =>
    have := count_span_le a b t
    simp only [Passage.full, Passage.start, Passage.stop]
    omega
  | repeated a b =>
    have := count_span_le a b t
    simp only [Passage.full, Passage.start, Passage.stop, List.count_append]
    omega
  | endings a ts b =>
    cases ts with
    | nil => exact absurd ho (by simp [Passage.Ordered])
    | cons v ts =>
      obtain ⟨o1, o2, o3, o4⟩ := ho
      have hv := o3 v (by simp)
      simp only [Passage.full, Passage.start, Passage.stop, flatMap_prefix_count, endingParts_length]
      have h1 := endingParts_count t v ts b o2 o3
      have h2 := count_span_le a v t
      simp only [List.length_cons] at o4
      generalize (endingParts v ts b).flatten.count t = n1 at *
      generalize (span a v).count t = n2 at *
      have h3 : n2 = 0 ∨ n2 = 1 := by omega
      rcases h3 with h3 | h3
      · subst h3
        omega
      · subst h3
        omega

theorem once_count (p : Passage) (t : Nat) (ho : p.Ordered) :
    p.once.count t ≤ 1 ∧ (0 < p.once.count t → p.start ≤ t ∧ t < p.stop) := by
  cases p with
  | plain a b => exact count_span_le a b t
  | repeated a b => exact count_span_le a b t
  | endings a ts b =>
    cases ts with
    | nil => exact absurd ho (by simp [Passage.Ordered])
    | cons v ts =>
      obtain ⟨o1, o2, o3, o4⟩ := ho
      have hv := o3 v (by simp)
      have h1 := count_span_le a v t
      have h2 := count_span_le ((v :: ts).getLastD v) b t
      have h3 := getLast_ge o2
      have h4 := getLast_lt o3
      simp only [Passage.once, Passage.start, Passage.stop, List.count_append]
      generalize (v :: ts).getLastD v = l at *
      omega

theorem upTo_count (d : Nat) (p : Passage) (t : Nat) (ho : p.Ordered) :
    (p.upTo d).count t ≤ 4 ∧ (0 < (p.upTo d).count t → p.start ≤ t ∧ t < p.stop) := by
  unfold Passage.upTo
  split
  · exact full_count p t ho
  · have := count_span_le p.start d t
    omega

end Klavier
