import Verif.Props.Chunk
import Verif.Props.Render

/-! # Start positions against the moments of playing -/
set_option autoImplicit false
namespace Klavier
open Spec

/-- The entries of the index whose chunk contains a tick. -/
def hitList (t o : Nat) : List Chunk → List (Nat × Chunk)
  | [] => []
  | c :: cs =>
    if c.startTick ≤ t ∧ t < c.endTick then (o, c) :: hitList t (o + (c.endTick - c.startTick)) cs
    else hitList t (o + (c.endTick - c.startTick)) cs

theorem accumIndex_hits (t : Nat) (cs : List Chunk) : ∀ o,
    (accumIndex o cs).filter (fun e => decide (e.2.startTick ≤ t ∧ t < e.2.endTick)) = hitList t o cs := by
  induction cs with
  | nil => intro o; rfl
  | cons c cs ih =>
    intro o
    cases cs with
    | nil =>
      by_cases h : c.startTick ≤ t ∧ t < c.endTick <;> simp [accumIndex, hitList, h]
    | cons d ds =>
      simp only [accumIndex]
      rw [hitList]
      by_cases h : c.startTick ≤ t ∧ t < c.endTick
      · rw [if_pos h, if_pos (by omega), List.filter_cons_of_pos (by simpa using h), ih]
      · rw [if_neg h]
        by_cases hl : c.startTick < c.endTick
        · rw [if_pos hl, List.filter_cons_of_neg (by simpa using h), ih]
        · rw [if_neg hl, ih]
          have : c.endTick - c.startTick = 0 := by omega
          rw [this, Nat.add_zero]

/-- The same positions, found from entries that begin no later. -/
def SameHits (t : Nat) (l l' : List (Nat × Chunk)) : Prop :=
  l'.length = l.length ∧ ∀ (i : Nat) (e e' : Nat × Chunk), l[i]? = some e → l'[i]? = some e' →
    e'.1 ≤ e.1 ∧ e'.1 + t - e'.2.startTick = e.1 + t - e.2.startTick

theorem SameHits.refl (t : Nat) (l : List (Nat × Chunk)) : SameHits t l l :=
  ⟨rfl, fun i e e' h h' => by rw [h] at h'; cases h'; exact ⟨Nat.le_refl _, rfl⟩⟩

theorem SameHits.trans {t : Nat} {a b c : List (Nat × Chunk)} (h : SameHits t a b) (k : SameHits t b c) :
    SameHits t a c := by
  refine ⟨k.1.trans h.1, fun i e e' he he' => ?_⟩
  obtain ⟨hlt, _⟩ := List.getElem?_eq_some_iff.1 he
  have hb : i < b.length := by rw [h.1]; exact hlt
  have h1 := h.2 i e b[i] he (List.getElem?_eq_getElem hb)
  have h2 := k.2 i b[i] e' (List.getElem?_eq_getElem hb) he'
  exact ⟨Nat.le_trans h2.1 h1.1, h2.2.trans h1.2⟩

theorem SameHits.cons {t : Nat} {a b : List (Nat × Chunk)} {e e' : Nat × Chunk} (h : SameHits t a b)
    (h1 : e'.1 ≤ e.1) (h2 : e'.1 + t - e'.2.startTick = e.1 + t - e.2.startTick) : SameHits t (e :: a) (e' :: b) := by
  refine ⟨by simp [h.1], fun i x x' hx hx' => ?_⟩
  cases i with
  | zero =>
    simp only [List.getElem?_cons_zero, Option.some.injEq] at hx hx'
    subst hx hx'
    exact ⟨h1, h2⟩
  | succ i =>
    rw [List.getElem?_cons_succ] at hx hx'
    exact h.2 i x x' hx hx'

theorem hitList_merge (t : Nat) (cs : List Chunk) : ∀ (c : Chunk) (o : Nat), (∀ x ∈ c :: cs, x.startTick ≤ x.endTick) →
    SameHits t (hitList t o (c :: cs)) (hitList t o (Chunk.optimizeFrom c cs)) := by
  induction cs with
  | nil => intro c o _; exact SameHits.refl _ _
  | cons d cs ih =>
    intro c o hwf
    have hc := hwf c (by simp)
    have hd := hwf d (by simp)
    rw [Chunk.optimizeFrom]
    by_cases he : c.endTick = d.startTick
    · rw [if_pos he]
      refine SameHits.trans ?_ (ih ⟨c.startTick, d.endTick⟩ o (fun x hx => ?_))
      · have e2 : o + (c.endTick - c.startTick) + (d.endTick - d.startTick) = o + (d.endTick - c.startTick) := by omega
        simp only [hitList, e2]
        by_cases h1 : c.startTick ≤ t ∧ t < c.endTick
        · rw [if_pos h1, if_neg (by omega), if_pos (by omega)]
          exact (SameHits.refl _ _).cons (Nat.le_refl _) rfl
        · rw [if_neg h1]
          by_cases h2 : d.startTick ≤ t ∧ t < d.endTick
          · rw [if_pos h2, if_pos (by omega)]
            exact (SameHits.refl _ _).cons (by simp only; omega) (by simp only; omega)
          · rw [if_neg h2, if_neg (by omega)]
            exact SameHits.refl _ _
      · rcases List.mem_cons.1 hx with rfl | hx
        · simp only; omega
        · exact hwf x (by simp [hx])
    · rw [if_neg he]
      have := ih d (o + (c.endTick - c.startTick)) (fun x hx => hwf x (List.mem_cons_of_mem _ hx))
      have hx : ∀ l, hitList t o (c :: l) = if c.startTick ≤ t ∧ t < c.endTick then
          (o, c) :: hitList t (o + (c.endTick - c.startTick)) l else hitList t (o + (c.endTick - c.startTick)) l := fun _ => rfl
      rw [hx (d :: cs), hx]
      by_cases h1 : c.startTick ≤ t ∧ t < c.endTick
      · rw [if_pos h1, if_pos h1]
        exact this.cons (Nat.le_refl _) rfl
      · rw [if_neg h1, if_neg h1]
        exact this

theorem hitList_optimize (t o : Nat) (cs : List Chunk) (hwf : ∀ x ∈ cs, x.startTick ≤ x.endTick) :
    SameHits t (hitList t o cs) (hitList t o (Chunk.optimize cs)) := by
  cases cs with
  | nil => exact SameHits.refl _ _
  | cons c cs => exact hitList_merge t cs c o hwf

/-- The length of the closed chunks. -/
def closedLength (cs : List Chunk) : Nat :=
  ((cs.filter (fun c => c.endTick ≠ U32_MAX)).map (fun c => c.endTick - c.startTick)).sum

theorem closedLength_cons (c : Chunk) (cs : List Chunk) :
    closedLength (c :: cs) = (if c.endTick ≠ U32_MAX then c.endTick - c.startTick else 0) + closedLength cs := by
  unfold closedLength
  by_cases h : c.endTick ≠ U32_MAX
  · rw [List.filter_cons_of_pos (by simpa using h), if_pos h]; simp
  · rw [List.filter_cons_of_neg (by simpa using h), if_neg h]; simp

theorem closedLength_merge (cs : List Chunk) : ∀ c : Chunk, ChunksOk (c :: cs) →
    closedLength (Chunk.optimizeFrom c cs) ≤ closedLength (c :: cs) := by
  induction cs with
  | nil => intro c _; exact Nat.le_refl _
  | cons d cs ih =>
    intro c hok
    obtain ⟨h1, h2⟩ := hok
    have hc := h1 c (by simp)
    have hd := h1 d (by simp)
    have hm : c.endTick ≠ U32_MAX := h2 c (by simp)
    rw [List.dropLast_cons_cons] at h2
    have hok' : ChunksOk (d :: cs) := ⟨fun x hx => h1 x (List.mem_cons_of_mem _ hx), fun x hx => h2 x (List.mem_cons_of_mem _ hx)⟩
    rw [Chunk.optimizeFrom]
    by_cases he : c.endTick = d.startTick
    · rw [if_pos he]
      refine Nat.le_trans (ih ⟨c.startTick, d.endTick⟩ ⟨fun x hx => ?_, fun x hx => ?_⟩) ?_
      · rcases List.mem_cons.1 hx with rfl | hx
        · simp only; omega
        · exact hok'.1 x (by simp [hx])
      · cases cs with
        | nil => simp at hx
        | cons y ys =>
          rw [List.dropLast_cons_cons] at hx
          rcases List.mem_cons.1 hx with rfl | hx
          · exact hok'.2 d (by simp)
          · exact hok'.2 x (by rw [List.dropLast_cons_cons]; exact List.mem_cons_of_mem _ hx)
      · rw [closedLength_cons, closedLength_cons, closedLength_cons, if_pos hm]
        simp only
        by_cases hdm : d.endTick ≠ U32_MAX
        · rw [if_pos hdm, if_pos hdm]; omega
        · rw [if_neg hdm, if_neg hdm]; omega
    · rw [if_neg he, closedLength_cons, closedLength_cons c (d :: cs)]
      exact Nat.add_le_add_left (ih d hok') _

/-- The index is known if there is one. -/
theorem byAccumTick_index {cs : List Chunk} (h : ChunksOk cs) {idx : Store Chunk} (hidx : Chunk.byAccumTick cs = .ok idx) :
    idx = accumIndex 0 cs ∧ closedLength cs ≤ U32_MAX := by
  obtain ⟨h1, h2⟩ := byAccumLoop_eq cs 0 [] none (by simp) h (by simp)
  simp only [Option.map_none, Option.toList_none, List.append_nil, List.nil_append, Nat.zero_add] at h1 h2
  rw [Chunk.byAccumTick] at hidx
  by_cases ht : closedLength cs ≤ U32_MAX
  · have := h1 ht
    rw [this] at hidx
    cases hidx
    exact ⟨rfl, ht⟩
  · have := h2 (by decide) (Nat.lt_of_not_le ht)
    rw [this] at hidx
    cases hidx

theorem byAccumTick_exists {cs : List Chunk} (h : ChunksOk cs) (ht : closedLength cs ≤ U32_MAX) :
    Chunk.byAccumTick cs = .ok (accumIndex 0 cs) := by
  obtain ⟨h1, _⟩ := byAccumLoop_eq cs 0 [] none (by simp) h (by simp)
  simp only [Option.map_none, Option.toList_none, List.append_nil, List.nil_append, Nat.zero_add] at h1
  exact h1 ht

/-- A later occurrence is later. -/
theorem occurrence_lt {l : List Nat} {t k k' p p' : Nat} (h : IsOccurrence l t k p) (h' : IsOccurrence l t k' p')
    (hk : k < k') : p < p' := by
  rcases Nat.lt_or_ge p p' with hlt | hge
  · exact hlt
  · exfalso
    have e : l.take p = l.take p' ++ (l.drop p').take (p - p') := by
      have := List.take_add (l := l) (i := p') (j := p - p')
      rwa [Nat.add_sub_cancel' hge] at this
    have h1 := h.2
    rw [e, List.count_append] at h1
    have h2 := h'.2
    omega

/-- What an answer means: with an iteration from 1 to 5, an answer `p` is the
position of that occurrence of the tick. -/
theorem answer_occurrence {cs : List Chunk} (hok : ChunksOk cs) {idx : Store Chunk} (hidx : Chunk.byAccumTick cs = .ok idx)
    {t k p : Nat} (h1 : 1 ≤ k) (h5 : k ≤ 5) (h : (PlayStartTick.new t k).toAccumTick idx = .ok (.ok p)) :
    IsOccurrence (played cs) t k p := by
  obtain ⟨a, b⟩ := C36_position_partial cs hok idx hidx t k
  have hk : max 1 (min k 5) = k := by omega
  rw [hk] at a b
  by_cases hn : k ≤ (played cs).count t
  · obtain ⟨q, i, d, q1, _, q3, q4⟩ := a hn
    by_cases ho : q + d.startTick ≤ U32_MAX
    · rw [q3 ho] at h
      cases h
      exact q1
    · rw [q4 (Nat.lt_of_not_le ho)] at h
      cases h
  · rw [b (Nat.lt_of_not_le hn)] at h
    cases h

end Klavier
