import Verif.Lemmas.Steps
import Verif.Lemmas.Places
import Verif.Spec.Moving

/-! # Lemmas for C84 -/
set_option autoImplicit false
namespace Klavier
open Spec
namespace Project

theorem shift_lt {d : Int} {a b : Nat} (ha : 0 ≤ (a : Int) + d) : shift d a < shift d b ↔ a < b := by
  simp only [shift]; omega

theorem shift_le {d : Int} {a b : Nat} (hb : 0 ≤ (b : Int) + d) : shift d a ≤ shift d b ↔ a ≤ b := by
  simp only [shift]; omega

theorem asU32_shift {d : Int} {t : Nat} (h : Fits d t) : asU32 ((t : Int) + d) = shift d t := by
  obtain ⟨-, -, h1, h2⟩ := h
  simp only [asU32, shift, U32_MAX] at *
  omega

theorem fits_back {d : Int} {t : Nat} (h : Fits d t) : Fits (-d) (shift d t) ∧ shift (-d) (shift d t) = t := by
  obtain ⟨h1, h2, h3, h4⟩ := h
  simp only [Fits, shift, U32_MAX] at *
  omega

theorem start_exact {n : Note} (h1 : 0 ≤ (n.baseStartTick : Int) + n.startTickTrimmer.sum)
    (h2 : (n.baseStartTick : Int) + n.startTickTrimmer.sum ≤ U32_MAX) :
    (n.startTick : Int) = n.baseStartTick + n.startTickTrimmer.sum := by
  simp only [U32_MAX] at h2
  rw [Note.startTick]
  rw [if_neg (by omega), asU32]
  omega

theorem start_fits {d : Int} {n : Note} (h : Fits d (n.baseStartTick + n.startTickTrimmer.sum)) : Fits d n.startTick := by
  rw [start_exact h.1 h.2.1]
  exact h

theorem start_moved {d : Int} {n : Note} (h : Fits d (n.baseStartTick + n.startTickTrimmer.sum)) (hb : Fits d n.baseStartTick) :
    ({ n with baseStartTick := shift d n.baseStartTick } : Note).startTick = shift d n.startTick := by
  have e1 := start_exact h.1 h.2.1
  have b3 := hb.2.2.1
  have h3 := h.2.2.1
  have h4 := h.2.2.2
  have e2 := start_exact (n := { n with baseStartTick := shift d n.baseStartTick })
    (by simp only [shift]; omega) (by simp only [shift]; omega)
  simp only [shift] at e2 ⊢
  omega

/-- The bar line `d` later. -/
def barTo (d : Int) (v : Bar) : Bar := { v with startTick := shift d v.startTick }
/-- The tempo `d` later. -/
def tempoTo (d : Int) (v : Tempo) : Tempo := { v with startTick := shift d v.startTick }
/-- The pedal `d` later. -/
def pedalTo (d : Int) (v : CtrlChg) : CtrlChg := { v with startTick := shift d v.startTick }
/-- The note `d` later. -/
def noteTo (d : Int) (v : Note) : Note := { v with baseStartTick := shift d v.baseStartTick }

section
variable {V : Type}

/-- The store with everything `d` later. -/
def later (d : Int) (f : V → V) (s : List (Nat × V)) : List (Nat × V) := s.map (fun q => (shift d q.1, f q.2))

theorem mem_later {d : Int} {f : V → V} {s : List (Nat × V)} {q : Nat × V} (h : q ∈ later d f s) :
    ∃ r ∈ s, q = (shift d r.1, f r.2) := by
  obtain ⟨r, h1, h2⟩ := List.mem_map.1 h
  exact ⟨r, h1, h2.symm⟩

theorem later_mem {d : Int} {f : V → V} {s : List (Nat × V)} {r : Nat × V} (h : r ∈ s) : (shift d r.1, f r.2) ∈ later d f s :=
  List.mem_map.2 ⟨r, h, rfl⟩

theorem sorted_later {d : Int} (f : V → V) {s : Store V} (hs : SortedStore s) (hf : ∀ q ∈ s, Fits d q.1) : SortedStore (later d f s) := by
  refine List.pairwise_map.2 (List.Pairwise.imp_of_mem (fun {a b} ha _ h => ?_) hs)
  exact (shift_lt (hf a ha).2.2.1).2 h

theorem store_moved (tick : V → Nat) {d : Int} (f : V → V) {s : Store V} (hs : SortedStore s) (hk : Keyed tick s)
    (hf : ∀ q ∈ s, Fits d q.1) (htick : ∀ q ∈ s, tick (f q.2) = shift d (tick q.2)) (l : List (V × V))
    (hp : (l.map (·.1)).Perm (s.map (·.2))) (hl : ∀ e ∈ l, (∃ q ∈ s, q.2 = e.1) → e.2 = f e.1) :
    addItems tick (removeItems tick s (l.map (·.1))) (l.map (·.2)) = later d f s := by
  have from_mem : ∀ e ∈ l, ∃ q ∈ s, q.2 = e.1 := by
    intro e he
    have := hp.mem_iff.1 (List.mem_map.2 ⟨e, he, rfl⟩)
    exact List.mem_map.1 this
  have hsorted := sorted_later f hs hf
  refine Store.ext (sorted_addItems _ (sorted_removeItems _ hs _) _) hsorted ?_
  intro k
  rw [get?_one tick hs]
  cases hw : lastWith tick (l.map (·.2)) k with
  | some v =>
    obtain ⟨g1, rfl⟩ := lastWith_some hw
    obtain ⟨e, he, rfl⟩ := List.mem_map.1 g1
    obtain ⟨q, hq, hqe⟩ := from_mem e he
    have hv := hl e he ⟨q, hq, hqe⟩
    have hm := later_mem (d := d) (f := f) hq
    rw [(hk q hq).1, hqe, ← hv, ← show tick e.2 = shift d (tick e.1) by rw [hv, ← hqe]; exact htick q hq] at hm
    exact (Store.get?_of_mem hsorted hm).symm
  | none =>
    have hnone : Store.get? (later d f s) k = none := by
      cases hg : Store.get? (later d f s) k with
      | none => rfl
      | some v =>
        obtain ⟨r, hr, hr'⟩ := mem_later (Store.mem_of_get? hg)
        obtain ⟨hk1, rfl⟩ := Prod.mk.inj hr'
        obtain ⟨e, he, he'⟩ := List.mem_map.1 (hp.mem_iff.2 (List.mem_map.2 ⟨r, hr, rfl⟩))
        have hv := hl e he ⟨r, hr, he'.symm⟩
        have : (lastWith tick (l.map (·.2)) k).isSome = true := by
          refine isSome_lastWith.2 ⟨e.2, List.mem_map.2 ⟨e, he, rfl⟩, ?_⟩
          rw [hv, he', htick r hr, hk1, (hk r hr).1]
        rw [hw] at this
        cases this
    rw [hnone]
    cases hs' : s.get? k with
    | none => simp
    | some v =>
      have hm := Store.mem_of_get? hs'
      have : (lastWith tick (l.map (·.1)) k).isSome = true := by
        refine isSome_lastWith.2 ⟨v, hp.mem_iff.2 (List.mem_map.2 ⟨_, hm, rfl⟩), (hk _ hm).1.symm⟩
      simp [this]

theorem latest_later {α : Type} {sel : V → Option α} {f : V → V} {d : Int} {s : Store V} (hf : ∀ v, sel (f v) = sel v) {t : Nat}
    (ht : 0 ≤ (t : Int) + d) (hs : ∀ q ∈ s, Fits d q.1) {a b : α} (h : LatestValue s sel b t a) :
    LatestValue (later d f s) sel b (shift d t) a := by
  rcases h with ⟨h1, h2⟩ | ⟨q, hq, h1, h2, h3⟩
  · refine .inl ⟨?_, h2⟩
    intro q hq hqt
    obtain ⟨r, hr, rfl⟩ := mem_later hq
    simp only [hf]
    exact h1 r hr ((shift_le ht).1 hqt)
  · refine .inr ⟨_, later_mem hq, (shift_le ht).2 h1, by simp only [hf]; exact h2, ?_⟩
    intro r hr hrt hne
    obtain ⟨u, hu, rfl⟩ := mem_later hr
    simp only [hf] at hne
    exact (shift_le (hs q hq).2.2.1).2 (h3 u hu ((shift_le ht).1 hrt) hne)

theorem split_later {f : V → V} {d : Int} {s : Store V} {t n : Nat} (ht : 0 ≤ (t : Int) + d) (h : SplitAt s t n) :
    SplitAt (later d f s) (shift d t) n := by
  obtain ⟨h1, h2, h3⟩ := h
  refine ⟨by simpa [later] using h1, ?_, ?_⟩
  · intro q hq
    rw [later, ← List.map_take] at hq
    obtain ⟨r, hr, rfl⟩ := List.mem_map.1 hq
    exact (shift_le ht).2 (h2 r hr)
  · intro q hq
    rw [later, ← List.map_drop] at hq
    obtain ⟨r, hr, rfl⟩ := List.mem_map.1 hq
    exact (shift_lt ht).2 (h3 r hr)

end

theorem removeNotes_all (s : Bag Note) (l : List Note) (h : (l.map (fun n => (n.startTick, n))).Perm s) : removeNotes s l = [] := by
  induction l generalizing s with
  | nil => exact (List.nil_perm.1 h)
  | cons n l ih => exact ih _ (List.cons_perm_iff_perm_erase.1 h).2

end Project
end Klavier
