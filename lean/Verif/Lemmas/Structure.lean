import Verif.Lemmas.RepeatSet
import Verif.Lemmas.Jump

/-! # Marks that do not matter -/
set_option autoImplicit false
namespace Klavier
open Spec

/-- The two bar lines are at the same tick and carry the same marks other than Fine,
Segno and Coda. -/
def SameStructure (x y : Bar) : Prop :=
  x.startTick = y.startTick ∧ ∀ m, m ≠ .Fine → m ≠ .Segno → m ≠ .Coda → (Has x m ↔ Has y m)

namespace SameStructure

variable {x y : Bar} (h : SameStructure x y)
include h

theorem has (m : Repeat) (h1 : m ≠ .Fine := by decide) (h2 : m ≠ .Segno := by decide) (h3 : m ≠ .Coda := by decide) :
    Has x m ↔ Has y m := h.2 m h1 h2 h3

theorem ending : endingNo x = endingNo y := by
  unfold endingNo
  simp only [h.has .Var1, h.has .Var2, h.has .Var3, h.has .Var4]

theorem quiet (m : Mode) : Quiet m x ↔ Quiet m y := by
  cases m <;> simp only [Quiet, h.has .Start, h.has .End, h.has .Dc, h.has .Ds, h.ending]

theorem opens (m : Mode) : OpensEndings m x ↔ OpensEndings m y := by
  cases m <;> simp only [OpensEndings, h.has .Start, h.has .End, h.has .Dc, h.has .Ds, h.ending]

theorem inEnding (k : Nat) : InEnding k x ↔ InEnding k y := by
  simp only [InEnding, h.has .End, h.has .Dc, h.has .Ds, h.ending]

theorem after_eq : after x = after y := by
  simp only [after, h.has .Start]

end SameStructure

theorem Endings_same {f : Bar → Bar} (hf : ∀ x, SameStructure x (f x)) {k : Nat} {bars : List Bar} {ts : List Nat}
    (h : Endings k bars ts) : Endings k (bars.map f) ts := by
  have all : ∀ {k : Nat} {xs : List Bar}, (∀ y ∈ xs, InEnding k y) → ∀ y ∈ xs.map f, InEnding k y := by
    intro k xs h y hy
    obtain ⟨z, hz, rfl⟩ := List.mem_map.1 hy
    exact ((hf z).inEnding k).1 (h z hz)
  induction h with
  | @last k x xs h1 =>
    rw [List.map_cons, (hf x).1]
    exact Endings.last (all h1)
  | @more k x y xs ys ts h1 h2 h3 ih =>
    rw [List.map_cons, List.map_append, List.map_cons, (hf x).1]
    exact Endings.more (all h1) (((hf y).inEnding _).1 h2) ih

theorem Reads_same_segno {f : Bar → Bar} (hf : ∀ x, SameStructure x (f x)) {sg sg' : Option Nat} (hsg : sg' = none ∨ sg' = sg)
    {m : Mode} {a : Nat} {bars : List Bar} {ps : List Passage} (h : Reads sg m a bars ps) : Reads sg' m a (bars.map f) ps := by
  have all : ∀ {m : Mode} {xs : List Bar}, (∀ y ∈ xs, Quiet m y) → ∀ y ∈ xs.map f, Quiet m y := by
    intro m xs h y hy
    obtain ⟨z, hz, rfl⟩ := List.mem_map.1 hy
    exact ((hf z).quiet m).1 (h z hz)
  induction h with
  | last hm hq => exact Reads.last hm (all hq)
  | @start m a inside rest x ps hm hq h1 h2 hr ih =>
    rw [List.map_append, List.map_cons, (hf x).1]
    rw [(hf x).1] at ih
    exact Reads.start hm (all hq) (((hf x).has .Start).1 h1) (fun h => h2 (((hf x).has .End).2 h)) ih
  | @close m a inside rest x ps hm hq h1 hr ih =>
    rw [List.map_append, List.map_cons, (hf x).1]
    rw [(hf x).1, (hf x).after_eq] at ih
    exact Reads.close hm (all hq) (((hf x).has .End).1 h1) ih
  | @endings m a inside es rest v x ts ps hm hq h1 he hok h2 h3 hr ih =>
    rw [List.map_append, List.map_cons, List.map_append, List.map_cons, (hf x).1]
    rw [(hf x).1, (hf x).after_eq] at ih
    refine Reads.endings hm (all hq) (((hf v).opens m).1 h1) ?_ ?_ (fun h => h2 (((hf x).has .End).2 h)) ?_ ih
    · exact Endings_same hf he
    · rcases hsg with rfl | rfl
      · intro s first last h
        cases h
      · exact hok
    · rw [← (hf x).ending]; exact h3

theorem Reads_same {f : Bar → Bar} (hf : ∀ x, SameStructure x (f x)) {sg : Option Nat} {m : Mode} {a : Nat} {bars : List Bar}
    {ps : List Passage} (h : Reads sg m a bars ps) : Reads none m a (bars.map f) ps := Reads_same_segno hf (.inl rfl) h

theorem marks_map {f : Bar → Bar} (hf : ∀ x, SameStructure x (f x)) (bars : List Bar) (m : Repeat) (h1 : m ≠ .Fine)
    (h2 : m ≠ .Segno) (h3 : m ≠ .Coda) : marks (bars.map f) m = marks bars m := by
  induction bars with
  | nil => rfl
  | cons x xs ih =>
    have e : x.repeats.contains m = (f x).repeats.contains m := by
      rw [Bool.eq_iff_iff]
      exact (hf x).2 m h1 h2 h3
    simp only [marks, List.map_cons, List.filter_cons] at ih ⊢
    rw [← e]
    split
    · rw [List.map_cons, List.map_cons, ih, (hf x).1]
    · exact ih

end Klavier
