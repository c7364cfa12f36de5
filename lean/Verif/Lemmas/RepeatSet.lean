import Verif.Spec.RepeatSet

set_option autoImplicit false
namespace Klavier
open Spec

instance Repeat.decForall {p : Repeat → Prop} [DecidablePred p] : Decidable (∀ r, p r) :=
  decidable_of_iff (p .Start ∧ p .End ∧ p .Dc ∧ p .Fine ∧ p .Ds ∧ p .Segno ∧ p .Coda ∧
      p .Var1 ∧ p .Var2 ∧ p .Var3 ∧ p .Var4)
    ⟨fun ⟨a, b, c, d, e, f, g, h, i, j, k⟩ r => by cases r <;> assumption,
     fun h => ⟨h _, h _, h _, h _, h _, h _, h _, h _, h _, h _, h _⟩⟩

theorem RepeatSet.ext_contains {s t : RepeatSet} (h : ∀ r, s.contains r = t.contains r) : s = t := by
  cases s; cases t
  simp only [RepeatSet.mk.injEq]
  exact ⟨h .Start, h .End, h .Dc, h .Fine, h .Ds, h .Segno, h .Coda, h .Var1, h .Var2, h .Var3, h .Var4⟩

theorem contains_set (s : RepeatSet) (r x : Repeat) (b : Bool) :
    (s.set r b).contains x = if x = r then b else s.contains x := by
  cases r <;> cases x <;> rfl

theorem contains_inter (s t : RepeatSet) (x : Repeat) :
    (s.inter t).contains x = (s.contains x && t.contains x) := by
  cases x <;> rfl

theorem contains_EMPTY (x : Repeat) : RepeatSet.EMPTY.contains x = false := by cases x <;> rfl

theorem eq_EMPTY_iff (s : RepeatSet) : s = .EMPTY ↔ ∀ x, s.contains x = false := by
  constructor
  · rintro rfl x; exact contains_EMPTY x
  · intro h; exact RepeatSet.ext_contains (fun r => by rw [h, contains_EMPTY])

/-- The dislike set used by `tryAdd`. -/
def dislikeOf : Repeat → RepeatSet
  | .Start => .START_DISLIKE
  | .End => .END_DISLIKE
  | .Dc => .DC_DISLIKE
  | .Fine => .EMPTY
  | .Ds => .DS_DISLIKE
  | .Segno => .EMPTY
  | .Coda => .EMPTY
  | .Var1 => .REGION1_DISLIKE
  | .Var2 => .REGION2_DISLIKE
  | .Var3 => .REGION3_DISLIKE
  | .Var4 => .REGION4_DISLIKE

theorem tryAdd_eq (s : RepeatSet) (r : Repeat) : s.tryAdd r = s.tryAddRepeat (dislikeOf r) r := by
  cases r <;> rfl

theorem dislikeOf_contains (r x : Repeat) : (dislikeOf r).contains x = refuses r x := by
  cases r <;> cases x <;> rfl

theorem tryAdd_ok_iff (s s' : RepeatSet) (r : Repeat) :
    s.tryAdd r = .ok s' ↔ s' = s.set r true ∧ ∀ x, s.contains x = true → refuses r x = false := by
  rw [tryAdd_eq]
  simp only [RepeatSet.tryAddRepeat, eq_EMPTY_iff, contains_inter, dislikeOf_contains]
  split
  · next h =>
    constructor
    · intro e
      cases e
      refine ⟨rfl, fun x hx => ?_⟩
      have := h x
      simpa [hx] using this
    · rintro ⟨rfl, -⟩; rfl
  · next h =>
    constructor
    · intro e; cases e
    · rintro ⟨-, h'⟩
      exfalso; apply h
      intro x
      cases hx : s.contains x
      · simp
      · simp [h' x hx]

theorem refuses_self (r : Repeat) : refuses r r = false := by cases r <;> rfl

end Klavier
