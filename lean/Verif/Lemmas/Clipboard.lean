import Verif.Model.Clipboard
import Verif.Spec.Clipboard
import Verif.Lemmas.Basic

/-! # Lemmas about moving a selection -/
set_option autoImplicit false
namespace Klavier
namespace Models

theorem smallest_spec (l : List Nat) : ∀ s, smallest l s ≤ s ∧ (∀ t ∈ l, smallest l s ≤ t) ∧
    (smallest l s = s ∨ smallest l s ∈ l) := by
  induction l with
  | nil => intro s; simp [smallest]
  | cons a l ih =>
    intro s
    have h := ih (min a s)
    have e : smallest (a :: l) s = smallest l (min a s) := rfl
    rw [e]
    refine ⟨by omega, ?_, ?_⟩
    · intro t ht
      rcases List.mem_cons.1 ht with rfl | ht
      · omega
      · exact h.2.1 t ht
    · rcases h.2.2 with h2 | h2
      · by_cases has : a ≤ s
        · right; rw [h2, Nat.min_eq_left has]; simp
        · left; rw [h2]; omega
      · exact .inr (List.mem_cons_of_mem _ h2)

theorem smallest_append (l r : List Nat) (s : Nat) : smallest (l ++ r) s = smallest r (smallest l s) := by
  simp [smallest, List.foldl_append]

theorem smallestTick_eq (m : Models) : m.smallestTick = smallest m.ticks U32_MAX := by
  simp [smallestTick, ticks, smallest_append]

theorem smallestTick_earliest (m : Models) (f : Nat) (h : Earliest m.ticks f) (hb : ∀ t ∈ m.ticks, t ≤ U32_MAX) :
    m.smallestTick = f := by
  rw [smallestTick_eq]
  obtain ⟨h1, h2, h3⟩ := smallest_spec m.ticks U32_MAX
  have a := h2 f h.1
  have c := hb f h.1
  rcases h3 with h3 | h3
  · omega
  · have b := h.2 _ h3
    omega

theorem moveToTick_ticks (m : Models) (tick : Nat) (hb : ∀ t ∈ m.ticks, t ≤ U32_MAX) :
    (m.moveToTick tick).ticks = m.ticks.map (fun (t : Nat) => asU32 ((t : Int) + ((tick : Int) - m.smallestTick))) := by
  unfold moveToTick
  simp only
  split
  · rename_i h
    rw [h]
    refine (List.map_congr_left (f := id) ?_).symm.trans ?_ |>.symm
    · intro a ha
      have := asU32_of_range (x := (a : Int) + 0) (by omega) (by have := hb a ha; omega)
      simp only [id]; omega
    · simp
  · simp [ticks, Function.comp_def]

theorem moveToTick_same (m : Models) (tick : Nat) : m.SameButTicks (m.moveToTick tick) := by
  unfold moveToTick
  simp only
  split
  · exact ⟨rfl, rfl, rfl, rfl, rfl⟩
  · constructor <;> simp [Function.comp_def]

end Models
end Klavier
