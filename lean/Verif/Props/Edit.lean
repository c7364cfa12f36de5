import Verif.Lemmas.EditOutcome
import Verif.Props.Project

/-! # C65: what an edit leaves in the project -/
set_option autoImplicit false
namespace Klavier
open Spec Project

private def after (p : Project) (e : Edit) : Option Project :=
  match p.exec e with
  | .ok (some (p', _)) => some p'
  | _ => none

/-- C65: setting the signature, key or grid changes that one setting to the given
value and nothing else. -/
theorem C65_settings (p : Project) :
    (∀ r, ∃ c, p.exec (.setRhythm r) = .ok (some ({ p with rhythm := r }, c))) ∧
    (∀ k, ∃ c, p.exec (.setKey k) = .ok (some ({ p with key := k }, c))) ∧
    (∀ g, ∃ c, p.exec (.setGrid g) = .ok (some ({ p with grid := g }, c))) :=
  ⟨fun _ => ⟨_, rfl⟩, fun _ => ⟨_, rfl⟩, fun _ => ⟨_, rfl⟩⟩

example : (after exampleProject (.setKey ⟨-3⟩)).map (fun p => (p.key, p.rhythm, p.bars == exampleProject.bars)) =
    some (⟨-3⟩, exampleProject.rhythm, true) := by decide +kernel

/-- C65: an edit is refused without effect exactly when it is a tuplet of fewer than
two notes. -/
theorem C65_refused (p : Project) (e : Edit) :
    p.exec e = .ok none ↔ ∃ ns, e = .tuplize ns ∧ ns.length < 2 := by
  constructor
  · intro h
    cases e with
    | tuplize ns =>
      refine ⟨ns, rfl, ?_⟩
      simp only [exec, tuplize] at h
      split at h
      · simp only [R_bind_eq_ok] at h
        obtain ⟨_, _, _, _, h⟩ := h
        cases h
      · omega
    | setRhythm r => simp [exec] at h
    | setKey r => simp [exec] at h
    | setGrid r => simp [exec] at h
    | addBar r => simp [exec] at h
    | bulkRemove r => simp [exec] at h
    | addNote n sel | addTempo n sel | addDumper n sel | addSoft n sel | bulkAdd n sel | change n sel =>
      simp only [exec, R_bind_eq_ok] at h
      obtain ⟨_, _, h⟩ := h
      cases h
  · rintro ⟨ns, rfl, h⟩
    simp only [exec, tuplize, if_neg (show ¬ 1 < ns.length by omega)]
    rfl

example : Project.exec exampleProject (.tuplize [exampleNote]) = .ok none := rfl

/-- C65: adding a bar and removing a selection always succeed, and leave exactly the
edited project. -/
theorem C65_plain (p : Project) (e : Edit) (h : WF p) (ht : EditTicks32 e) (hs : Setting e = false)
    (hc : AddsContent e = false) :
    ∃ q c, Edited p e (introduced e).notes q ∧ p.exec e = .ok (some (q, c)) := by
  have hN : NewNotes (introduced e).notes e := by
    cases e <;> first | rfl | simp [AddsContent] at hc
  obtain ⟨c, hx⟩ := (exec_eq p e _ hN hs).1 hc
  exact ⟨_, c, swap_edited h e _ ht, hx⟩

/-- A removal naming an item by its tick and one not there. -/
example : (after exampleProject (.bulkRemove { tempos := [⟨20, ⟨1⟩⟩], bars := [{ startTick := 3 }] } {})).map
    (fun p => (p.bars.map (·.1), p.tempos, p.notes.map (·.1))) =
    some ([100, 1000, 2000], [(10, ⟨10, ⟨100⟩⟩)], [100, 1200]) := by decide +kernel

/-- C65: every other edit makes the edited project, whose bars are then completed:
it fails when a note ends beyond the 32-bit range, when bars of length zero are to be
added, or when the bars needed run out of range; otherwise it leaves the edited
project followed by the fewest plain bars reaching the end of its content. -/
theorem C65_content (p : Project) (e : Edit) (N : List Note) (h : WF p) (ht : EditTicks32 e)
    (hc : AddsContent e = true) (hN : NewNotes N e) (hv : ValidNotes p) (hvN : ∀ n ∈ N, ValidLength n) :
    ∃ q, Edited p e N q ∧ ∀ r, LatestValue q.bars Bar.rhythm p.rhythm (lastBarTick q.bars) r →
    ((∃ x ∈ q.notes, ∃ l, x.2.tickLen = .ok l ∧ U32_MAX < x.1 + l) ∧ p.exec e = .error .overflow) ∨
    (CoveredUpTo q (lastBarTick q.bars) ∧ ∃ c, p.exec e = .ok (some (q, c))) ∨
    (¬ CoveredUpTo q (lastBarTick q.bars) ∧ r.tickLen = 0 ∧ p.exec e = .error .diverge) ∨
    ∃ k, 0 < r.tickLen ∧ 0 < k ∧ CoveredUpTo q (lastBarTick q.bars + k * r.tickLen) ∧
      (∀ j < k, ¬ CoveredUpTo q (lastBarTick q.bars + j * r.tickLen)) ∧
      (lastBarTick q.bars + k * r.tickLen ≤ U32_MAX → ∃ c, p.exec e =
        .ok (some ({ q with bars := q.bars ++
          (regularBars (lastBarTick q.bars) r.tickLen k).map (fun b => (b.startTick, b)) }, c))) ∧
      (U32_MAX < lastBarTick q.bars + k * r.tickLen → p.exec e = .error .overflow) := by
  have hs : Setting e = false := by
    cases e <;> first | rfl | simp [AddsContent] at hc
  obtain ⟨c, hx⟩ := (exec_eq p e N hN hs).2 hc
  have hE := swap_edited h e N ht
  generalize p.swap (withdrawn e) { introduced e with notes := N } = q at hx hE
  refine ⟨q, hE, ?_⟩
  intro r hr
  have hvq : ValidNotes q := by
    intro x hxq
    have h1 : 0 < (q.notes.map (·.2)).count x.2 := List.count_pos_iff.2 (List.mem_map.2 ⟨x, hxq, rfl⟩)
    rw [hE.notes] at h1
    by_cases h2 : 0 < N.count x.2
    · exact hvN _ (List.count_pos_iff.1 h2)
    · have h3 : 0 < (p.notes.map (·.2)).count x.2 := by omega
      obtain ⟨y, hy, hye⟩ := List.mem_map.1 (List.count_pos_iff.1 h3)
      rw [← hye]
      exact hv y hy
  rw [← hE.rhythm] at hr
  rcases C18_complete q hE.wf hvq r hr with ⟨h1, h2⟩ | ⟨h1, h2⟩ | ⟨h1, h2, h3⟩ | ⟨k, h1, h2, h3, h4, h5, h6⟩
  · refine .inl ⟨h1, ?_⟩
    rw [hx, h2]; rfl
  · refine .inr (.inl ⟨h1, c [], ?_⟩)
    rw [hx, h2]; rfl
  · refine .inr (.inr (.inl ⟨h1, h2, ?_⟩))
    rw [hx, h3]; rfl
  · refine .inr (.inr (.inr ⟨k, h1, h2, h3, h4, fun h => ⟨c (regularBars (lastBarTick q.bars) r.tickLen k), ?_⟩, fun h => ?_⟩))
    · rw [hx, h5 h]; rfl
    · rw [hx, h6 h]; rfl

/-- A tempo beyond the last bar. -/
example : (after exampleProject (.addTempo ⟨2481, ⟨90⟩⟩ false)).map (fun p => (p.bars.map (·.1), p.tempos)) =
    some ([100, 1000, 2000, 2480, 2960], [(10, ⟨10, ⟨100⟩⟩), (20, ⟨20, ⟨200⟩⟩), (2481, ⟨2481, ⟨90⟩⟩)]) := by
  decide +kernel

/-- C65: a tuplet that cannot be computed fails the same way. -/
theorem C65_tuplet_error (p : Project) (ns : List Note) (x : Panic) (h : 1 < ns.length)
    (hx : Tuple.tuplize ns = .error x) : p.exec (.tuplize ns) = .error x := by
  simp only [exec, tuplize, if_pos h, hx]
  rfl

/-- 256 notes of the same length. -/
example : exampleProject.exec (.tuplize ((List.range 256).map (fun i => { exampleNote with baseStartTick := 480 * i }))) = .error .unwrap :=
  C65_tuplet_error _ _ _ (by decide +kernel) (by decide +kernel)

end Klavier
