import Verif.Lemmas.Structure
import Verif.Props.Jump

/-! # C57: the documented structure rules

docs/repeat/structure.md:26-32 and 72: which of them rendering sees to. -/
set_option autoImplicit false
namespace Klavier
open Spec

/-- What rendering does enforce. In every score that is rendered there is at most
one jump, Fine and Segno, and at most two Codas; a D.S. has exactly one Segno, and
no or two Codas; and with a jump and two Codas both are at or before Fine, the
first before it. -/
theorem C57_enforced_partial (ip : Bool) (tune : Rhythm) (bars : List Bar) (hb : BarsOk bars) (c : CompoundRegion)
    (w : List RenderRegionWarning) (h : renderRegion ip tune bars = .ok (c, w)) :
    (marks bars .Dc).length + (marks bars .Ds).length ≤ 1 ∧ (marks bars .Fine).length ≤ 1 ∧ (marks bars .Segno).length ≤ 1 ∧
    (marks bars .Coda).length ≤ 2 ∧
    (marks bars .Ds ≠ [] → (marks bars .Segno).length = 1 ∧ ((marks bars .Coda).length = 0 ∨ (marks bars .Coda).length = 2)) ∧
    ∀ d target leave resume fine, Jump tune bars d target → marks bars .Coda = [leave, resume] → fine ∈ marks bars .Fine →
      leave < fine ∧ resume ≤ fine ∧ (ip = true → resume < fine) := by
  obtain ⟨hm, _, hbuild⟩ := (render_ok_iff hb.1 ip tune c w).1 h
  have hok := GlobalRepeatBuilder.build_ok hb hm hbuild
  refine ⟨hm.1, hm.2.1, hm.2.2.1, hm.2.2.2, fun hds => ?_, ?_⟩
  · cases hl : marks bars .Ds with
    | nil => exact absurd hl hds
    | cons d l =>
      cases l with
      | cons e l => have := hm.1; rw [hl] at this; simp only [List.length_cons] at this; omega
      | nil =>
        obtain ⟨s, h1, h2, _⟩ := hok.1 d hl
        have := hm.2.2.2
        exact ⟨by simp [h1], by omega⟩
  · intro d target leave resume fine hj hc hfine
    have hsort := GlobalRepeatBuilder.marks_sorted hb.1 .Coda
    simp only [hc, List.pairwise_cons, List.mem_singleton, forall_eq] at hsort
    have hend : endTick bars = fine := by
      have := hm.2.1
      unfold endTick
      cases hl : marks bars .Fine with
      | nil => rw [hl] at hfine; simp at hfine
      | cons e l =>
        cases l with
        | nil => rw [hl] at hfine; simp at hfine; exact hfine.symm
        | cons _ _ => rw [hl] at this; simp at this
    have key : ∃ t, CodasOk ip t bars := by
      rcases hj with ⟨h1, _⟩ | ⟨first, h1, h2, _⟩
      · obtain ⟨s, _, _, k⟩ := hok.1 d h1
        exact ⟨s, k⟩
      · exact ⟨_, (hok.2 d first h1 h2).2⟩
    obtain ⟨t, k⟩ := key
    simp only [CodasOk, hc, hend] at k
    have := hsort.1
    exact ⟨by omega, k.2.1, fun e => (k.2.2 e).2⟩

/-- A D.S. with a Segno, two Codas and a Fine. -/
example (ip : Bool) : let bars : List Bar := [⟨100, none, none, mark1 .Segno⟩, ⟨200, none, none, mark1 .Coda⟩,
      ⟨300, none, none, mark1 .Ds⟩, ⟨400, none, none, mark1 .Coda⟩, ⟨500, none, none, mark1 .Fine⟩]
    BarsOk bars ∧ marks bars .Ds ≠ [] ∧ Jump ⟨4, .D4⟩ bars 300 100 ∧ marks bars .Coda = [200, 400] ∧ 500 ∈ marks bars .Fine ∧
      ∃ c, renderRegion ip ⟨4, .D4⟩ bars = .ok (c, []) := by
  refine ⟨⟨by decide, by decide⟩, by decide, .inl ⟨by decide, by decide⟩, by decide, by decide,
    ⟨some ⟨.ds 300, some 500, 100, some (200, 400), [(100, 199), (400, 499)]⟩, [.seq ⟨0, U32_MAX⟩]⟩, ?_⟩
  cases ip <;> decide

/-- Segno before Fine is not enforced: with Fine at 100, Segno at 200 and D.S. at
300, the score is rendered without a warning, and nothing follows the D.S. -/
theorem C57_segno_after_fine_false (ip : Bool) :
    Plays ip ⟨4, .D4⟩ [⟨100, none, none, mark1 .Fine⟩, ⟨200, none, none, mark1 .Segno⟩, ⟨300, none, none, mark1 .Ds⟩] []
      (span 0 300) := by
  refine ⟨⟨some ⟨.ds 300, some 100, 200, none, []⟩, [.seq ⟨0, U32_MAX⟩]⟩, [⟨0, 300⟩], ?_, ?_, ?_⟩
  · cases ip <;> decide
  · cases ip <;> decide
  · simp [played]

/-- Segno, Fine and Codas without a jump are accepted without a warning, and do
nothing. -/
theorem C57_idle_marks_false (ip : Bool) :
    Plays ip ⟨4, .D4⟩ [⟨100, none, none, mark1 .Segno⟩, ⟨200, none, none, mark1 .Coda⟩, ⟨300, none, none, mark1 .Fine⟩] []
      (span 0 U32_MAX) := by
  refine ⟨⟨none, [.seq ⟨0, U32_MAX⟩]⟩, [⟨0, U32_MAX⟩], ?_, rfl, ?_⟩
  · cases ip <;> decide
  · simp [played]

/-- That the number of Codas is none or two is not enforced with a D.C.: a lone Coda
is only warned of. And a Segno is accepted with a D.C., which then goes there. -/
theorem C57_dc_marks_false (ip : Bool) :
    Plays ip ⟨4, .D4⟩ [⟨960, none, none, mark2 .Segno .Coda⟩, ⟨1920, none, none, mark1 .Dc⟩]
      [.segnoAndDcFound 960 1920, .orphanCodaFound 960] (span 0 1920 ++ span 960 U32_MAX) := by
  refine ⟨⟨some ⟨.dc 1920 960, none, 960, none, [(960, U32_MAX - 1)]⟩, [.seq ⟨0, U32_MAX⟩]⟩, [⟨0, 1920⟩, ⟨960, U32_MAX⟩],
    ?_, ?_, ?_⟩
  · cases ip <;> decide
  · cases ip <;> decide
  · simp [played]

/-- That the Codas are before Fine is not quite enforced: the second may be at Fine's
tick (if intervals with their ends exchanged are ignored, see DESIGN.md). -/
theorem C57_coda_at_fine_false :
    Plays false ⟨4, .D4⟩ [⟨960, none, none, mark1 .Coda⟩, ⟨1920, none, none, mark1 .Dc⟩, ⟨2880, none, none, mark2 .Coda .Fine⟩]
      [] (span 0 1920 ++ span 0 960) := by
  refine ⟨⟨some ⟨.dc 1920 960, some 2880, 0, some (960, 2880), [(0, 959)]⟩, [.seq ⟨0, U32_MAX⟩]⟩, [⟨0, 1920⟩, ⟨0, 960⟩], ?_, ?_, ?_⟩
  · decide
  · decide
  · simp [played]

/-- That there are at least two endings is not enforced. -/
theorem C57_one_ending_false (ip : Bool) :
    Plays ip ⟨4, .D4⟩ [⟨100, none, none, mark1 .Var1⟩, ⟨200, none, none, {}⟩] [] (span 0 100 ++ span 100 200 ++ span 200 U32_MAX) := by
  refine ⟨⟨none, [.var ⟨0, 100⟩ [⟨100, 200⟩], .seq ⟨200, U32_MAX⟩]⟩, [⟨0, 100⟩, ⟨100, 200⟩, ⟨200, U32_MAX⟩], ?_, rfl, ?_⟩
  · cases ip <;> decide
  · simp [played]

/-- That the common part may contain a repeat is not so: after a repeat (100 to 200)
not followed by a Start, ending marks are ignored without an error or a warning. -/
theorem C57_repeat_in_common_false (ip : Bool) :
    Plays ip ⟨4, .D4⟩ [⟨100, none, none, mark1 .Start⟩, ⟨200, none, none, mark1 .End⟩, ⟨300, none, none, mark1 .Var1⟩,
      ⟨400, none, none, mark1 .Var2⟩, ⟨500, none, none, {}⟩] []
      (span 0 100 ++ (span 100 200 ++ span 100 200) ++ span 200 U32_MAX) := by
  refine ⟨⟨none, [.seq ⟨0, 100⟩, .rep ⟨100, 200⟩, .seq ⟨200, U32_MAX⟩]⟩, [⟨0, 100⟩, ⟨100, 200⟩, ⟨100, 200⟩, ⟨200, U32_MAX⟩],
    ?_, rfl, ?_⟩
  · cases ip <;> decide
  · simp [played]

/-- In general: in a score without D.C. and D.S., Fine, Segno and Codas change
nothing. Erasing them leaves a score that is played the same. -/
theorem C57_idle (ip : Bool) (tune : Rhythm) (bars : List Bar) (hb : BarsOk bars) (c : CompoundRegion)
    (w : List RenderRegionWarning) (h : renderRegion ip tune bars = .ok (c, w)) (h1 : marks bars .Dc = []) (h2 : marks bars .Ds = []) :
    ∃ order, Plays ip tune bars [] order ∧ Plays ip tune (bars.map withoutIdle) [] order := by
  have hf : ∀ x, SameStructure x (withoutIdle x) := by
    intro x
    refine ⟨rfl, fun m a b d => ?_⟩
    simp only [Has, withoutIdle, contains_set, if_neg a, if_neg b, if_neg d]
  have gone : ∀ m, (m = .Fine ∨ m = .Segno ∨ m = .Coda) → marks (bars.map withoutIdle) m = [] := by
    intro m hm
    simp only [marks, List.map_eq_nil_iff, List.filter_eq_nil_iff, List.mem_map]
    rintro y ⟨x, _, rfl⟩
    rcases hm with rfl | rfl | rfl <;> simp [withoutIdle, contains_set]
  obtain ⟨hm, ⟨ps, hr, _⟩, _⟩ := (render_ok_iff hb.1 ip tune c w).1 h
  have hb' : BarsOk (bars.map withoutIdle) := by
    refine ⟨?_, ?_⟩
    · rw [List.pairwise_map]; exact hb.1
    · intro y hy
      obtain ⟨x, hx, rfl⟩ := List.mem_map.1 hy
      exact hb.2 x hx
  have e1 : marks (bars.map withoutIdle) .Dc = [] := by rw [marks_map hf _ _ (by decide) (by decide) (by decide), h1]
  have e2 : marks (bars.map withoutIdle) .Ds = [] := by rw [marks_map hf _ _ (by decide) (by decide) (by decide), h2]
  refine ⟨ps.flatMap Passage.full, C29_plays ip tune bars ps hb hm h1 h2 hr, C29_plays ip tune _ ps hb' ?_ e1 e2 ?_⟩
  · refine ⟨by rw [e1, e2]; decide, ?_, ?_, ?_⟩
    · rw [gone _ (by simp)]; decide
    · rw [gone _ (by simp)]; decide
    · rw [gone _ (by simp)]; decide
  · rw [gone .Segno (by simp)]
    exact Reads_same hf hr

/-! A repeated passage, with a Segno at its beginning, a Coda within and Fine at the
end, but no jump: rendered. -/

example (ip : Bool) : let bars : List Bar := [⟨100, none, none, mark2 .Start .Segno⟩, ⟨150, none, none, mark1 .Coda⟩,
      ⟨200, none, none, mark2 .End .Fine⟩]
    BarsOk bars ∧ marks bars .Dc = [] ∧ marks bars .Ds = [] ∧ ∃ c, renderRegion ip ⟨4, .D4⟩ bars = .ok (c, []) := by
  refine ⟨⟨by decide, by decide⟩, by decide, by decide, ⟨none, [.seq ⟨0, 100⟩, .rep ⟨100, 200⟩, .seq ⟨200, U32_MAX⟩]⟩, ?_⟩
  cases ip <;> decide

/-! D.S. with Segno, two Codas and Fine, all in the documented order. -/

example (ip : Bool) : let bars : List Bar := [⟨100, none, none, mark1 .Segno⟩, ⟨200, none, none, mark1 .Coda⟩,
      ⟨300, none, none, mark1 .Ds⟩, ⟨400, none, none, mark1 .Coda⟩, ⟨500, none, none, mark1 .Fine⟩]
    BarsOk bars ∧ marks bars .Ds ≠ [] ∧ Jump ⟨4, .D4⟩ bars 300 100 ∧ marks bars .Coda = [200, 400] ∧ 500 ∈ marks bars .Fine ∧
      ∃ c, renderRegion ip ⟨4, .D4⟩ bars = .ok (c, []) := by
  refine ⟨⟨by decide, by decide⟩, by decide, .inl ⟨by decide, by decide⟩, by decide, by decide,
    ⟨some ⟨.ds 300, some 500, 100, some (200, 400), [(100, 199), (400, 499)]⟩, [.seq ⟨0, U32_MAX⟩]⟩, ?_⟩
  cases ip <;> decide

end Klavier
