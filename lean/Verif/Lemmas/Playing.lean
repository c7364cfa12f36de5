import Verif.Lemmas.Flow
import Verif.Props.Jump

/-! # What is played of a score that can be played -/
set_option autoImplicit false
namespace Klavier
open Spec

/-- What is played of any score that can be played: without a jump everything with its
repeats; with one, the first pass (nothing, if the jump is in the midst of a first repeat) and
the second. -/
theorem playing {ip : Bool} {tune : Rhythm} {bars : List Bar} (hb : BarsOk bars) {c : CompoundRegion}
    {w : List RenderRegionWarning} {cs : List Chunk} (h : renderRegion ip tune bars = .ok (c, w)) (hc : c.toChunks ip = .ok cs)
    {ps : List Passage} (hr : Reads (marks bars .Segno).head? .first 0 bars ps) :
    ((∀ d target, ¬ Jump tune bars d target) ∧ played cs = ps.flatMap Passage.full) ∨
    ∃ d target, Jump tune bars d target ∧ d < U32_MAX ∧ QuietStart bars ∧
      (((∀ p, ps.head? = some p → p.Outside d) ∧ played cs = ps.flatMap (Passage.upTo d) ++
          (ps.flatMap Passage.once).filter (fun t => decide (inSecondPass target bars t))) ∨
       (∃ b, ps.head? = some (.repeated 0 b) ∧ 0 < d ∧ d < b) ∧
        played cs = (ps.flatMap Passage.once).filter (fun t => decide (inSecondPass target bars t))) := by
  have hch := Reads_chain hr (fun _ => rfl) hb (fun h => absurd rfl h)
  by_cases hj : ∀ d target, ¬ Jump tune bars d target
  · obtain ⟨_, cs', k1, k2⟩ := C29_rendered ip tune bars hb c w h hj ps hr
    rw [hc] at k1
    cases k1
    exact .inl ⟨hj, k2⟩
  · obtain ⟨d, hj⟩ := Classical.not_forall.1 hj
    obtain ⟨target, hj⟩ := Classical.not_forall.1 hj
    have hj := Classical.not_not.1 hj
    have hd : d < U32_MAX := by
      rcases Jump_mem hj with hd | hd <;> (obtain ⟨x, h1, _, rfl⟩ := mem_marks.1 hd; exact hb.2 x h1)
    cases ps with
    | nil => exact hch.elim
    | cons p ps =>
      obtain ⟨hq, he⟩ := (C30_playable_iff ip tune bars hb c w h d target hj p ps hr).1 ⟨cs, hc⟩
      refine .inr ⟨d, target, hj, hd, hq, ?_⟩
      have outside : p.Outside d → ((∀ q, (p :: ps).head? = some q → q.Outside d) ∧ played cs = (p :: ps).flatMap (Passage.upTo d) ++
          ((p :: ps).flatMap Passage.once).filter (fun t => decide (inSecondPass target bars t))) := by
        intro ho
        have hf : ∀ q, (p :: ps).head? = some q → q.Outside d := by
          intro q hq
          obtain rfl : p = q := by simpa using hq
          exact ho
        obtain ⟨_, cs', k1, k2⟩ := C30_rendered ip tune bars hb c w h d target hj hq (p :: ps) hr hf
        rw [hc] at k1
        cases k1
        exact ⟨hf, k2⟩
      have hst : p.start = 0 := by
        cases ps with
        | nil => simp only [Chain] at hch; rw [hch]; rfl
        | cons q ps => exact hch.1
      cases p with
      | plain a b => exact .inl (outside trivial)
      | repeated a b =>
        obtain rfl : a = 0 := hst
        by_cases k : 0 < d ∧ d < b
        · obtain ⟨_, cs', k1, k2⟩ := C30_inside_repeat ip tune bars hb c w h d target hj hq b ps hr k
          rw [hc] at k1
          cases k1
          exact .inr ⟨⟨b, rfl, k⟩, k2⟩
        · refine .inl (outside ?_)
          simp only [Passage.Outside, Passage.start, Passage.stop]
          omega
      | endings a ts b =>
        obtain rfl : a = 0 := hst
        have := he ts b rfl
        refine .inl (outside ?_)
        simp only [Passage.Outside, Passage.start, Passage.stop]
        omega

end Klavier
