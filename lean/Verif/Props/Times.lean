import Verif.Lemmas.Times
import Verif.Props.Chunk
import Verif.Props.Flow

/-! # C99: how often everything is heard -/
set_option autoImplicit false
namespace Klavier
open Spec

/-- C99: every tick of the score is in exactly one passage. -/
theorem C99_passage (ip : Bool) (tune : Rhythm) (bars : List Bar) (hb : BarsOk bars) (c : CompoundRegion)
    (w : List RenderRegionWarning) (h : renderRegion ip tune bars = .ok (c, w)) (t : Nat) (ht : t < U32_MAX) :
    ∃ ps, Reads (marks bars .Segno).head? .first 0 bars ps ∧ ∃ p ∈ ps, p.start ≤ t ∧ t < p.stop ∧
      ∀ q ∈ ps, q.start ≤ t → t < q.stop → q = p := by
  obtain ⟨ps, hr, _⟩ := C29_reads_uniquely ip tune bars hb c w h
  have hch := Reads_chain hr (fun _ => rfl) hb (fun h => absurd rfl h)
  obtain ⟨p, hp, h1, h2⟩ := Chain_cover hch (Nat.zero_le t) ht
  exact ⟨ps, hr, p, hp, h1, h2, fun q hq k1 k2 => Chain_one hch hq hp k1 k2 h1 h2⟩

/-- C99: without a D.C. or D.S. every tick is heard exactly as often as its passage says. -/
theorem C99_straight (ip : Bool) (tune : Rhythm) (bars : List Bar) (hb : BarsOk bars) (c : CompoundRegion)
    (w : List RenderRegionWarning) (cs : List Chunk) (h : renderRegion ip tune bars = .ok (c, w)) (hc : c.toChunks ip = .ok cs)
    (hj : ∀ d target, ¬ Jump tune bars d target) (ps : List Passage) (hr : Reads (marks bars .Segno).head? .first 0 bars ps)
    (p : Passage) (hp : p ∈ ps) (t : Nat) (h1 : p.start ≤ t) (h2 : t < p.stop) : (played cs).count t = p.times t := by
  have hch := Reads_chain hr (fun _ => rfl) hb (fun h => absurd rfl h)
  rcases playing hb h hc hr with ⟨_, e⟩ | ⟨d, target, hj', _⟩
  · rw [e, Chain_count_in Passage.full 4 t (fun p ho => full_count p t ho) (by decide) hch hp h1 h2,
      full_times (Chain_mem hch (by decide) p hp).1 h1 h2]
  · exact absurd hj' (hj d target)

/-- C99: with a D.C. or D.S. at `d`, a tick before `d` is heard as often as its passage says, and
then every tick of the second pass that is not in an ending left out once more.  If `d` is in
the midst of a repeat with which the score begins, only the second pass is heard. -/
theorem C99_jump (ip : Bool) (tune : Rhythm) (bars : List Bar) (hb : BarsOk bars) (c : CompoundRegion)
    (w : List RenderRegionWarning) (cs : List Chunk) (h : renderRegion ip tune bars = .ok (c, w)) (hc : c.toChunks ip = .ok cs)
    (d target : Nat) (hj : Jump tune bars d target) (ps : List Passage) (hr : Reads (marks bars .Segno).head? .first 0 bars ps)
    (p : Passage) (hp : p ∈ ps) (t : Nat) (h1 : p.start ≤ t) (h2 : t < p.stop) :
    ∃ first second, (played cs).count t = first + second ∧
      (CutRepeat ps d → first = 0) ∧ (¬ CutRepeat ps d → t < d → first = p.times t) ∧ (d ≤ t → first = 0) ∧
      (inSecondPass target bars t ∧ ¬ LeftOut ps t → second = 1) ∧ (¬ (inSecondPass target bars t ∧ ¬ LeftOut ps t) → second = 0) := by
  have hch := Reads_chain hr (fun _ => rfl) hb (fun h => absurd rfl h)
  have hm := Chain_mem hch (by decide) p hp
  classical
  have hs : ((ps.flatMap Passage.once).filter (fun t => decide (inSecondPass target bars t))).count t =
      if inSecondPass target bars t ∧ ¬ LeftOut ps t then 1 else 0 := by
    have hle := (Chain_count Passage.once 1 t (fun p ho => once_count p t ho) ps 0 (by decide) hch).1
    have hle : ((ps.flatMap Passage.once).filter (fun t => decide (inSecondPass target bars t))).count t ≤ 1 :=
      Nat.le_trans (List.Sublist.count_le t List.filter_sublist) hle
    have hmem : t ∈ (ps.flatMap Passage.once).filter (fun t => decide (inSecondPass target bars t)) ↔
        inSecondPass target bars t ∧ ¬ LeftOut ps t := by
      rw [List.mem_filter, mem_once hch (by decide), decide_eq_true_eq]
      constructor
      · rintro ⟨⟨_, _, k2⟩, k3⟩; exact ⟨k3, k2⟩
      · rintro ⟨k3, k2⟩; exact ⟨⟨Nat.zero_le _, by omega, k2⟩, k3⟩
    split
    · rename_i k
      have := List.count_pos_iff.2 (hmem.2 k)
      omega
    · rename_i k
      exact List.count_eq_zero.2 (fun hm => k (hmem.1 hm))
  rcases playing hb h hc hr with ⟨hn, _⟩ | ⟨d', target', hj', hd, _, hcase⟩
  · exact absurd hj (hn d target)
  · obtain ⟨rfl, rfl⟩ := Jump_unique ((render_ok_iff hb.1 ip tune c w).1 h).1 hj hj'
    rcases hcase with ⟨ho, e⟩ | ⟨hcut, e⟩
    · have hout : ∀ q ∈ ps, q.Outside d := by
        have htail := outside_tail hb hr (d := d) (by
          rcases hj with k | ⟨_, k, _⟩
          · exact .inr (by rw [k.1]; simp)
          · exact .inl (by rw [k]; simp))
        intro q hq
        cases ps with
        | nil => cases hq
        | cons r rs =>
          rcases List.mem_cons.1 hq with rfl | hq
          · exact ho _ rfl
          · exact htail q hq
      have hno : ¬ CutRepeat ps d := by
        rintro ⟨b, hb, k⟩
        have : d ≤ 0 ∨ b ≤ d := ho _ hb
        omega
      refine ⟨_, _, by rw [e, List.count_append], fun k => absurd k hno, fun _ k => ?_, fun k => ?_, fun k => ?_, fun k => ?_⟩
      · rw [Chain_count_in (Passage.upTo d) 4 t (fun p ho => upTo_count d p t ho) (by decide) hch hp h1 h2,
          upTo_times hm.1 (hout p hp) h1 h2, if_pos k]
      · rw [Chain_count_in (Passage.upTo d) 4 t (fun p ho => upTo_count d p t ho) (by decide) hch hp h1 h2,
          upTo_times hm.1 (hout p hp) h1 h2, if_neg (by omega)]
      · rw [hs, if_pos k]
      · rw [hs, if_neg k]
    · refine ⟨0, _, by rw [e, Nat.zero_add], fun _ => rfl, fun k => absurd hcut k, fun _ => rfl, fun k => ?_, fun k => ?_⟩
      · rw [hs, if_pos k]
      · rw [hs, if_neg k]

/-- C99: asking for a later hearing than there is reports the number there are (no D.C. or D.S.);
`k` is the iteration asked for, limited to 1..5. -/
theorem C99_asked (ip : Bool) (tune : Rhythm) (bars : List Bar) (hb : BarsOk bars) (c : CompoundRegion)
    (w : List RenderRegionWarning) (cs : List Chunk) (h : renderRegion ip tune bars = .ok (c, w)) (hc : c.toChunks ip = .ok cs)
    (hj : ∀ d target, ¬ Jump tune bars d target) (ps : List Passage) (hr : Reads (marks bars .Segno).head? .first 0 bars ps)
    (p : Passage) (hp : p ∈ ps) (t : Nat) (h1 : p.start ≤ t) (h2 : t < p.stop) (idx : Store Chunk)
    (hi : Chunk.byAccumTick cs = .ok idx) (iter : Nat) (hk : p.times t < max 1 (min iter 5)) :
    (PlayStartTick.new t iter).toAccumTick idx = .ok (.error ⟨max 1 (min iter 5), p.times t⟩) := by
  have hn := C99_straight ip tune bars hb c w cs h hc hj ps hr p hp t h1 h2
  have := (C36_position_partial cs (render_general hb h hc).1 idx hi t iter).2
  rw [hn] at this
  exact this hk

/-! ### Examples -/

private theorem performed {ip : Bool} {tune : Rhythm} {bars : List Bar} {cs : List Chunk} {w : List RenderRegionWarning}
    (h : performance ip tune bars = .ok (cs, w)) : ∃ c, renderRegion ip tune bars = .ok (c, w) ∧ c.toChunks ip = .ok cs := by
  unfold performance at h
  cases h1 : renderRegion ip tune bars with
  | error f => rw [h1] at h; cases h
  | ok r =>
    obtain ⟨c, w'⟩ := r
    rw [h1] at h
    cases h2 : c.toChunks ip with
    | error p => simp only [RR_bind_ok, h2, liftR] at h; cases h
    | ok cs' =>
      simp only [RR_bind_ok, h2, liftR] at h
      cases h
      exact ⟨c, rfl, h2⟩

/-- A passage with two endings, and after it a D.S. to a Segno with a Fine. -/
private def timesBars (ds : Bool) : List Bar := [line 96 { start := true }, line 192 { var1 := true }, line 288 { var2 := true },
  line 384 { segno := true }, line 480 { fine := true }, line 576 { ds := ds }]

private def timesPassages : List Passage := [.plain 0 96, .endings 96 [192, 288] 384, .plain 384 U32_MAX]

private theorem timesReads (ds : Bool) : Reads (marks (timesBars ds) .Segno).head? .first 0 (timesBars ds) timesPassages := by
  cases ds
  · refine .start (inside := []) (by decide) (by decide) (by decide) (by decide) ?_
    refine .endings (inside := []) (es := [line 288 { var2 := true }]) (x := line 384 { segno := true }) (by decide) (by decide)
      (by simp only [OpensEndings]; decide) (.more (xs := []) (by simp) (by simp only [InEnding]; decide) (.last (by simp))) ?_ (by decide) (by decide)
      (.last (by decide) (by decide))
    intro s first last h1 h2 h3
    obtain rfl : 384 = s := Option.some.inj (h1 ▸ by decide)
    obtain rfl : 288 = last := Option.some.inj h3
    omega
  · refine .start (inside := []) (by decide) (by decide) (by decide) (by decide) ?_
    refine .endings (inside := []) (es := [line 288 { var2 := true }]) (x := line 384 { segno := true }) (by decide) (by decide)
      (by simp only [OpensEndings]; decide) (.more (xs := []) (by simp) (by simp only [InEnding]; decide) (.last (by simp))) ?_ (by decide) (by decide)
      (.last (by decide) (by decide))
    intro s first last h1 h2 h3
    obtain rfl : 384 = s := Option.some.inj (h1 ▸ by decide)
    obtain rfl : 288 = last := Option.some.inj h3
    omega

private theorem timesPlayed (ip : Bool) : performance ip ⟨4, .D4⟩ (timesBars true) =
    .ok ([⟨0, 96⟩, ⟨96, 192⟩, ⟨192, 288⟩, ⟨96, 192⟩, ⟨288, 384⟩, ⟨384, 576⟩, ⟨384, 480⟩], []) := by
  cases ip <;> decide +kernel

private theorem timesPlayedStraight (ip : Bool) : ∃ cs w, performance ip ⟨4, .D4⟩ (timesBars false) = .ok (cs, w) ∧
    cs = [⟨0, 96⟩, ⟨96, 192⟩, ⟨192, 288⟩, ⟨96, 192⟩, ⟨288, 384⟩, ⟨384, U32_MAX⟩] := by
  refine ⟨_, [], ?_, rfl⟩
  cases ip <;> decide +kernel

/-- The part before the endings is heard twice, and a third hearing is refused. -/
example (ip : Bool) : ∃ c w cs idx, renderRegion ip ⟨4, .D4⟩ (timesBars false) = .ok (c, w) ∧ c.toChunks ip = .ok cs ∧
    Chunk.byAccumTick cs = .ok idx ∧ (played cs).count 100 = 2 ∧ (played cs).count 200 = 1 ∧
    (PlayStartTick.new 100 3).toAccumTick idx = .ok (.error ⟨3, 2⟩) := by
  obtain ⟨cs, w, h, hcs⟩ := timesPlayedStraight ip
  obtain ⟨c, h1, h2⟩ := performed h
  have hj : ∀ d target, ¬ Jump ⟨4, .D4⟩ (timesBars false) d target := by
    rintro d target (⟨k, _⟩ | ⟨_, k, _⟩)
    · rw [show marks (timesBars false) .Ds = [] by decide] at k; cases k
    · rw [show marks (timesBars false) .Dc = [] by decide] at k; cases k
  have hb : BarsOk (timesBars false) := ⟨by decide, by decide⟩
  have hi : ∃ idx, Chunk.byAccumTick cs = .ok idx := by
    subst hcs
    exact ⟨_, rfl⟩
  obtain ⟨idx, hi⟩ := hi
  have hp : Passage.endings 96 [192, 288] 384 ∈ timesPassages := by decide
  exact ⟨c, w, cs, idx, h1, h2, hi,
    C99_straight ip _ _ hb c w cs h1 h2 hj _ (timesReads false) _ hp 100 (by decide) (by decide),
    C99_straight ip _ _ hb c w cs h1 h2 hj _ (timesReads false) _ hp 200 (by decide) (by decide),
    C99_asked ip _ _ hb c w cs h1 h2 hj _ (timesReads false) _ hp 100 (by decide) (by decide) idx hi 3 (by decide)⟩

/-- With the D.S. what is between the Segno and the Fine is heard twice. -/
example (ip : Bool) : ∃ c cs, renderRegion ip ⟨4, .D4⟩ (timesBars true) = .ok (c, []) ∧ c.toChunks ip = .ok cs ∧
    Jump ⟨4, .D4⟩ (timesBars true) 576 384 ∧ ¬ CutRepeat timesPassages 576 ∧ (played cs).count 400 = 2 := by
  obtain ⟨c, h1, h2⟩ := performed (timesPlayed ip)
  have hj : Jump ⟨4, .D4⟩ (timesBars true) 576 384 := .inl ⟨by decide, by decide⟩
  have hno : ¬ CutRepeat timesPassages 576 := by
    rintro ⟨b, k, _⟩
    cases k
  have hp : Passage.plain 384 U32_MAX ∈ timesPassages := by decide
  refine ⟨c, _, h1, h2, hj, hno, ?_⟩
  obtain ⟨f, s, e, _, k2, _, k4, _⟩ := C99_jump ip _ _ ⟨by decide, by decide⟩ c [] _ h1 h2 576 384 hj _ (timesReads true) _ hp 400
    (by decide) (by decide)
  rw [e, k2 hno (by decide), k4 ⟨by decide, ?_⟩]
  · rfl
  · rintro ⟨a, ts, b, first, last, hm, _, hl, _, hlt⟩
    have hm : Passage.endings a ts b = .endings 96 [192, 288] 384 := by simpa [timesPassages] using hm
    cases hm
    obtain rfl : 288 = last := Option.some.inj hl
    omega

/-- Tick 100 is in one passage of the score. -/
example (ip : Bool) : ∃ c ps, BarsOk (timesBars true) ∧ renderRegion ip ⟨4, .D4⟩ (timesBars true) = .ok (c, []) ∧
    Reads (marks (timesBars true) .Segno).head? .first 0 (timesBars true) ps ∧ ∃ p ∈ ps, p.start ≤ 100 ∧ 100 < p.stop := by
  obtain ⟨c, h1, _⟩ := performed (timesPlayed ip)
  obtain ⟨ps, hr, p, hp, k1, k2, _⟩ := C99_passage ip _ _ ⟨by decide, by decide⟩ c [] h1 100 (by decide)
  exact ⟨c, ps, ⟨by decide, by decide⟩, h1, hr, p, hp, k1, k2⟩

end Klavier
