import Verif.Lemmas.Interval

/-! # Helper lemmas about chunks -/
set_option autoImplicit false
namespace Klavier
open Spec

theorem played_nil : played [] = [] := rfl
theorem played_cons (c : Chunk) (cs : List Chunk) : played (c :: cs) = span c.startTick c.endTick ++ played cs := rfl
theorem played_append (a b : List Chunk) : played (a ++ b) = played a ++ played b := by simp [played]

theorem count_span (a b t : Nat) : (span a b).count t = if a ≤ t ∧ t < b then 1 else 0 := by
  have hn : (span a b).Nodup := (span_sorted a b).imp (fun h => Nat.ne_of_lt h)
  by_cases h : a ≤ t ∧ t < b
  · rw [if_pos h, List.Nodup.count hn, if_pos (mem_span.2 h)]
  · rw [if_neg h, List.count_eq_zero, mem_span]
    exact h

theorem span_get {a b t : Nat} (h : a ≤ t ∧ t < b) : (span a b)[t - a]? = some t := by
  simp only [span]
  rw [List.getElem?_range' (by omega)]
  congr 1
  omega

theorem count_span_take {a b t : Nat} (h : a ≤ t ∧ t < b) : ((span a b).take (t - a)).count t = 0 := by
  rw [List.count_eq_zero]
  have : span a b = span a t ++ span t b := span_append h.1 (by omega)
  rw [this, List.take_append_of_le_length (by rw [span_length]; omega)]
  intro hm
  have := List.mem_of_mem_take hm
  rw [mem_span] at this
  omega

/-! ## optimize -/

theorem optimizeFrom_played (cs : List Chunk) : ∀ (c : Chunk), c.startTick ≤ c.endTick →
    (∀ d ∈ cs, d.startTick ≤ d.endTick) →
    played (Chunk.optimizeFrom c cs) = span c.startTick c.endTick ++ played cs := by
  induction cs with
  | nil => intro c _ _; simp [Chunk.optimizeFrom, played]
  | cons d cs ih =>
    intro c hc hcs
    have hd := hcs d (by simp)
    simp only [Chunk.optimizeFrom]
    by_cases h : c.endTick = d.startTick
    · rw [if_pos h, ih _ (by simp only; omega) (fun e he => hcs e (by simp [he])), played_cons]
      simp only
      rw [span_append (a := c.startTick) (m := d.startTick) (b := d.endTick) (by omega) hd, ← h, List.append_assoc]
    · rw [if_neg h, played_cons, ih d hd (fun e he => hcs e (by simp [he])), played_cons]

theorem optimizeFrom_head (cs : List Chunk) : ∀ (c : Chunk),
    ∃ e rest, Chunk.optimizeFrom c cs = ⟨c.startTick, e⟩ :: rest := by
  induction cs with
  | nil => intro c; exact ⟨c.endTick, [], rfl⟩
  | cons d cs ih =>
    intro c
    simp only [Chunk.optimizeFrom]
    split
    · exact ih ⟨c.startTick, d.endTick⟩
    · exact ⟨c.endTick, _, rfl⟩

/-! ## by_accum_tick -/

/-- What the index holds: where every chunk starts in played time, an empty chunk
being superseded by the following one. -/
def accumIndex (o : Nat) : List Chunk → List (Nat × Chunk)
  | [] => []
  | [c] => [(o, c)]
  | c :: d :: cs =>
    if c.startTick < c.endTick then (o, c) :: accumIndex (o + (c.endTick - c.startTick)) (d :: cs)
    else accumIndex o (d :: cs)

theorem store_add_last {V : Type} (s : Store V) (k : Nat) (v : V) (h : ∀ p ∈ s, p.1 < k) :
    s.add k v = s ++ [(k, v)] := by
  induction s with
  | nil => rfl
  | cons p s ih =>
    obtain ⟨k', v'⟩ := p
    have hk := h (k', v') (by simp)
    simp only at hk
    simp only [Store.add]
    rw [if_neg (by omega), if_neg (by omega), ih (fun q hq => h q (by simp [hq]))]
    rfl

theorem store_add_over {V : Type} (s : Store V) (k : Nat) (v w : V) (h : ∀ p ∈ s, p.1 < k) :
    Store.add (s ++ [(k, w)]) k v = s ++ [(k, v)] := by
  induction s with
  | nil => simp [Store.add]
  | cons p s ih =>
    obtain ⟨k', v'⟩ := p
    have hk := h (k', v') (by simp)
    simp only at hk
    simp only [List.cons_append, Store.add]
    rw [if_neg (by omega), if_neg (by omega), ih (fun q hq => h q (by simp [hq]))]

theorem byAccumLoop_eq (cs : List Chunk) : ∀ (o : Nat) (buf : Store Chunk) (extra : Option Chunk),
    (∀ p ∈ buf, p.1 < o) → ChunksOk cs → (extra.isSome → cs ≠ []) →
    let total := o + ((cs.filter (fun c => c.endTick ≠ U32_MAX)).map (fun c => c.endTick - c.startTick)).sum
    (total ≤ U32_MAX →
      Chunk.byAccumLoop o (buf ++ (extra.map (fun e => (o, e))).toList) cs = .ok (buf ++ accumIndex o cs)) ∧
    (o ≤ U32_MAX → U32_MAX < total →
      Chunk.byAccumLoop o (buf ++ (extra.map (fun e => (o, e))).toList) cs = .error .overflow) := by
  induction cs with
  | nil =>
    intro o buf extra hb _ he
    cases extra with
    | some e => exact absurd rfl (he rfl)
    | none =>
      refine ⟨fun _ => by simp [Chunk.byAccumLoop, accumIndex], ?_⟩
      intro h1 h2
      simp at h2
      omega
  | cons c cs ih =>
    intro o buf extra hb hok _
    have hadd : Store.add (buf ++ (extra.map (fun e => (o, e))).toList) o c = buf ++ [(o, c)] := by
      cases extra with
      | none => simp only [Option.map_none, Option.toList_none, List.append_nil]; exact store_add_last _ _ _ hb
      | some e => exact store_add_over _ _ _ _ hb
    obtain ⟨hok1, hok2⟩ := hok
    obtain ⟨hc1, hc2⟩ := hok1 c (by simp)
    simp only [Chunk.byAccumLoop, hadd]
    by_cases hlast : cs = []
    · subst hlast
      by_cases hm : c.endTick = U32_MAX
      · simp [hm, Chunk.byAccumLoop, accumIndex]
      · simp only [ne_eq, hm, not_false_eq_true, if_true, Chunk.len, subU32, if_pos hc1, R_bind_ok, addU32,
          List.filter_cons, decide_not, decide_false, Bool.not_false, List.filter_nil, List.map_cons, List.map_nil,
          List.sum_cons, List.sum_nil, Nat.add_zero]
        refine ⟨fun h => ?_, fun _ h => ?_⟩
        · rw [if_pos h]; rfl
        · rw [if_neg (by omega)]; rfl
    · obtain ⟨d, ds, rfl⟩ : ∃ d ds, cs = d :: ds := by cases cs with
        | nil => exact absurd rfl hlast
        | cons d ds => exact ⟨d, ds, rfl⟩
      have hm : c.endTick ≠ U32_MAX := hok2 c (by simp)
      have hok' : ChunksOk (d :: ds) :=
        ⟨fun e he => hok1 e (by simp only [List.mem_cons] at he ⊢; exact .inr he),
          fun e he => hok2 e (by simp only [List.dropLast_cons_cons, List.mem_cons]; exact .inr he)⟩
      simp only [ne_eq, hm, not_false_eq_true, if_true, Chunk.len, subU32, if_pos hc1, R_bind_ok, addU32]
      have hsum : ((List.filter (fun c => decide (c.endTick ≠ U32_MAX)) (c :: d :: ds)).map
          (fun c => c.endTick - c.startTick)).sum =
          (c.endTick - c.startTick) + ((List.filter (fun c => decide (c.endTick ≠ U32_MAX)) (d :: ds)).map
          (fun c => c.endTick - c.startTick)).sum := by
        rw [List.filter_cons, if_pos (by simpa using hm)]
        simp
      simp only [ne_eq] at hsum
      rw [hsum]
      generalize hS : ((List.filter (fun c => decide ¬c.endTick = U32_MAX) (d :: ds)).map
          (fun c => c.endTick - c.startTick)).sum = S at *
      by_cases hlen : c.startTick < c.endTick
      · have h := ih (o + (c.endTick - c.startTick)) (buf ++ [(o, c)]) none ?_ hok' (by simp)
        · simp only [Option.map_none, Option.toList_none, List.append_nil] at h
          obtain ⟨i1, i2⟩ := h
          refine ⟨fun h => ?_, fun ho h => ?_⟩
          · rw [if_pos (by omega)]
            simp only [R_bind_ok]
            rw [i1 (by omega)]
            simp [accumIndex, hlen]
          · by_cases hov : o + (c.endTick - c.startTick) ≤ U32_MAX
            · rw [if_pos hov]
              simp only [R_bind_ok]
              exact i2 hov (by omega)
            · rw [if_neg hov]; rfl
        · intro p hp
          rcases List.mem_append.1 hp with hp | hp
          · have := hb p hp; omega
          · rw [List.mem_singleton.1 hp]; simp only; omega
      · have hz : c.endTick - c.startTick = 0 := by omega
        have h := ih o buf (some c) hb hok' (by simp)
        simp only [Option.map_some, Option.toList_some] at h
        obtain ⟨i1, i2⟩ := h
        rw [hz]
        simp only [Nat.add_zero, Nat.zero_add]
        refine ⟨fun h => ?_, fun ho h => ?_⟩
        · rw [if_pos (by omega)]
          simp only [R_bind_ok]
          rw [i1 h]
          simp [accumIndex, hlen]
        · rw [if_pos (by omega)]
          simp only [R_bind_ok]
          exact i2 ho h

/-- The keys and chunks of the index, against the played ticks. -/
theorem accumIndex_mem (cs : List Chunk) : ∀ (o : Nat),
    (∀ (i : Nat) (c : Chunk), cs[i]? = some c → (c.startTick < c.endTick ∨ i + 1 = cs.length) →
      (o + (played (cs.take i)).length, c) ∈ accumIndex o cs) ∧
    (∀ p ∈ accumIndex o cs, ∃ i : Nat, cs[i]? = some p.2 ∧ p.1 = o + (played (cs.take i)).length ∧
      (p.2.startTick < p.2.endTick ∨ i + 1 = cs.length)) ∧
    ((accumIndex o cs).Pairwise (fun a b => a.1 < b.1)) := by
  induction cs with
  | nil => intro o; simp [accumIndex]
  | cons c cs ih =>
    intro o
    cases cs with
    | nil =>
      refine ⟨?_, ?_, by simp [accumIndex]⟩
      · intro i d hi _
        cases i with
        | zero =>
          simp only [List.getElem?_cons_zero, Option.some.injEq] at hi
          subst hi
          simp [accumIndex, played]
        | succ i => simp at hi
      · intro p hp
        simp only [accumIndex, List.mem_singleton] at hp
        subst hp
        exact ⟨0, by simp, by simp [played], by simp⟩
    | cons d ds =>
      simp only [accumIndex]
      by_cases hc : c.startTick < c.endTick
      · rw [if_pos hc]
        obtain ⟨i1, i2, i3⟩ := ih (o + (c.endTick - c.startTick))
        refine ⟨?_, ?_, ?_⟩
        · intro i e hi hne
          cases i with
          | zero =>
            simp only [List.getElem?_cons_zero, Option.some.injEq] at hi
            subst hi
            simp [played]
          | succ i =>
            rw [List.getElem?_cons_succ] at hi
            have := i1 i e hi (by simpa using hne)
            rw [List.take_succ_cons, played_cons, List.length_append, span_length, ← Nat.add_assoc]
            exact List.mem_cons_of_mem _ this
        · intro p hp
          rcases List.mem_cons.1 hp with rfl | hp
          · exact ⟨0, by simp, by simp [played], .inl hc⟩
          · obtain ⟨i, h1, h2, h3⟩ := i2 p hp
            refine ⟨i + 1, by simpa using h1, ?_, by simpa using h3⟩
            rw [List.take_succ_cons, played_cons, List.length_append, span_length, ← Nat.add_assoc]
            exact h2
        · rw [List.pairwise_cons]
          refine ⟨?_, i3⟩
          intro p hp
          obtain ⟨i, _, h2, _⟩ := i2 p hp
          simp only
          omega
      · rw [if_neg hc]
        have hz : c.endTick - c.startTick = 0 := by omega
        obtain ⟨i1, i2, i3⟩ := ih o
        refine ⟨?_, ?_, i3⟩
        · intro i e hi hne
          cases i with
          | zero =>
            simp only [List.getElem?_cons_zero, Option.some.injEq] at hi
            subst hi
            rcases hne with h | h
            · exact absurd h hc
            · simp at h
          | succ i =>
            rw [List.getElem?_cons_succ] at hi
            have := i1 i e hi (by simpa using hne)
            rw [List.take_succ_cons, played_cons, List.length_append, span_length, hz, Nat.zero_add]
            exact this
        · intro p hp
          obtain ⟨i, h1, h2, h3⟩ := i2 p hp
          refine ⟨i + 1, by simpa using h1, ?_, by simpa using h3⟩
          rw [List.take_succ_cons, played_cons, List.length_append, span_length, hz, Nat.zero_add]
          exact h2

/-! ## to_accum_tick -/

theorem loop_index (t k : Nat) (hk5 : k ≤ 5) (cs : List Chunk) : ∀ (o cur : Nat), 1 ≤ cur → cur ≤ k →
    (∀ c ∈ cs, c.startTick ≤ c.endTick) →
    (k < cur + (played cs).count t → ∃ p i d, IsOccurrence (played cs) t (k - cur + 1) p ∧
      (cs[i]? = some d ∧ d.startTick ≤ t ∧ t < d.endTick ∧ p = (played (cs.take i)).length + (t - d.startTick)) ∧
      PlayStartTick.loop ⟨t, k⟩ cur (accumIndex o cs) =
        if o + p + d.startTick ≤ U32_MAX then .ok (.ok (o + p)) else .error .overflow) ∧
    (cur + (played cs).count t ≤ k →
      PlayStartTick.loop ⟨t, k⟩ cur (accumIndex o cs) = .ok (.error ⟨k, cur + (played cs).count t - 1⟩)) := by
  induction cs with
  | nil =>
    intro o cur h1 h2 _
    refine ⟨fun h => by simp [played] at h; omega, fun h => ?_⟩
    simp [accumIndex, PlayStartTick.loop, subU32, h1, played]
  | cons c cs ih =>
    intro o cur h1 h2 hwf
    have hc := hwf c (by simp)
    have hwf' : ∀ d ∈ cs, d.startTick ≤ d.endTick := fun d hd => hwf d (by simp [hd])
    rw [played_cons, List.count_append, count_span]
    have hskip : ¬ (c.startTick ≤ t ∧ t < c.endTick) → cs ≠ [] →
        PlayStartTick.loop ⟨t, k⟩ cur (accumIndex o (c :: cs)) =
          PlayStartTick.loop ⟨t, k⟩ cur (accumIndex (o + (c.endTick - c.startTick)) cs) := by
      intro hn hcs
      obtain ⟨d, ds, rfl⟩ : ∃ d ds, cs = d :: ds := by cases cs with
        | nil => exact absurd rfl hcs
        | cons d ds => exact ⟨d, ds, rfl⟩
      simp only [accumIndex]
      by_cases hl : c.startTick < c.endTick
      · rw [if_pos hl]
        simp only [PlayStartTick.loop, Chunk.contains, hn, decide_false, Bool.false_eq_true, if_false]
      · rw [if_neg hl]
        have hz : c.endTick - c.startTick = 0 := by omega
        rw [hz, Nat.add_zero]
    by_cases hin : c.startTick ≤ t ∧ t < c.endTick
    · rw [if_pos hin]
      by_cases hcur : cur = k
      · refine ⟨fun _ => ⟨t - c.startTick, 0, c, ⟨?_, ?_⟩, ⟨by simp, hin.1, hin.2, by simp [played]⟩, ?_⟩, fun h => by omega⟩
        · rw [List.getElem?_append_left (by rw [span_length]; omega)]
          exact span_get hin
        · rw [List.take_append_of_le_length (by rw [span_length]; omega), count_span_take hin]
          omega
        · have : ∃ rest, accumIndex o (c :: cs) = (o, c) :: rest := by
            cases cs with
            | nil => exact ⟨[], rfl⟩
            | cons d ds => exact ⟨_, by simp only [accumIndex]; rw [if_pos (by omega)]⟩
          obtain ⟨rest, hr⟩ := this
          rw [hr]
          simp only [PlayStartTick.loop, Chunk.contains, hin, and_self, decide_true, if_true, hcur]
          simp only [addU32, subU32]
          by_cases hov : o + t ≤ U32_MAX
          · rw [if_pos hov, if_pos (by omega)]
            simp only [R_bind_ok]
            rw [if_pos (by omega)]
            simp only [R_bind_ok, R_pure, Except.ok.injEq]
            omega
          · rw [if_neg hov, if_neg (by omega)]
            simp only [R_bind_error]
      · obtain ⟨i1, i2⟩ := ih (o + (c.endTick - c.startTick)) (cur + 1) (by omega) (by omega) hwf'
        have hstep : PlayStartTick.loop ⟨t, k⟩ cur (accumIndex o (c :: cs)) =
            PlayStartTick.loop ⟨t, k⟩ (cur + 1) (accumIndex (o + (c.endTick - c.startTick)) cs) := by
          have : accumIndex o (c :: cs) = (o, c) :: accumIndex (o + (c.endTick - c.startTick)) cs := by
            cases cs with
            | nil => rfl
            | cons d ds => simp only [accumIndex]; rw [if_pos (by omega)]
          rw [this]
          simp only [PlayStartTick.loop, Chunk.contains, hin, and_self, decide_true, if_true, if_neg hcur]
          rw [if_pos (by omega)]
        rw [hstep]
        refine ⟨fun h => ?_, fun h => ?_⟩
        · obtain ⟨p, i, d, ⟨p1, p2⟩, ⟨d1, d2, d3, d4⟩, p3⟩ := i1 (by omega)
          refine ⟨(c.endTick - c.startTick) + p, i + 1, d, ⟨?_, ?_⟩, ⟨by simpa using d1, d2, d3, ?_⟩, ?_⟩
          · rw [List.getElem?_append_right (by rw [span_length]; omega), span_length]
            simpa using p1
          · have : List.take (c.endTick - c.startTick + p) (span c.startTick c.endTick ++ played cs) =
                span c.startTick c.endTick ++ List.take p (played cs) := by
              rw [← span_length, List.take_length_add_append]
            rw [this, List.count_append, count_span, if_pos hin]
            have gen : ∀ q : Nat, q + 1 = k - (cur + 1) + 1 → cur ≤ k → cur ≠ k → 1 + q + 1 = k - cur + 1 := by
              intro q; omega
            exact gen _ p2 h2 hcur
          · rw [List.take_succ_cons, played_cons, List.length_append, span_length]
            exact (Nat.add_assoc _ _ _).symm ▸ congrArg (_ + ·) d4
          · rw [p3, Nat.add_assoc o (c.endTick - c.startTick) p]
        · rw [i2 (by omega)]
          congr 3
          omega
    · rw [if_neg hin]
      by_cases hcs : cs = []
      · subst hcs
        refine ⟨fun h => by simp [played] at h; omega, fun h => ?_⟩
        simp only [accumIndex, PlayStartTick.loop, Chunk.contains, hin, decide_false, Bool.false_eq_true, if_false]
        simp [subU32, h1, played]
      · rw [hskip hin hcs]
        obtain ⟨i1, i2⟩ := ih (o + (c.endTick - c.startTick)) cur h1 h2 hwf'
        refine ⟨fun h => ?_, fun h => ?_⟩
        · obtain ⟨p, i, d, ⟨p1, p2⟩, ⟨d1, d2, d3, d4⟩, p3⟩ := i1 (by omega)
          refine ⟨(c.endTick - c.startTick) + p, i + 1, d, ⟨?_, ?_⟩, ⟨by simpa using d1, d2, d3, ?_⟩, ?_⟩
          · rw [List.getElem?_append_right (by rw [span_length]; omega), span_length]
            simpa using p1
          · have : List.take (c.endTick - c.startTick + p) (span c.startTick c.endTick ++ played cs) =
                span c.startTick c.endTick ++ List.take p (played cs) := by
              rw [← span_length, List.take_length_add_append]
            rw [this, List.count_append, count_span, if_neg hin]
            omega
          · rw [List.take_succ_cons, played_cons, List.length_append, span_length]
            exact (Nat.add_assoc _ _ _).symm ▸ congrArg (_ + ·) d4
          · rw [p3, Nat.add_assoc o (c.endTick - c.startTick) p]
        · rw [i2 (by omega)]
          congr 3
          omega

end Klavier
