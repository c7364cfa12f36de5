import Verif.Lemmas.Chunk

/-! # C34-C36: chunks and start positions -/
set_option autoImplicit false
namespace Klavier
open Spec

/-! ## C34 -/

/-- Merging leaves the sequence of played ticks unchanged. -/
theorem C34_order (cs : List Chunk) (h : ∀ c ∈ cs, c.startTick ≤ c.endTick) :
    played (Chunk.optimize cs) = played cs := by
  cases cs with
  | nil => rfl
  | cons c cs =>
    rw [Chunk.optimize, optimizeFrom_played cs c (h c (by simp)) (fun d hd => h d (by simp [hd])), played_cons]

example : played [⟨0, 2⟩, ⟨2, 4⟩, ⟨0, 2⟩] = [0, 1, 2, 3, 0, 1] ∧ played (Chunk.optimize [⟨0, 2⟩, ⟨2, 4⟩, ⟨0, 2⟩]) = [0, 1, 2, 3, 0, 1] := by decide

/-- No two neighbours of the result could be merged (any list). -/
theorem C34_merged (cs : List Chunk) (i : Nat) (a b : Chunk)
    (ha : (Chunk.optimize cs)[i]? = some a) (hb : (Chunk.optimize cs)[i + 1]? = some b) :
    a.endTick ≠ b.startTick := by
  have gen : ∀ (cs : List Chunk) (c : Chunk) (i : Nat) (a b : Chunk), (Chunk.optimizeFrom c cs)[i]? = some a →
      (Chunk.optimizeFrom c cs)[i + 1]? = some b → a.endTick ≠ b.startTick := by
    intro cs
    induction cs with
    | nil => intro c i a b ha hb; simp [Chunk.optimizeFrom] at hb
    | cons d cs ih =>
      intro c i a b ha hb
      simp only [Chunk.optimizeFrom] at ha hb
      by_cases h : c.endTick = d.startTick
      · rw [if_pos h] at ha hb
        exact ih _ i a b ha hb
      · rw [if_neg h] at ha hb
        cases i with
        | zero =>
          simp only [List.getElem?_cons_zero, Option.some.injEq] at ha
          obtain ⟨e, rest, hr⟩ := optimizeFrom_head cs d
          rw [List.getElem?_cons_succ, hr] at hb
          simp only [List.getElem?_cons_zero, Option.some.injEq] at hb
          rw [← ha, ← hb]
          exact h
        | succ i =>
          rw [List.getElem?_cons_succ] at ha hb
          exact ih d i a b ha hb
  cases cs with
  | nil => simp [Chunk.optimize] at ha
  | cons c cs => exact gen cs c i a b ha hb

example : Chunk.optimize [⟨0, 2⟩, ⟨2, 4⟩, ⟨4, 5⟩, ⟨0, 2⟩] = [⟨0, 5⟩, ⟨0, 2⟩] := by decide

/-- Merging a second time changes nothing. -/
theorem C34_idempotent (cs : List Chunk) : Chunk.optimize (Chunk.optimize cs) = Chunk.optimize cs := by
  have fix : ∀ (l : List Chunk) (c : Chunk),
      (∀ (i : Nat) (a b : Chunk), (c :: l)[i]? = some a → (c :: l)[i + 1]? = some b → a.endTick ≠ b.startTick) →
      Chunk.optimizeFrom c l = c :: l := by
    intro l
    induction l with
    | nil => intro c _; rfl
    | cons d l ih =>
      intro c h
      have h0 := h 0 c d (by simp) (by simp)
      rw [Chunk.optimizeFrom, if_neg h0, ih d ?_]
      intro i a b ha hb
      exact h (i + 1) a b (by simpa using ha) (by simpa using hb)
  have hm := C34_merged cs
  generalize Chunk.optimize cs = l at *
  cases l with
  | nil => rfl
  | cons c l => exact fix l c hm

example : Chunk.optimize [⟨0, 2⟩, ⟨2, 4⟩, ⟨7, 9⟩, ⟨9, 7⟩, ⟨7, 8⟩] = [⟨0, 4⟩, ⟨7, 8⟩] ∧
    Chunk.optimize [⟨0, 4⟩, ⟨7, 8⟩] = [⟨0, 4⟩, ⟨7, 8⟩] := by decide

/-- The result is made of the given boundaries: no chunk is longer than needed, no
new boundary appears, and the number of chunks does not grow. -/
theorem C34_boundaries (cs : List Chunk) :
    (Chunk.optimize cs).length ≤ cs.length ∧
    ∀ c ∈ Chunk.optimize cs, (∃ d ∈ cs, d.startTick = c.startTick) ∧ ∃ d ∈ cs, d.endTick = c.endTick := by
  have gen : ∀ (cs : List Chunk) (c : Chunk), (Chunk.optimizeFrom c cs).length ≤ cs.length + 1 ∧
      ∀ x ∈ Chunk.optimizeFrom c cs, (∃ d ∈ c :: cs, d.startTick = x.startTick) ∧ ∃ d ∈ c :: cs, d.endTick = x.endTick := by
    intro cs
    induction cs with
    | nil => intro c; simp [Chunk.optimizeFrom]
    | cons d cs ih =>
      intro c
      simp only [Chunk.optimizeFrom]
      by_cases h : c.endTick = d.startTick
      · rw [if_pos h]
        obtain ⟨i1, i2⟩ := ih ⟨c.startTick, d.endTick⟩
        refine ⟨by simp only [List.length_cons]; omega, ?_⟩
        intro x hx
        obtain ⟨⟨e, he1, he2⟩, f, hf1, hf2⟩ := i2 x hx
        constructor
        · rcases List.mem_cons.1 he1 with rfl | he1
          · exact ⟨c, by simp, he2⟩
          · exact ⟨e, by simp [he1], he2⟩
        · rcases List.mem_cons.1 hf1 with rfl | hf1
          · exact ⟨d, by simp, hf2⟩
          · exact ⟨f, by simp [hf1], hf2⟩
      · rw [if_neg h]
        obtain ⟨i1, i2⟩ := ih d
        refine ⟨by simp only [List.length_cons]; omega, ?_⟩
        intro x hx
        rcases List.mem_cons.1 hx with rfl | hx
        · exact ⟨⟨x, by simp, rfl⟩, x, by simp, rfl⟩
        · obtain ⟨⟨e, he1, he2⟩, f, hf1, hf2⟩ := i2 x hx
          exact ⟨⟨e, List.mem_cons_of_mem _ he1, he2⟩, f, List.mem_cons_of_mem _ hf1, hf2⟩
  cases cs with
  | nil => simp [Chunk.optimize]
  | cons c cs => exact gen cs c

example : Chunk.optimize [⟨0, 100⟩, ⟨100, 200⟩, ⟨100, 200⟩, ⟨200, U32_MAX⟩] = [⟨0, 200⟩, ⟨100, U32_MAX⟩] := by decide

/-! ## C35 -/

/-- The index exists exactly when the played time (without an open end) fits 32
bits, otherwise building it panics.  It is sorted; every chunk that is not empty,
and the last one, is found under the number of ticks played before it; nothing
else is in it. -/
theorem C35_index (cs : List Chunk) (h : ChunksOk cs) :
    let total := ((cs.filter (fun c => c.endTick ≠ U32_MAX)).map (fun c => c.endTick - c.startTick)).sum
    (total ≤ U32_MAX → ∃ idx, Chunk.byAccumTick cs = .ok idx ∧
      idx.Pairwise (fun a b => a.1 < b.1) ∧
      (∀ (i : Nat) (c : Chunk), cs[i]? = some c → (c.startTick < c.endTick ∨ i + 1 = cs.length) →
        ((played (cs.take i)).length, c) ∈ idx) ∧
      (∀ p ∈ idx, ∃ i : Nat, cs[i]? = some p.2 ∧ p.1 = (played (cs.take i)).length ∧
        (p.2.startTick < p.2.endTick ∨ i + 1 = cs.length))) ∧
    (U32_MAX < total → Chunk.byAccumTick cs = .error .overflow) := by
  intro total
  obtain ⟨h1, h2⟩ := byAccumLoop_eq cs 0 [] none (by simp) h (by simp)
  simp only [Nat.zero_add, Option.map_none, Option.toList_none, List.append_nil, List.nil_append] at h1 h2
  obtain ⟨m1, m2, m3⟩ := accumIndex_mem cs 0
  simp only [Nat.zero_add] at m1 m2
  exact ⟨fun ht => ⟨_, h1 ht, m3, m1, m2⟩, fun ht => h2 (by decide) ht⟩

example : ChunksOk [⟨0, 100⟩, ⟨0, 100⟩, ⟨100, 100⟩, ⟨100, U32_MAX⟩] ∧
    Chunk.byAccumTick [⟨0, 100⟩, ⟨0, 100⟩, ⟨100, 100⟩, ⟨100, U32_MAX⟩] =
      .ok [(0, ⟨0, 100⟩), (100, ⟨0, 100⟩), (200, ⟨100, U32_MAX⟩)] := by
  refine ⟨⟨by decide, by decide⟩, by decide⟩

/-- A playing order longer than 32 bits cannot be indexed: whatever the signature, a
repeat of 2^31 ticks or more is rendered, but indexing its chunks panics. -/
theorem C35_long_panics (ip : Bool) (tune : Rhythm) (t : Nat) (h1 : 2 ^ 31 ≤ t) (h2 : t < U32_MAX) :
    ∃ region ws cs,
      renderRegion ip tune [{ startTick := t, repeats := RepeatSet.EMPTY.set .End true }] = .ok (region, ws) ∧
      region.toChunks ip = .ok cs ∧ played cs = span 0 t ++ span 0 t ++ span t U32_MAX ∧ Chunk.byAccumTick cs = .error .overflow := by
  have h3 : (0 : Nat) < t := by omega
  refine ⟨⟨none, [.rep ⟨0, t⟩, .seq ⟨t, U32_MAX⟩]⟩, [], [⟨0, t⟩, ⟨0, t⟩, ⟨t, U32_MAX⟩], ?_, ?_, ?_, ?_⟩
  · cases t with
    | zero => omega
    | succ n => rfl
  · rfl
  · simp [played]
  · have hok : ChunksOk [⟨0, t⟩, ⟨0, t⟩, ⟨t, U32_MAX⟩] := by
      refine ⟨?_, ?_⟩
      · intro c hc
        simp only [List.mem_cons, List.not_mem_nil, or_false] at hc
        rcases hc with rfl | rfl | rfl <;> simp only <;> omega
      · intro c hc
        simp only [List.dropLast, List.mem_cons, List.not_mem_nil, or_false] at hc
        rcases hc with rfl | rfl <;> simp only <;> omega
    refine (C35_index _ hok).2 ?_
    have : t ≠ U32_MAX := by omega
    simp only [List.filter, this, ne_eq, not_false_eq_true, decide_true, not_true_eq_false, decide_false, List.map_cons, List.map_nil, List.sum_cons, List.sum_nil, U32_MAX]
    omega

example : ∃ t : Nat, 2 ^ 31 ≤ t ∧ t < U32_MAX := ⟨2 ^ 31, by decide, by decide⟩
example : (Chunk.byAccumTick [⟨0, 2 ^ 30⟩, ⟨0, 2 ^ 30⟩, ⟨0, 2 ^ 30⟩, ⟨0, U32_MAX⟩]).map (·.length) = .ok 4 := by decide

/-! ## C36 -/

/-- The position in played time of the requested occurrence.  `k` is the requested
iteration limited to 1..5.  If the tick is played at least `k` times, the answer
is the position `p` of its `k`-th occurrence in the played ticks; if it is played
less often, the answer is the number of its occurrences.  The first answer needs
that `p` plus the start of the chunk playing it fits 32 bits; otherwise the
program panics. -/
theorem C36_position_partial (cs : List Chunk) (h : ChunksOk cs) (idx : Store Chunk) (hidx : Chunk.byAccumTick cs = .ok idx)
    (tick iter : Nat) :
    let k := max 1 (min iter 5)
    let n := (played cs).count tick
    (k ≤ n → ∃ p i d, IsOccurrence (played cs) tick k p ∧
      (cs[i]? = some d ∧ d.startTick ≤ tick ∧ tick < d.endTick ∧
        p = (played (cs.take i)).length + (tick - d.startTick)) ∧
      (p + d.startTick ≤ U32_MAX → (PlayStartTick.new tick iter).toAccumTick idx = .ok (.ok p)) ∧
      (U32_MAX < p + d.startTick → (PlayStartTick.new tick iter).toAccumTick idx = .error .overflow)) ∧
    (n < k → (PlayStartTick.new tick iter).toAccumTick idx = .ok (.error ⟨k, n⟩)) := by
  intro k n
  have hk : PlayIter.new iter = k := by
    simp only [PlayIter.new]
    split <;> split <;> omega
  obtain ⟨h1, h2⟩ := byAccumLoop_eq cs 0 [] none (by simp) h (by simp)
  simp only [Nat.zero_add, Option.map_none, Option.toList_none, List.append_nil, List.nil_append] at h1 h2
  have hi : idx = accumIndex 0 cs := by
    by_cases ht : ((cs.filter (fun c => c.endTick ≠ U32_MAX)).map (fun c => c.endTick - c.startTick)).sum ≤ U32_MAX
    · have := h1 ht
      rw [Chunk.byAccumTick, this] at hidx
      cases hidx
      rfl
    · have := h2 (by decide) (by omega)
      rw [Chunk.byAccumTick, this] at hidx
      cases hidx
  subst hi
  have hk1 : 1 ≤ k := by omega
  have hk5 : k ≤ 5 := by omega
  obtain ⟨l1, l2⟩ := loop_index tick k hk5 cs 0 1 (by omega) hk1 (fun c hc => (h.1 c hc).1)
  have e : (PlayStartTick.new tick iter).toAccumTick (accumIndex 0 cs) =
      PlayStartTick.loop ⟨tick, k⟩ 1 (accumIndex 0 cs) := by
    simp only [PlayStartTick.toAccumTick, PlayStartTick.new, hk]
  rw [e]
  have hn : (played cs).count tick = n := rfl
  rw [hn] at l1 l2
  clear_value k n
  refine ⟨fun hkn => ?_, fun hnk => ?_⟩
  · obtain ⟨p, i, d, p1, p2, p3⟩ := l1 (by omega)
    have : k - 1 + 1 = k := Nat.sub_add_cancel hk1
    rw [this] at p1
    rw [Nat.zero_add] at p3
    refine ⟨p, i, d, p1, p2, fun hp => ?_, fun hp => ?_⟩
    · rw [p3, if_pos hp]
    · rw [p3, if_neg (Nat.not_le.2 hp)]
  · rw [l2 (by omega)]
    have : 1 + n - 1 = n := by omega
    rw [this]

example : ∃ idx, Chunk.byAccumTick [⟨0, 100⟩, ⟨20, 100⟩, ⟨0, U32_MAX⟩] = .ok idx ∧
    (PlayStartTick.new 50 9).toAccumTick idx = .ok (.error ⟨5, 3⟩) ∧ (PlayStartTick.new 50 0).toAccumTick idx = .ok (.ok 50) ∧
    (PlayStartTick.new 50 2).toAccumTick idx = .ok (.ok 130) := ⟨_, rfl, by decide, by decide, by decide⟩

/-- Of any list of accumulated positions and chunks, whether or not a score renders
to it: with the requested iteration limited to 1..5, the answer comes from the
`k`-th entry whose chunk contains the tick, or reports how many there are. -/
theorem C36_any (idx : List (Nat × Chunk)) (tick iter : Nat) :
    let k := max 1 (min iter 5)
    let hits := idx.filter (fun e => e.2.startTick ≤ tick ∧ tick < e.2.endTick)
    (PlayStartTick.new tick iter).toAccumTick idx =
      match hits[k - 1]? with
      | none => .ok (.error ⟨k, hits.length⟩)
      | some e =>
        if e.1 + tick ≤ U32_MAX then .ok (.ok (e.1 + tick - e.2.startTick)) else .error .overflow := by
  intro k hits
  have hk : PlayIter.new iter = k := by
    simp only [PlayIter.new]
    split <;> split <;> omega
  have hk1 : 1 ≤ k := by omega
  have hk5 : k ≤ 5 := by omega
  simp only [PlayStartTick.toAccumTick, PlayStartTick.new, hk]
  have gen : ∀ (l : List (Nat × Chunk)) (cur : Nat), 1 ≤ cur → cur ≤ k →
      PlayStartTick.loop ⟨tick, k⟩ cur l =
      match (l.filter (fun e => e.2.startTick ≤ tick ∧ tick < e.2.endTick))[k - cur]? with
      | none => .ok (.error ⟨k, cur - 1 + (l.filter (fun e => e.2.startTick ≤ tick ∧ tick < e.2.endTick)).length⟩)
      | some e =>
        if e.1 + tick ≤ U32_MAX then .ok (.ok (e.1 + tick - e.2.startTick)) else .error .overflow := by
    intro l
    induction l with
    | nil =>
      intro cur h1 _
      simp [PlayStartTick.loop, subU32, h1]
    | cons e l ih =>
      intro cur h1 h2
      obtain ⟨a, c⟩ := e
      by_cases hc : c.startTick ≤ tick ∧ tick < c.endTick
      · by_cases he : cur = k
        · subst he
          have : c.startTick ≤ a + tick := by omega
          simp only [PlayStartTick.loop, Chunk.contains, hc, addU32, subU32]
          by_cases ho : a + tick ≤ U32_MAX <;> simp [ho, hc, this]
        · have hs : k - cur = (k - (cur + 1)) + 1 := by omega
          have h255 : cur + 1 ≤ 255 := by omega
          have := ih (cur + 1) (by omega) (by omega)
          simp only [PlayStartTick.loop, Chunk.contains, hc, he, h255, if_true, if_false, decide_true, and_self] at this ⊢
          rw [this, List.filter_cons_of_pos (by simp [hc]), hs, List.getElem?_cons_succ, List.length_cons]
          have e1 : ∀ n, cur + 1 - 1 + n = cur - 1 + (n + 1) := by omega
          rw [e1]
      · simp only [PlayStartTick.loop, Chunk.contains, hc, decide_false, if_false, Bool.false_eq_true]
        rw [ih cur h1 h2, List.filter_cons_of_neg (by simpa using hc)]
  rw [gen idx 1 (by omega) hk1]
  simp only [Nat.sub_self, Nat.zero_add]
  rfl

example : (PlayStartTick.new 50 2).toAccumTick [(7, ⟨40, 60⟩), (0, ⟨60, 90⟩), (3, ⟨50, 51⟩)] = .ok (.ok 3) ∧
    (PlayStartTick.new 50 200).toAccumTick [(7, ⟨40, 60⟩), (0, ⟨60, 90⟩), (3, ⟨50, 51⟩)] = .ok (.error ⟨5, 2⟩) ∧
    (PlayStartTick.new 50 1).toAccumTick [(U32_MAX - 49, ⟨40, 60⟩)] = .error .overflow := by
  decide

/-- There is only one such position. -/
theorem C36_unique (l : List Nat) (t k p q : Nat) (hp : IsOccurrence l t k p) (hq : IsOccurrence l t k q) : p = q := by
  have gen : ∀ p q : Nat, IsOccurrence l t k p → IsOccurrence l t k q → ¬ p < q := by
    intro p q ⟨p1, p2⟩ ⟨_, q2⟩ hlt
    have hlen : p < l.length := by
      rcases Nat.lt_or_ge p l.length with h | h
      · exact h
      · rw [List.getElem?_eq_none h] at p1; cases p1
    have e : l.take q = l.take p ++ (l.drop p).take (q - p) := by
      have := List.take_add (l := l) (i := p) (j := q - p)
      rwa [Nat.add_sub_cancel' (by omega)] at this
    have hd : l.drop p = t :: l.drop (p + 1) := by
      rw [List.drop_eq_getElem_cons hlen]
      congr 1
      rw [List.getElem?_eq_getElem hlen] at p1
      exact Option.some.inj p1
    obtain ⟨m, hm⟩ : ∃ m, q - p = m + 1 := ⟨q - p - 1, by omega⟩
    rw [e, hd, hm, List.take_succ_cons, List.count_append, List.count_cons_self] at q2
    omega
  have h1 := gen p q hp hq
  have h2 := gen q p hq hp
  omega

example : IsOccurrence [0, 1, 0, 1, 2] 1 2 3 := by simp only [IsOccurrence]; decide

/-- The 32-bit proviso matters: in a score repeating the stretch from 2^31 - 1 to
2^31 + 1, the second occurrence of tick 2^31 is at position 2^31 + 2, far below the
limit, but asking for it panics. -/
theorem C36_overflow_false :
    let cs : List Chunk := [⟨0, 2 ^ 31 + 1⟩, ⟨2 ^ 31 - 1, U32_MAX⟩]
    ChunksOk cs ∧ 2 ≤ (played cs).count (2 ^ 31) ∧ ∃ idx, Chunk.byAccumTick cs = .ok idx ∧
      (PlayStartTick.new (2 ^ 31) 2).toAccumTick idx = .error .overflow := by
  refine ⟨⟨by decide, by decide⟩, ?_, _, rfl, by decide⟩
  rw [played_cons, played_cons, List.count_append, List.count_append, count_span, count_span, if_pos (by decide),
    if_pos (by decide)]
  exact Nat.le_add_left _ _

example : ∃ idx, Chunk.byAccumTick [⟨0, 100⟩, ⟨0, U32_MAX⟩] = .ok idx ∧
    (PlayStartTick.new 50 2).toAccumTick idx = .ok (.ok 150) ∧
    (PlayStartTick.new 100 1).toAccumTick idx = .ok (.ok 200) ∧
    (PlayStartTick.new 100 2).toAccumTick idx = .ok (.error ⟨2, 1⟩) := ⟨_, rfl, by decide, by decide, by decide⟩

end Klavier
