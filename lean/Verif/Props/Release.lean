import Verif.Lemmas.ReleaseBars
import Verif.Props.Project
import Verif.Props.Chunk

/-! # C75, C76: the program built without overflow checks -/
set_option autoImplicit false
namespace Klavier
open Spec

/-! ## C75: wherever the checks do not stop, nothing differs -/

/-- C75: pitches, octaves, lengths, tempos, trimmers and the grid. -/
theorem C75_values (p : Pitch) (s : Solfa) (o o' : Octave) (x y : Int) (d e : Duration) (t : Tempo) (g : Grid) (m : Trimmer)
    (a b c k : Int) (vs : List Int) (f : Int × Int × Int × Int → Int × Int × Int × Int) :
    Agrees (s.addAssign x) (Release.solfaAddAssign s x) ∧ Agrees (s.subAssign x) (Release.solfaSubAssign s x) ∧
    Agrees (Octave.valueOf x) (Release.octaveOf x) ∧
    Agrees (o.addAssign x) (Release.octaveAddAssign o x) ∧ Agrees (o.subAssign x) (Release.octaveSubAssign o x) ∧
    Agrees (o.add o') (Release.octaveAdd o o') ∧
    Agrees (p.withScoreOffsetDelta x) (Release.withScoreOffsetDelta p x) ∧
    Agrees p.up (Release.pitchUp p) ∧ Agrees p.down (Release.pitchDown p) ∧
    Agrees d.tickLength (Release.tickLength d) ∧ Agrees (d.min e) (Release.durationMin d e) ∧
    Agrees (t.drag x y) (Release.tempoDrag t x y) ∧ Agrees (g.snap x) (Release.snap g x) ∧
    Agrees (Trimmer.fromArray a b c k) (.ok (Release.trimmerFromArray a b c k)) ∧
    Agrees (Trimmer.fromVec vs) (Release.trimmerFromVec vs) ∧
    Agrees (m.updated f) (.ok (Release.trimmerUpdated m f)) ∧ Agrees (m.added x) (Release.trimmerAdded m x) :=
  ⟨Release.agrees_solfaAddAssign s x, Release.agrees_solfaSubAssign s x, Release.agrees_octaveOf x, Release.agrees_octaveAddAssign o x, Release.agrees_octaveSubAssign o x,
    Release.agrees_octaveAdd o o', Release.agrees_delta p x, Release.agrees_up p, Release.agrees_down p,
    Release.agrees_tickLength d, Release.agrees_durationMin d e, Release.agrees_tempoDrag t x y, Release.agrees_snap g x,
    Release.agrees_fromArray a b c k, Release.agrees_fromVec vs, Release.agrees_updated m f, Release.agrees_added m x⟩

example : (Octave.Oct3.addAssign 2 = .ok .Oct5 ∧ Release.octaveAddAssign .Oct3 2 = .ok .Oct5) ∧
    (Octave.Oct8.addAssign 1 = .error .index ∧ Release.octaveAddAssign .Oct8 1 = .error .index) ∧
    Octave.Oct3.addAssign 2147483647 = .error .overflow ∧
    (Grid.mk 0).snap 5 = .error .divZero ∧ Release.snap ⟨0⟩ 5 = .error .divZero := by decide

/-- C75: notes and tuplets. -/
theorem C75_notes (n : Note) (x y : Int) (b : Bool) (ns : List Note) :
    Agrees n.tickLen (Release.noteTickLen n) ∧ Agrees (n.withTickAdded x b) (Release.noteWithTickAdded n x b) ∧
    Agrees (n.drag x y) (Release.noteDrag n x y) ∧ Agrees (n.addDots x) (Release.addDots n x) ∧
    Agrees (Tuple.tuplize ns) (Release.tuplize ns) :=
  ⟨Release.agrees_tickLen n, Release.agrees_withTickAdded n x b, Release.agrees_noteDrag n x y,
    Release.agrees_addDots n x, Release.agrees_tuplize ns⟩

example : Tuple.tuplize [exampleNote, { exampleNote with baseStartTick := 340 }, { exampleNote with baseStartTick := 580 }] ≠ .error .overflow ∧
    exampleNote.tickLen ≠ .error .overflow := by decide +kernel

/-- C75: the questions a project answers, and every sequence of edits, undo and redo. -/
theorem C75_project (p : Project) (loc : Location) (tick : Nat) (s : Session) (os : List Op) :
    Agrees (p.locationToTick loc) (Release.locationToTick p loc) ∧
    Agrees (p.tickToLocation tick) (Release.tickToLocation p tick) ∧
    Agrees p.noteMaxEndTick (Release.noteMaxEndTick p) ∧
    (∀ e, Agrees (p.exec e) (Release.exec p e)) ∧
    Agrees (s.run os) (Release.sessionRun s os) :=
  ⟨Release.agrees_locationToTick p loc, Release.agrees_tickToLocation p tick, Release.agrees_noteMaxEndTick p,
    Release.agrees_exec p, Release.agrees_session os s⟩

example : (exampleProject.exec (.addTempo ⟨5000, ⟨100⟩⟩ true)).isOk ∧ exampleProject.locationToTick ⟨2, 7⟩ = .ok (.ok 1007) ∧
    Release.locationToTick exampleProject ⟨2, 7⟩ = .ok (.ok 1007) := by decide +kernel

/-- C75: rendering the repeats and finding a position in the playing order. -/
theorem C75_render (ip : Bool) (r : Rhythm) (bars : List Bar) (c : CompoundRegion) (cs : List Chunk)
    (p : PlayStartTick) (idx : List (Nat × Chunk)) :
    AgreesRR (renderRegion ip r bars) (Release.renderRegion ip r bars) ∧
    Agrees (c.toChunks ip) (Release.toChunks ip c) ∧
    Agrees (Chunk.byAccumTick cs) (.ok (Release.byAccumTick cs)) ∧
    Agrees (p.toAccumTick idx) (.ok (Release.toAccumTick p idx)) :=
  ⟨Release.agrees_renderRegion ip r bars, Release.agrees_toChunks ip c, Release.agrees_byAccumTick cs,
    Release.agrees_toAccumTick p idx⟩

example (ip : Bool) : (renderRegion ip ⟨4, .D4⟩ [{ startTick := 960, repeats := RepeatSet.EMPTY.set .End true }]).isOk = true ∧
    Chunk.byAccumTick [⟨0, 960⟩, ⟨0, U32_MAX⟩] = .ok [(0, ⟨0, 960⟩), (960, ⟨0, U32_MAX⟩)] := ⟨rfl, by decide⟩

/-! ## C76: what is computed where the checks would stop -/

/-- C76: the start position is right wherever it fits 32 bits, also where the checked
build stops: of the entries whose chunk contains the tick the one asked for, its
position plus the distance into it (modulo 2^32). -/
theorem C76_start (idx : List (Nat × Chunk)) (tick iter : Nat) (ht : tick ≤ U32_MAX)
    (hi : ∀ e ∈ idx, e.1 ≤ U32_MAX) :
    let k := max 1 (min iter 5)
    let hits := idx.filter (fun e => e.2.startTick ≤ tick ∧ tick < e.2.endTick)
    Release.toAccumTick (PlayStartTick.new tick iter) idx =
      match hits[k - 1]? with
      | none => .error ⟨k, hits.length⟩
      | some e => .ok ((e.1 + (tick - e.2.startTick)) % 2 ^ 32) := by
  intro k hits
  have hk : PlayIter.new iter = k := by
    simp only [PlayIter.new]
    split <;> split <;> omega
  have hk1 : 1 ≤ k := by omega
  have hk5 : k ≤ 5 := by omega
  simp only [Release.toAccumTick, PlayStartTick.new, hk]
  have gen : ∀ (l : List (Nat × Chunk)) (cur : Nat), (∀ e ∈ l, e.1 ≤ U32_MAX) → 1 ≤ cur → cur ≤ k →
      Release.startLoop ⟨tick, k⟩ cur l =
      match (l.filter (fun e => e.2.startTick ≤ tick ∧ tick < e.2.endTick))[k - cur]? with
      | none => .error ⟨k, cur - 1 + (l.filter (fun e => e.2.startTick ≤ tick ∧ tick < e.2.endTick)).length⟩
      | some e => .ok ((e.1 + (tick - e.2.startTick)) % 2 ^ 32) := by
    intro l
    induction l with
    | nil =>
      intro cur _ h1 _
      simp only [Release.startLoop, List.filter_nil, List.getElem?_nil, List.length_nil]
      rw [if_neg (by omega)]; rfl
    | cons e l ih =>
      intro cur hl h1 h2
      obtain ⟨a, c⟩ := e
      have ha : a ≤ U32_MAX := hl (a, c) (by simp)
      have hl' : ∀ e ∈ l, e.1 ≤ U32_MAX := fun e he => hl e (by simp [he])
      by_cases hc : c.startTick ≤ tick ∧ tick < c.endTick
      · rw [List.filter_cons_of_pos (by simpa using hc)]
        by_cases he : cur = k
        · subst he
          simp only [Release.startLoop, Chunk.contains]
          rw [if_pos (by simpa using hc), if_pos trivial]
          simp only [Nat.sub_self, List.getElem?_cons_zero]
          congr 1
          simp only [U32_MAX] at ht ha
          have h32 : (2 : Nat) ^ 32 = 4294967296 := rfl
          have hadd : Release.add32 a tick = (a + tick) % 4294967296 := rfl
          rw [h32, hadd]
          generalize hm : (a + tick) % 4294967296 = m
          unfold Release.sub32
          split <;> omega
        · simp only [Release.startLoop, Chunk.contains]
          rw [if_pos (by simpa using hc), if_neg he, Nat.mod_eq_of_lt (by omega), ih (cur + 1) hl' (by omega) (by omega)]
          have : k - cur = (k - (cur + 1)) + 1 := by omega
          rw [this, List.getElem?_cons_succ]
          simp only [List.length_cons]
          have : cur + 1 - 1 + (l.filter (fun e => decide (e.2.startTick ≤ tick ∧ tick < e.2.endTick))).length =
            cur - 1 + ((l.filter (fun e => decide (e.2.startTick ≤ tick ∧ tick < e.2.endTick))).length + 1) := by omega
          rw [this]
      · rw [List.filter_cons_of_neg (by simpa using hc)]
        simp only [Release.startLoop, Chunk.contains]
        rw [if_neg (by simpa using hc), ih cur hl' h1 h2]
  have := gen idx 1 hi (by omega) hk1
  rw [this]
  simp only [Nat.sub_self, Nat.zero_add]
  rfl

example : (PlayStartTick.new 3000000000 2).toAccumTick [(0, ⟨0, 3000000001⟩), (3000000001, ⟨2999999000, U32_MAX⟩)] = .error .overflow ∧
    Release.toAccumTick (PlayStartTick.new 3000000000 2) [(0, ⟨0, 3000000001⟩), (3000000001, ⟨2999999000, U32_MAX⟩)] =
      .ok 3000001001 := by decide

/-- C76: a location becomes its exact tick modulo 2^64, an error if that exceeds 32 bits. -/
theorem C76_location_partial (p : Project) (h : WF p) (loc : Location) (r : Rhythm)
    (hr : LatestValue p.bars Bar.rhythm p.rhythm (lastBarTick p.bars) r) (ho : loc.offset ≤ USIZE_MAX) :
    let tick := (barStart p.bars r.tickLen loc.barNo + loc.offset) % 2 ^ 64
    Release.locationToTick p loc = .ok (if U32_MAX < loc.barNo ∨ U32_MAX < tick then .error .overflow else .ok tick) := by
  have hra : p.rhythmAt (lastBarTick p.bars) = .ok r := by
    obtain ⟨⟨r', h1, h2⟩, -⟩ := C16_rhythm_key p h (lastBarTick p.bars)
    rw [h1, latestValue_unique h.bars h2 hr]
  obtain ⟨bn, off⟩ := loc
  intro tick
  have ht : tick = (barStart p.bars r.tickLen bn + off) % 2 ^ 64 := rfl
  clear_value tick
  simp only at ho ⊢
  have h64 : (2 : Nat) ^ 64 = 18446744073709551616 := rfl
  rw [h64] at ht
  generalize hS : barStart p.bars r.tickLen bn = S at *
  have fin : ∀ x, x = tick → ¬ U32_MAX < bn →
      (Except.ok (if U32_MAX < x then Except.error LocationError.overflow else .ok x) : R (Except LocationError Nat)) =
      .ok (if U32_MAX < bn ∨ U32_MAX < tick then .error .overflow else .ok tick) := by
    rintro x rfl hb
    by_cases hx : U32_MAX < x
    · rw [if_pos hx, if_pos (.inr hx)]
    · rw [if_neg hx, if_neg (by omega)]
  simp only [Release.locationToTick]
  by_cases h0 : bn = 0
  · subst h0
    have : barStart p.bars r.tickLen 0 = 0 := by cases p.bars <;> rfl
    rw [if_pos rfl]
    simp only [USIZE_MAX] at ho
    exact fin _ (by omega) (by omega)
  · rw [if_neg h0]
    by_cases h1 : U32_MAX < bn
    · rw [if_pos h1, if_pos (.inl h1)]
    · rw [if_neg h1]
      obtain ⟨n, rfl⟩ : ∃ n, bn = n + 1 := ⟨bn - 1, by omega⟩
      cases hb : p.bars with
      | nil =>
        rw [hb] at hS hr
        have hrr : r = p.rhythm := by
          rcases hr with ⟨-, hr⟩ | ⟨q, hq, -⟩
          · exact hr
          · simp at hq
        simp only [barStart] at hS
        simp only [List.length_nil]
        rw [if_neg (by omega)]
        have hlast : p.lastBar = none := by simp [Project.lastBar, hb, Store.peekLast]
        simp only [hlast, R_bind_ok, R_pure]
        rw [← hrr]
        refine fin _ ?_ h1
        simp only [Release.add64, Release.mul64, hS]
        rw [ht, Nat.mod_add_mod]
      | cons b bs =>
        rw [hb] at hS
        simp only [barStart] at hS
        by_cases hle : n + 1 ≤ (b :: bs).length
        · rw [if_pos hle]
          rw [if_pos (by omega)] at hS
          have hget : (b :: bs)[n]? = some (b :: bs)[n] := by
            rw [List.getElem?_eq_getElem (by omega)]
          rw [hget] at hS
          simp only [Option.getD_some] at hS
          simp only [Nat.add_sub_cancel, idx_eq hget, R_bind_ok, R_pure]
          refine fin _ ?_ h1
          simp only [Release.add64, hS, ht]
        · rw [if_neg hle]
          rw [if_neg (by omega)] at hS
          obtain ⟨z, hz⟩ : ∃ z, (b :: bs).getLast? = some z := by
            cases hg : (b :: bs).getLast? with
            | none => simp at hg
            | some z => exact ⟨z, rfl⟩
          have hzm : z ∈ p.bars := by rw [hb]; exact List.mem_of_getLast? hz
          have hzk := (h.barsKeyed z hzm).1
          have hlast : p.lastBar = some ((b :: bs).length - 1, z.2) := by
            simp only [Project.lastBar, Store.peekLast, hb, hz]
          have hlt : lastBarTick p.bars = z.1 := by simp only [lastBarTick, hb, hz]; rfl
          rw [hlt] at hra
          rw [hz] at hS
          simp only [Option.getD_some] at hS
          simp only [hlast, ← hzk, hra, R_bind_ok, R_pure]
          have hpos : 0 < (b :: bs).length := by simp
          have e1 : Release.sub64 (Release.sub64 (n + 1) ((b :: bs).length - 1)) 1 = n + 1 - (b :: bs).length := by
            have e2 : Release.sub64 (n + 1) ((b :: bs).length - 1) = n + 1 - ((b :: bs).length - 1) := if_pos (by omega)
            rw [e2]
            unfold Release.sub64
            rw [if_pos (by omega)]; omega
          rw [e1]
          refine fin _ ?_ h1
          simp only [Release.add64, Release.mul64]
          generalize (n + 1 - (b :: bs).length) * r.tickLen = x at *
          omega

example : LatestValue exampleProject.bars Bar.rhythm exampleProject.rhythm (lastBarTick exampleProject.bars) ⟨2, .D4⟩ ∧
    Release.locationToTick exampleProject ⟨4, 18446744073709549336⟩ = .ok (.ok 200) := by
  refine ⟨?_, by decide⟩
  exact .inr ⟨(1000, { startTick := 1000, rhythm := some ⟨2, .D4⟩ }), by simp [exampleProject], by decide, rfl,
    by simp [exampleProject]⟩

/-- C76: so a location far behind the end can become a tick before its bar. -/
theorem C76_location_false : ∃ (p : Project) (loc : Location), WF p ∧ loc.offset ≤ USIZE_MAX ∧
    p.bars[loc.barNo - 1]?.map (·.1) = some 100 ∧ Release.locationToTick p loc = .ok (.ok 99) :=
  ⟨exampleProject, ⟨1, 18446744073709551615⟩, exampleProject_wf, by decide, by decide, by decide⟩

/-- C76: a trimmer made from four values holds them, with a total that differs from
their sum by a multiple of 2^16. -/
theorem C76_trimmer_partial (a b c d : Int) :
    let t := Release.trimmerFromArray a b c d
    t.v0 = a ∧ t.v1 = b ∧ t.v2 = c ∧ t.v3 = d ∧ I16_MIN ≤ t.sum ∧ t.sum ≤ I16_MAX ∧
      ∃ k : Int, t.sum = a + b + c + d + 65536 * k := by
  refine ⟨rfl, rfl, rfl, rfl, ?_, ?_, ?_⟩
  · simp only [Release.trimmerFromArray, Release.wrapI16, I16_MIN]; omega
  · simp only [Release.trimmerFromArray, Release.wrapI16, I16_MAX]; omega
  · simp only [Release.trimmerFromArray, Release.wrapI16]
    exact ⟨-((((((a + b + 32768) % 65536 - 32768 + c) + 32768) % 65536 - 32768) + d + 32768) / 65536 +
      (((a + b + 32768) % 65536 - 32768 + c) + 32768) / 65536 + (a + b + 32768) / 65536), by omega⟩

example : (Release.trimmerFromArray 20000 20000 0 0).sum = -25536 ∧ Trimmer.fromArray 20000 20000 0 0 = .error .overflow ∧
    (Release.trimmerFromArray 20000 20000 (-10000) 0).sum = 30000 := by decide

/-- C76: so a trimmer reloaded from a file can move its note the other way. -/
theorem C76_trimmer_false : ∃ a b c d : Int, (∀ x ∈ [a, b, c, d], I16_MIN ≤ x ∧ x ≤ I16_MAX) ∧
    0 < (Trimmer.new a b c d).sum ∧ (Release.trimmerFromArray a b c d).sum < 0 :=
  ⟨20000, 20000, 0, 0, by decide, by decide, by decide⟩

/-- C76: moving by trimming never stops; it does what the checked build does for the
distance that wraps in the first slot. -/
theorem C76_added (t : Trimmer) (x : Int) (h0 : I16_MIN ≤ t.v0 ∧ t.v0 ≤ I16_MAX) (h1 : I16_MIN ≤ t.v1 ∧ t.v1 ≤ I16_MAX)
    (h2 : I16_MIN ≤ t.v2 ∧ t.v2 ≤ I16_MAX) (h3 : I16_MIN ≤ t.v3 ∧ t.v3 ≤ I16_MAX)
    (hx : I32_MIN ≤ x ∧ x ≤ I32_MAX) :
    let y := if I32_MAX < t.v0 + x then x - 2 ^ 32 else if t.v0 + x < I32_MIN then x + 2 ^ 32 else x
    t.added y ≠ .error .overflow ∧ Release.trimmerAdded t x = t.added y := by
  intro y
  have hy : y = Release.wrapI32 (t.v0 + x) - t.v0 := by
    simp only [y, Release.wrapI32]
    simp only [I16_MIN, I16_MAX, I32_MIN, I32_MAX] at *
    have h32 : (2 : Int) ^ 32 = 4294967296 := rfl
    rw [h32]
    split
    · omega
    · split <;> omega
  clear_value y
  have slot : ∀ v z : Int, I32_MIN ≤ v + z → v + z ≤ I32_MAX → Trimmer.addSlot v z ≠ .error .overflow := by
    intro v z ha hb
    simp only [Trimmer.addSlot, chkI32, if_pos (⟨ha, hb⟩ : I32_MIN ≤ v + z ∧ v + z ≤ I32_MAX), R_bind_ok]
    split
    · intro hc; cases hc
    · split <;> (intro hc; cases hc)
  have many : ∀ (vs : List Int), (∀ v ∈ vs, I16_MIN ≤ v ∧ v ≤ I16_MAX) → ∀ (v z : Int), I32_MIN ≤ v + z →
      v + z ≤ I32_MAX → Trimmer.addSlots (v :: vs) z ≠ .error .overflow := by
    intro vs
    induction vs with
    | nil =>
      intro _ v z ha hb
      simp only [Trimmer.addSlots, Trimmer.addSlot, chkI32,
        if_pos (⟨ha, hb⟩ : I32_MIN ≤ v + z ∧ v + z ≤ I32_MAX), R_bind_ok]
      split
      · intro hc; cases hc
      · split <;> (intro hc; cases hc)
    | cons w vs ih =>
      intro hw v z ha hb
      have hww := hw w (by simp)
      have ih' := ih (fun u hu => hw u (by simp [hu])) w
      rw [Trimmer.addSlots]
      simp only [Trimmer.addSlot, chkI32, if_pos (⟨ha, hb⟩ : I32_MIN ≤ v + z ∧ v + z ≤ I32_MAX), R_bind_ok]
      simp only [I16_MIN, I16_MAX, I32_MIN, I32_MAX] at *
      split
      · have := ih' (v + z - 32767) (by omega) (by omega)
        simp only [R_bind_ok, R_pure]
        cases hc : Trimmer.addSlots (w :: vs) (v + z - 32767) with
        | error e => rw [hc] at this; intro hh; apply this; cases hh; rfl
        | ok l => intro hh; cases hh
      · split
        · have := ih' (v + z - -32768) (by omega) (by omega)
          simp only [R_bind_ok, R_pure]
          cases hc : Trimmer.addSlots (w :: vs) (v + z - -32768) with
          | error e => rw [hc] at this; intro hh; apply this; cases hh; rfl
          | ok l => intro hh; cases hh
        · intro hc; cases hc
  have hne : Trimmer.addSlots [t.v0, t.v1, t.v2, t.v3] y ≠ .error .overflow := by
    apply many
    · intro v hv
      simp only [List.mem_cons, List.not_mem_nil, or_false] at hv
      rcases hv with rfl | rfl | rfl <;> assumption
    · rw [hy]; simp only [Release.wrapI32, I32_MIN]; omega
    · rw [hy]; simp only [Release.wrapI32, I32_MAX]; omega
  have hsame : Release.addSlots [t.v0, t.v1, t.v2, t.v3] x = Release.addSlots [t.v0, t.v1, t.v2, t.v3] y := by
    have : Release.addSlot t.v0 x = Release.addSlot t.v0 y := by
      simp only [Release.addSlot]
      have : Release.wrapI32 (t.v0 + y) = Release.wrapI32 (t.v0 + x) := by
        rw [hy]; simp only [Release.wrapI32]; omega
      rw [this]
    simp only [Release.addSlots, this]
  have hadd : t.added y ≠ .error .overflow := by
    unfold Trimmer.added
    cases hc : Trimmer.addSlots [t.v0, t.v1, t.v2, t.v3] y with
    | error e => rw [hc] at hne; intro hh; apply hne; cases hh; rfl
    | ok l =>
      simp only [R_bind_ok]
      split <;> (intro hh; cases hh)
  refine ⟨hadd, ?_⟩
  rw [← Release.agrees_added t y hadd]
  simp only [Release.trimmerAdded, hsame]

example : Trimmer.added (Trimmer.new 1 0 0 0) 2147483647 = .error .overflow ∧
    Release.trimmerAdded (Trimmer.new 1 0 0 0) 2147483647 = .ok ⟨-32768, -32768, -32768, -32768, -131072⟩ ∧
    Trimmer.added (Trimmer.new 1 0 0 0) (2147483647 - 2 ^ 32) = .ok ⟨-32768, -32768, -32768, -32768, -131072⟩ := by decide

/-- C76: moving a pitch by staff positions is refused outside the range, and never
stops at an overflow. -/
theorem C76_pitch (p : Pitch) (x : Int) (hp : Pitch.MIN_SCORE_OFFSET ≤ p.scoreOffset ∧ p.scoreOffset ≤ Pitch.MAX_SCORE_OFFSET)
    (hx : I32_MIN ≤ x ∧ x ≤ I32_MAX) (hr : p.scoreOffset + x < Pitch.MIN_SCORE_OFFSET ∨ Pitch.MAX_SCORE_OFFSET < p.scoreOffset + x) :
    ∃ y, Release.withScoreOffsetDelta p x = .ok (.error (.invalidScoreOffset y)) := by
  simp only [Release.withScoreOffsetDelta]
  rw [if_pos]
  · exact ⟨_, rfl⟩
  · simp only [Release.wrapI32, Pitch.MIN_SCORE_OFFSET, Pitch.MAX_SCORE_OFFSET, I32_MIN, I32_MAX] at *
    omega

example : (Pitch.mk .C .Oct3 .Null 60 35).withScoreOffsetDelta 2147483647 = .error .overflow ∧
    Release.withScoreOffsetDelta (Pitch.mk .C .Oct3 .Null 60 35) 2147483647 = .ok (.error (.invalidScoreOffset (-2147483614))) := by
  decide

/-- C76: adding dots is refused unless the exact number of dots is 0 to 7, and never
stops. -/
theorem C76_dots (n : Note) (k : Int) (hd : n.duration.dots ≤ 255) (hk : I32_MIN ≤ k ∧ k ≤ I32_MAX) :
    if 0 ≤ n.duration.dots + k ∧ n.duration.dots + k ≤ 7 then
      Release.addDots n k = .ok (.ok { n with duration := { n.duration with dots := ((n.duration.dots : Int) + k).toNat } })
    else ∃ x, Release.addDots n k = .ok (.error x) := by
  simp only [I32_MIN, I32_MAX] at hk
  split
  · rename_i h
    have hw : Release.wrapI32 (n.duration.dots + k) = n.duration.dots + k := by
      simp only [Release.wrapI32]; omega
    simp only [Release.addDots, hw]
    rw [if_neg (by omega)]
    have hf : Dots.fromValue (((n.duration.dots : Int) + k).toNat) = some (((n.duration.dots : Int) + k).toNat) := by
      simp only [Dots.fromValue]
      rw [if_neg (by omega)]
    rw [hf]; rfl
  · rename_i h
    simp only [Release.addDots]
    rw [if_pos (by simp only [Release.wrapI32]; omega)]
    exact ⟨_, rfl⟩

example : Release.addDots exampleNote 2 = .ok (.ok { exampleNote with duration := ⟨.Quarter, 2, 2⟩ }) ∧
    Release.addDots { exampleNote with duration := ⟨.Quarter, 2, 200⟩ } 2147483647 = .ok (.error (-2147483449)) ∧
    Note.addDots { exampleNote with duration := ⟨.Quarter, 2, 200⟩ } 2147483647 = .error .overflow := by decide +kernel

/-- C76: a number of dots read from a file counts modulo 32. -/
theorem C76_length (d : Duration) (h : d.denominator ≠ 0) :
    Release.tickLength d = Duration.tickLength { d with dots := d.dots % 32 } := by
  simp only [Release.tickLength, Duration.tickLength]
  by_cases h1 : d.dots = 0 ∧ d.denominator = 2
  · rw [if_pos h1, if_pos (by omega)]
  · rw [if_neg h1, if_neg h]
    by_cases h2 : d.dots % 32 = 0 ∧ d.denominator = 2
    · rw [if_pos h2]
      rw [h2.1, h2.2]
      congr 1
      simp
    · rw [if_neg h2, if_neg (by omega)]

example : Duration.tickLength ⟨.Quarter, 2, 33⟩ = .error .overflow ∧ Release.tickLength ⟨.Quarter, 2, 33⟩ = .ok 360 := by decide

/-- C76: dragging a tempo gives the exact result of C48 everywhere. -/
theorem C76_tempo (t : Tempo) (dt dv : Int) :
    Release.tempoDrag t dt dv =
      .ok ⟨(((t.startTick : Int) + dt) % 2 ^ 32).toNat, ⟨min 999 (((t.value.value : Int) + dv) % 2 ^ 16).toNat⟩⟩ := by
  simp only [Release.tempoDrag, TempoValue.safeNew, TempoValue.new]
  have e : asU16 (Release.wrapI32 (t.value.value + dv)) = (((t.value.value : Int) + dv) % 2 ^ 16).toNat := by
    have h5 : (2 : Int) ^ 16 = 65536 := rfl
    rw [h5]
    simp only [asU16, Release.wrapI32]
    omega
  rw [e]
  generalize (((t.value.value : Int) + dv) % 2 ^ 16).toNat = x
  have h6 : (if 999 < x then 999 else x) = min 999 x := by split <;> omega
  rw [h6, if_neg (by omega)]
  rfl

example : Release.tempoDrag ⟨10, ⟨100⟩⟩ 5 2147483647 = .ok ⟨15, ⟨99⟩⟩ ∧ Tempo.drag ⟨10, ⟨100⟩⟩ 5 2147483647 = .error .overflow := by
  decide

/-- C76: a tick near the limit of `i64` snaps to the other end. -/
theorem C76_snap_false : ∃ (g : Grid) (x : Int), 0 < g.value ∧ g.value ≤ U32_MAX ∧ I64_MIN ≤ x ∧ x ≤ I64_MAX ∧ 0 < x ∧
    ∃ y, Release.snap g x = .ok y ∧ y < 0 := ⟨⟨100⟩, 9223372036854775807, by decide, by decide, by decide, by decide, by decide,
      -9223372036854775700, by decide, by decide⟩

/-- C76: snapping where half the grid cannot be added within 64 bits.  The sum, off by
2^64, is rounded towards zero to the grid. -/
theorem C76_snap_partial (g : Grid) (hg : 0 < g.value) (hg2 : g.value ≤ U32_MAX) (x : Int) (h0 : I64_MIN ≤ x) (h1 : x ≤ I64_MAX) :
    (0 ≤ x → 2 ^ 63 ≤ x + (g.value / 2 : Nat) →
      Release.snap g x = .ok (-(g.value * ((2 ^ 64 - (x + (g.value / 2 : Nat))) / g.value)))) ∧
    (x < 0 → x - (g.value / 2 : Nat) < -2 ^ 63 →
      Release.snap g x = .ok (g.value * ((2 ^ 64 + (x - (g.value / 2 : Nat))) / g.value))) := by
  have h2 : (g.value : Int).tdiv 2 = ((g.value / 2 : Nat) : Int) := by
    rw [Int.tdiv_eq_ediv_of_nonneg (by omega)]; omega
  have bnd : ∀ y : Int, 0 ≤ y → 0 ≤ (g.value : Int) * (y / g.value) ∧ (g.value : Int) * (y / g.value) ≤ y := by
    intro y hy
    exact ⟨Int.mul_nonneg (by omega) (Int.ediv_nonneg hy (by omega)), Int.mul_ediv_self_le (by omega)⟩
  have p1 : (2 : Int) ^ 63 = 9223372036854775808 := rfl
  have p2 : (2 : Int) ^ 64 = 18446744073709551616 := rfl
  rw [p1, p2]
  simp only [I64_MIN, I64_MAX, U32_MAX] at h0 h1 hg2
  generalize hh : ((g.value / 2 : Nat) : Int) = w at *
  have hw : 0 ≤ w ∧ w ≤ 2147483647 := by omega
  simp only [Release.snap, h2]
  rw [if_neg (by omega)]
  constructor
  · intro hx ho
    rw [if_neg (by omega)]
    have e : Release.wrapI64 (x + w) = -(18446744073709551616 - (x + w)) := by
      simp only [Release.wrapI64]; omega
    have b := bnd (18446744073709551616 - (x + w)) (by omega)
    rw [e, Int.neg_tdiv, Int.tdiv_eq_ediv_of_nonneg (by omega), Int.mul_neg]
    congr 1
    simp only [Release.wrapI64]; omega
  · intro hx ho
    rw [if_pos hx]
    have e : Release.wrapI64 (x - w) = 18446744073709551616 + (x - w) := by
      simp only [Release.wrapI64]; omega
    have b := bnd (18446744073709551616 + (x - w)) (by omega)
    rw [e, Int.tdiv_eq_ediv_of_nonneg (by omega)]
    congr 1
    simp only [Release.wrapI64]; omega

example : Release.snap ⟨100⟩ 9223372036854775790 = .ok (-9223372036854775700) ∧
    Release.snap ⟨1000⟩ (-9223372036854775800) = .ok 9223372036854775000 := by decide

/-- C76: completing the bars.  The starts of the bars go on modulo 2^32 from the last
one; if one of them reaches the end of the music they stop with the first that does,
and otherwise the loop never ends. -/
theorem C76_bars (len e b : Nat) (hb : b ≤ U32_MAX) (hlen : 0 < len) :
    let start := fun i => (b + i * len) % 2 ^ 32
    (∀ k, (∀ i, i < k → start i < e) → e ≤ start k → Release.newBars len e (4294967296 + e) b =
      .ok ((List.range k).map (fun i => { startTick := start (i + 1) }))) ∧
    ((∀ i, start i < e) → Release.newBars len e (4294967296 + e) b = .error .diverge) := by
  intro start
  have hM : (2 : Nat) ^ 32 = 4294967296 := rfl
  simp only [U32_MAX] at hb
  have step : ∀ c i, (Release.add32 c len + i * len) % 4294967296 = (c + (i + 1) * len) % 4294967296 := by
    intro c i
    simp only [Release.add32]
    rw [Nat.mod_add_mod, Nat.add_mul, Nat.one_mul]
    congr 1; omega
  have lt : ∀ c, Release.add32 c len < 4294967296 := fun c => Nat.mod_lt _ (by omega)
  constructor
  · intro k hk he
    have hkM : k < 4294967296 := by
      apply Classical.byContradiction
      intro hge
      have := hk (k - 4294967296) (by omega)
      have hs : start (k - 4294967296) = start k := by
        simp only [start, hM]
        have : b + k * len = b + (k - 4294967296) * len + 4294967296 * len := by
          rw [Nat.add_assoc, ← Nat.add_mul]
          congr 2; omega
        rw [this, Nat.add_mul_mod_self_left]
      omega
    have gen : ∀ (k fuel c : Nat), c < 4294967296 → k ≤ fuel → (∀ i, i < k → (c + i * len) % 4294967296 < e) →
        e ≤ (c + k * len) % 4294967296 →
        Release.newBars len e fuel c = .ok ((List.range k).map (fun i => { startTick := (c + (i + 1) * len) % 4294967296 })) := by
      intro k
      induction k with
      | zero =>
        intro fuel c hc _ _ h2
        rw [Nat.zero_mul, Nat.add_zero, Nat.mod_eq_of_lt hc] at h2
        cases fuel with
        | zero => rw [Release.newBars, if_neg (by omega)]; rfl
        | succ f => rw [Release.newBars, if_neg (by omega)]; rfl
      | succ k ih =>
        intro fuel c hc hf h1 h2
        obtain ⟨f, rfl⟩ : ∃ f, fuel = f + 1 := ⟨fuel - 1, by omega⟩
        have h0 := h1 0 (by omega)
        rw [Nat.zero_mul, Nat.add_zero, Nat.mod_eq_of_lt hc] at h0
        rw [Release.newBars, if_pos h0, if_neg (by omega), ih f (Release.add32 c len) (lt c) (by omega)
          (by intro i hi; rw [step]; exact h1 (i + 1) (by omega)) (by rw [step]; exact h2)]
        simp only [R_bind_ok, R_pure, step]
        rw [List.range_succ_eq_map, List.map_cons, List.map_map]
        congr 2
        rw [Nat.zero_add, Nat.one_mul]; rfl
    exact gen k _ b (by omega) (by omega) hk he
  · intro hall
    have gen : ∀ (fuel c : Nat), c < 4294967296 → (∀ i, (c + i * len) % 4294967296 < e) →
        Release.newBars len e fuel c = .error .diverge := by
      intro fuel
      induction fuel with
      | zero =>
        intro c hc h1
        have h0 := h1 0
        rw [Nat.zero_mul, Nat.add_zero, Nat.mod_eq_of_lt hc] at h0
        rw [Release.newBars, if_pos h0]
      | succ f ih =>
        intro c hc h1
        have h0 := h1 0
        rw [Nat.zero_mul, Nat.add_zero, Nat.mod_eq_of_lt hc] at h0
        rw [Release.newBars, if_pos h0, if_neg (by omega), ih _ (lt c) (by intro i; rw [step]; exact h1 (i + 1))]
        rfl
    exact gen _ b (by omega) hall

example : Release.newBars 3000000000 2000000000 (4294967296 + 2000000000) 0 = .ok [{ startTick := 3000000000 }] ∧
    Release.newBars 960 4294967295 (4294967296 + 4294967295) 4294967040 = .error .diverge := by
  constructor
  · have := (C76_bars 3000000000 2000000000 0 (by decide) (by decide)).1 1 (by
      intro i hi; have : i = 0 := by omega
      subst this; decide) (by decide)
    exact this
  · apply (C76_bars 960 4294967295 4294967040 (by decide) (by decide)).2
    intro i
    have h32 : (2 : Nat) ^ 32 = 4294967296 := rfl
    simp only [h32]
    omega

/-- C76: a tempo at the last tick.  If the last bar starts at an even tick and bars
have an even length (as all usual ones have), completing the bars never ends. -/
theorem C76_hang_partial (p : Project) (h : WF p) (hv : ValidNotes p) (r : Rhythm) (v : TempoValue) (select : Bool)
    (hr : LatestValue p.bars Bar.rhythm p.rhythm (lastBarTick p.bars) r)
    (h2 : 2 ∣ lastBarTick p.bars) (hl : 2 ∣ r.tickLen) :
    Release.exec p (.addTempo ⟨U32_MAX, v⟩ select) = .error .diverge := by
  have hra : p.rhythmAt (lastBarTick p.bars) = .ok r := by
    obtain ⟨⟨r', h1, h2⟩, -⟩ := C16_rhythm_key p h (lastBarTick p.bars)
    rw [h1, latestValue_unique h.bars h2 hr]
  obtain ⟨ne, hne⟩ := Release.noteMaxEndTick_ok hv
  let t : Tempo := ⟨U32_MAX, v⟩
  have key : Release.replenishBars { p with tempos := p.tempos.add U32_MAX t } = .error .diverge := by
    have e1 : Release.noteMaxEndTick { p with tempos := p.tempos.add U32_MAX t } = .ok ne := hne
    rw [Release.replenish_eq (p := { p with tempos := p.tempos.add U32_MAX t }) h.barsKeyed]
    simp only [e1, R_bind_ok]
    have hE : U32_MAX ≤ max (max (max (ne.getD 0) ((Project.maxTick (p.tempos.add U32_MAX t)).getD 0))
        ((Project.maxTick p.dumpers).getD 0)) ((Project.maxTick p.softs).getD 0) := by
      have hsort := Store.sorted_add h.tempos U32_MAX t
      have hmem : (U32_MAX, t) ∈ p.tempos.add U32_MAX t := Store.add_mem p.tempos U32_MAX t
      have : U32_MAX ≤ (Project.maxTick (p.tempos.add U32_MAX t)).getD 0 :=
        (getLast_max (SortedStore.le hsort) _).1 (Nat.le_refl _) _ hmem
      omega
    generalize max (max (max (ne.getD 0) ((Project.maxTick (p.tempos.add U32_MAX t)).getD 0))
      ((Project.maxTick p.dumpers).getD 0)) ((Project.maxTick p.softs).getD 0) = e at hE ⊢
    have hb := lastBarTick_le h
    have hlt : lastBarTick p.bars < U32_MAX := by simp only [U32_MAX] at *; omega
    rw [if_neg (by omega)]
    have e3 : Project.rhythmAt { p with tempos := p.tempos.add U32_MAX t } (lastBarTick p.bars) = .ok r := hra
    rw [e3]
    simp only [R_bind_ok]
    rw [Release.newBars_even _ _ hl hE _ _ hb h2]
    rfl
  show (Release.addTempo p ⟨U32_MAX, v⟩ select >>= fun x => pure (some x)) = _
  unfold Release.addTempo
  simp only [t] at key
  simp only [key]
  rfl

/-- C76: so an edit can fail to end, in a new project already. -/
theorem C76_hang_false : WF Project.default ∧
    Release.exec Project.default (.addTempo ⟨U32_MAX, ⟨120⟩⟩ true) = .error .diverge ∧
    Project.default.exec (.addTempo ⟨U32_MAX, ⟨120⟩⟩ true) = .error .overflow := by
  refine ⟨C22_default, ?_, ?_⟩
  · apply C76_hang_partial _ C22_default (fun q hq => by simp [Project.default] at hq) ⟨4, .D4⟩
    · exact .inl ⟨by simp [Project.default], rfl⟩
    · exact ⟨0, rfl⟩
    · exact ⟨480, rfl⟩
  · have key : Project.replenishBars { Project.default with tempos := [(U32_MAX, ⟨U32_MAX, ⟨120⟩⟩)] } = .error .overflow := by
      have hw : WF { Project.default with tempos := [(U32_MAX, ⟨U32_MAX, ⟨120⟩⟩)] } :=
        { C22_default with
          tempos := List.pairwise_singleton _ _
          temposKeyed := by intro q hq; cases hq with | head => exact ⟨rfl, Nat.le_refl _⟩ | tail _ hq => cases hq }
      have hc : ∀ x, CoveredUpTo { Project.default with tempos := [(U32_MAX, ⟨U32_MAX, ⟨120⟩⟩)] } x → U32_MAX ≤ x :=
        fun x h => h.tempos _ (.head _)
      rcases C18_complete _ hw (fun q hq => by simp [Project.default] at hq) ⟨4, .D4⟩ (.inl ⟨by simp [Project.default], rfl⟩)
        with ⟨-, h⟩ | ⟨h, -⟩ | ⟨-, h, -⟩ | ⟨k, -, -, h1, -, -, h⟩
      · exact h
      · exact absurd (hc _ h) (by simp [lastBarTick, Project.default, U32_MAX])
      · exact absurd h (by decide)
      · apply h
        have h5 := hc _ h1
        have e5 : Rhythm.tickLen ⟨4, .D4⟩ = 960 := rfl
        rw [e5] at h5 ⊢
        have e6 : lastBarTick Project.default.bars = 0 := rfl
        simp only [e6, U32_MAX] at h5 ⊢
        omega
    show (Project.addTempo Project.default ⟨U32_MAX, ⟨120⟩⟩ true >>= fun x => pure (some x)) = _
    show ((Project.replenishBars { Project.default with tempos := [(U32_MAX, ⟨U32_MAX, ⟨120⟩⟩)] } >>= fun q => _) >>= _) = _
    rw [key]; rfl

/-- C76: a note that ends after 2^32 ticks counts as ending early: no bars are added up
to its end. -/
theorem C76_note_false : ∃ (n : Note) (q : Project) (c : ProjectCmd), ValidLength n ∧ n.startTick = 4294967200 ∧
    Release.exec Project.default (.addNote n true) = .ok (some (q, c)) ∧ q.bars.map (·.1) = [960] := by
  let n : Note := { exampleNote with baseStartTick := 4294967200 }
  let p : Project := { Project.default with notes := [(4294967200, n)] }
  have h1 : Release.noteMaxEndTick p = .ok (some 144) := by decide +kernel
  have h2 : Release.newBars 960 144 (4294967296 + 144) 0 = .ok [{ startTick := 960 }] :=
    (C76_bars 960 144 0 (by decide) (by decide)).1 1 (by
      intro i hi
      have : i = 0 := by omega
      subst this; decide) (by decide)
  have h3 : Release.replenishBars p = .ok ({ p with bars := [(960, { startTick := 960 })] }, [{ startTick := 960 }]) := by
    rw [Release.replenish_eq (by intro q hq; simp [p, Project.default] at hq), h1]
    have e3 : max (max (max ((some 144).getD 0) ((Project.maxTick p.tempos).getD 0))
        ((Project.maxTick p.dumpers).getD 0)) ((Project.maxTick p.softs).getD 0) = 144 := by decide
    have e2 : lastBarTick p.bars = 0 := rfl
    have e4 : p.rhythmAt 0 = .ok ⟨4, .D4⟩ := rfl
    have e5 : Rhythm.tickLen ⟨4, .D4⟩ = 960 := rfl
    simp only [R_bind_ok, e2]
    rw [e3, if_neg (by decide), e4]
    simp only [R_bind_ok, e5]
    rw [h2]; rfl
  refine ⟨n, { p with bars := [(960, { startTick := 960 })] },
    .modelChanged { notes := [n], bars := [{ startTick := 960 }] } {} (.selecting true), ⟨⟨by decide, by decide, by decide⟩, by decide⟩, rfl, ?_, rfl⟩
  show ((Release.replenishBars p >>= fun q => _) >>= _) = _
  rw [h3]; rfl

end Klavier
