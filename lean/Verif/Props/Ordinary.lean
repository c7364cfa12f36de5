import Verif.Lemmas.Ordinary

/-! # C96: a session of ordinary edits never panics -/
set_option autoImplicit false
namespace Klavier
open Spec Project

/-- C96: an ordinary edit of an ordinary project does not panic: it is carried out, and leaves
an ordinary project, or it is refused as a tuplet of fewer than two notes. -/
theorem C96_edit (p : Project) (e : Edit) (h : Ordinary p) (he : OrdinaryEdit e) :
    (∃ q c, p.exec e = .ok (some (q, c)) ∧ Ordinary q) ∨
    (p.exec e = .ok none ∧ ∃ ns, e = .tuplize ns ∧ ns.length < 2) := by
  rcases ordinary_exec h he with h1 | ⟨q, c, h1, h2, -⟩
  · exact .inr ⟨h1, (C65_refused p e).1 h1⟩
  · exact .inl ⟨q, c, h1, h2⟩

/-- C96: starting from an ordinary project, whatever ordinary edits are made, undone and done
again, in any order and any number, nothing panics, and the project is ordinary at the end. -/
theorem C96_session (p : Project) (h : Ordinary p) (ops : List Op) (ho : ∀ e, .edit e ∈ ops → OrdinaryEdit e) :
    ∃ s, (Session.start p).run ops = .ok s ∧ Ordinary s.cur := by
  have gen : ∀ (ops : List Op) (s : Session), (∀ e, .edit e ∈ ops → OrdinaryEdit e) → Ordinary s.cur →
      (∀ c ∈ s.log, OrdinaryCmd c) → ∃ t, s.run ops = .ok t ∧ Ordinary t.cur := by
    intro ops
    induction ops with
    | nil => intro s _ hs _; exact ⟨s, rfl, hs⟩
    | cons o ops ih =>
      intro s ho hs hl
      have hstep : ∃ t, s.step o = .ok t ∧ Ordinary t.cur ∧ ∀ c ∈ t.log, OrdinaryCmd c := by
        cases o with
        | edit e =>
          simp only [Session.step]
          rcases ordinary_exec hs (ho e (by simp)) with h1 | ⟨q, c, h1, h2, h3⟩
          · rw [h1]; exact ⟨s, rfl, hs, hl⟩
          · rw [h1]
            refine ⟨_, rfl, h2, ?_⟩
            intro d hd
            rcases List.mem_append.1 hd with hd | hd
            · exact hl d (List.mem_of_mem_take hd)
            · rw [List.mem_singleton.1 hd]; exact h3
        | undo =>
          simp only [Session.step]
          split
          · exact ⟨s, rfl, hs, hl⟩
          · split
            · next c hc => exact ⟨_, rfl, ordinary_undo hs (hl c (List.mem_of_getElem? hc)), hl⟩
            · exact ⟨s, rfl, hs, hl⟩
        | redo =>
          simp only [Session.step]
          split
          · next c hc => exact ⟨_, rfl, ordinary_redo hs (hl c (List.mem_of_getElem? hc)), hl⟩
          · exact ⟨s, rfl, hs, hl⟩
      obtain ⟨t, h1, h2, h3⟩ := hstep
      obtain ⟨u, h4, h5⟩ := ih t (fun e he => ho e (by simp [he])) h2 h3
      exact ⟨u, by simp only [Session.run, h1, R_bind_ok, h4], h5⟩
  exact gen ops _ ho h (by simp [Session.start])

private theorem example_ordinary (t : Nat) (h : t ≤ 4290000000) : OrdinaryNote { exampleNote with baseStartTick := t } where
  length := ⟨⟨show 2 ≤ exampleNote.duration.denominator by decide, show exampleNote.duration.denominator ≤ 255 by decide,
    show exampleNote.duration.dots ≤ 7 by decide⟩, show exampleNote.durationTrimmer.sum.value ≤ 2000 by decide⟩
  start := h
  trim := (⟨by decide, by decide, by decide, by decide, by decide⟩ : ValidTrimmer exampleNote.startTickTrimmer)

/-- Two notes more than three months from the start, made a duplet, with undo and redo. -/
example : ∃ s, (Session.start Project.default).run
    [.edit (.setRhythm ⟨99, .D2⟩), .edit (.addBar { startTick := 4289990000 } false),
     .edit (.addNote { exampleNote with baseStartTick := 4286999000 } true),
     .edit (.addNote { exampleNote with baseStartTick := 4286999240 } true), .undo, .undo, .undo, .redo, .redo, .redo,
     .edit (.tuplize [{ exampleNote with baseStartTick := 4286999000 }, { exampleNote with baseStartTick := 4286999240 }]),
     .undo] = .ok s ∧ s.cur.notes.map (·.1) = [4286999000, 4286999240] ∧ s.cur.bars.map (·.1) = [4289990000] :=
  ⟨_, rfl, by decide, by decide⟩

example : OrdinaryEdit (.tuplize [{ exampleNote with baseStartTick := 4286999000 }, { exampleNote with baseStartTick := 4286999240 }]) where
  introduced := ⟨by simp [introduced], by simp [introduced], by simp [introduced], by simp [introduced], by simp [introduced]⟩
  withdrawn := ⟨by
    intro n hn
    simp only [withdrawn, List.mem_cons, List.not_mem_nil, or_false] at hn
    rcases hn with rfl | rfl <;> exact example_ordinary _ (by decide), by simp [withdrawn], by simp [withdrawn], by simp [withdrawn],
    by simp [withdrawn]⟩
  rhythm := fun r h => by cases h
  tuplet := by
    intro ns h
    cases h
    refine ⟨by decide, ?_, [4286999000, 4286999240], 64, ⟨by decide, by simp [eq_comm]⟩, ⟨?_, ?_⟩, .inr (by decide +kernel)⟩
    · intro n hn
      simp only [List.mem_cons, List.not_mem_nil, or_false] at hn
      rcases hn with rfl | rfl <;> decide
    · intro n hn
      simp only [List.mem_cons, List.not_mem_nil, or_false] at hn
      rcases hn with rfl | rfl <;> exact ⟨1, rfl⟩
    · intro k hk
      exact hk { exampleNote with baseStartTick := 4286999000 } (by simp)

/-- With the last of the bars of the longest kind that can be needed. -/
example : OrdinaryEdit (.addNote { exampleNote with baseStartTick := 4290000000 } false) where
  introduced := ⟨by
    intro n hn
    simp only [introduced, List.mem_cons, List.not_mem_nil, or_false] at hn
    subst hn
    exact example_ordinary _ (by decide), by simp [introduced], by simp [introduced], by simp [introduced], by simp [introduced]⟩
  withdrawn := ⟨by simp [withdrawn], by simp [withdrawn], by simp [withdrawn], by simp [withdrawn], by simp [withdrawn]⟩
  rhythm := fun r h => by cases h
  tuplet := fun r h => by cases h

/-- C96: the new project is ordinary. -/
theorem C96_default : Ordinary Project.default where
  wf := C22_default
  rhythm := ⟨4, 4, by decide⟩
  items := ⟨by simp [contents, Project.default], by simp [contents, Project.default], by simp [contents, Project.default],
    by simp [contents, Project.default], by simp [contents, Project.default]⟩

/-- C96: every question about an ordinary project is answered. -/
theorem C96_questions (p : Project) (h : Ordinary p) (t : Nat) (loc : Location) (hl : loc.offset ≤ 2 ^ 63) :
    (∃ x, p.tempoAt t = .ok x) ∧ (∃ x, p.dumperAt t = .ok x) ∧ (∃ x, p.softAt t = .ok x) ∧ (∃ x, p.rhythmAt t = .ok x) ∧
    (∃ x, p.keyAt t = .ok x) ∧ (∃ x, p.tickToLocation t = .ok x) ∧ (∃ x, p.locationToTick loc = .ok x) ∧
    ∃ x, p.noteMaxEndTick = .ok x := by
  have hw := h.wf
  refine ⟨?_, ?_, ?_, ?_, ?_, ?_, ?_, ?_⟩
  · obtain ⟨x, hx, -⟩ := C16_tempo p hw t
    exact ⟨x, hx⟩
  · obtain ⟨⟨x, hx, -⟩, -⟩ := C16_pedals p hw t
    exact ⟨x, hx⟩
  · obtain ⟨-, ⟨x, hx, -⟩⟩ := C16_pedals p hw t
    exact ⟨x, hx⟩
  · obtain ⟨⟨x, hx, -⟩, -⟩ := C16_rhythm_key p hw t
    exact ⟨x, hx⟩
  · obtain ⟨-, ⟨x, hx, -⟩⟩ := C16_rhythm_key p hw t
    exact ⟨x, hx⟩
  · obtain ⟨x, -, hx, -⟩ := C14_order p hw t t
    exact ⟨x, hx⟩
  · obtain ⟨r, hr⟩ := exists_latest hw
    have hrl := ordinary_rhythm_len (ordinary_latest h hr)
    have hall := C15_all p hw loc r hr (by simp only [USIZE_MAX]; omega)
    rw [hall]
    split
    · exact ⟨_, rfl⟩
    · next hb =>
      have h1 := barStart_le (fun q hq => (hw.barsKeyed q hq).2) r.tickLen loc.barNo
      have h2 := Nat.mul_le_mul (show loc.barNo ≤ U32_MAX by omega) hrl.2
      rw [if_neg]
      · exact ⟨_, rfl⟩
      · simp only [USIZE_MAX, U32_MAX] at h1 h2 ⊢
        omega
  · obtain ⟨h1, h2, -⟩ := C17_max_end p hw (ordinary_valid h)
    by_cases hne : p.notes = []
    · exact ⟨_, h1 hne⟩
    · obtain ⟨m, hm, -⟩ := h2 hne (fun q hq l hl => by have := ordinary_end h q hq l hl; simp only [U32_MAX]; omega)
      exact ⟨_, hm⟩

example : (Project.default.locationToTick ⟨3, 5⟩) = .ok (.ok 2885) ∧ Project.default.noteMaxEndTick = .ok none := by decide

/-- C96, the limit is needed: a note close to the end of the range makes the edit panic. -/
theorem C96_limit : ∃ n : Note, ValidLength n ∧ ValidTrimmer n.startTickTrimmer ∧ n.baseStartTick ≤ U32_MAX ∧
    Project.default.exec (.addNote n false) = .error .overflow := by
  refine ⟨{ exampleNote with baseStartTick := 4294967100 }, ⟨⟨by decide, by decide, by decide⟩, by decide⟩,
    ⟨by decide, by decide, by decide, by decide, by decide⟩, by decide, rfl⟩

end Klavier
