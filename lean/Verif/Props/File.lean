import Verif.Lemmas.File
import Verif.Props.Project

/-! # C52 to C56: recorded commands and files -/
set_option autoImplicit false
namespace Klavier
open Spec Project

/-! ## C52 -/

/-- C52: setting the signature, key or grid records the old and the new value; every
other edit records a change of items with the selection hint of that edit. -/
theorem C52_kind (p p' : Project) (e : Edit) (c : ProjectCmd) (h : p.exec e = .ok (some (p', c))) :
    (∃ r, e = .setRhythm r ∧ c = .setRhythm p.rhythm r) ∨ (∃ k, e = .setKey k ∧ c = .setKey p.key k) ∨
    (∃ g, e = .setGrid g ∧ c = .setGrid p.grid g) ∨
    (∀ r, e ≠ .setRhythm r) ∧ (∀ k, e ≠ .setKey k) ∧ (∀ g, e ≠ .setGrid g) ∧ ∃ a r, c = .modelChanged a r (hint e) := by
  cases e with
  | setRhythm r =>
    simp only [exec, viaCmd, Except.ok.injEq, Option.some.injEq, Prod.mk.injEq] at h
    exact .inl ⟨r, rfl, h.2.symm⟩
  | setKey r =>
    simp only [exec, viaCmd, Except.ok.injEq, Option.some.injEq, Prod.mk.injEq] at h
    exact .inr (.inl ⟨r, rfl, h.2.symm⟩)
  | setGrid r =>
    simp only [exec, viaCmd, Except.ok.injEq, Option.some.injEq, Prod.mk.injEq] at h
    exact .inr (.inr (.inl ⟨r, rfl, h.2.symm⟩))
  | _ =>
    refine .inr (.inr (.inr ⟨by simp, by simp, by simp, ?_⟩))
    cases exec_shape h with
    | rhythm r h1 h2 h3 => simp [AddsContent] at h3 <;> simp [exec, viaCmd, addBar, h2] at h
    | key r h1 h2 h3 => simp [AddsContent] at h3 <;> simp [exec, viaCmd, addBar, h2] at h
    | grid r h1 h2 h3 => simp [AddsContent] at h3 <;> simp [exec, viaCmd, addBar, h2] at h
    | items f A bs hb hc => exact ⟨_, _, hc⟩

example : ∃ p', exampleProject.exec (.setKey ⟨-3⟩) = .ok (some (p', .setKey exampleProject.key ⟨-3⟩)) := ⟨_, rfl⟩

/-- C52: the recorded command lists what the edit put in, the notes of a tuplet
being the retimed ones, then the completed bars; and what it took away, then what
was overwritten. -/
theorem C52_content (p p' : Project) (e : Edit) (a r : Models) (md : Metadata) (w : WF p) (ht : EditTicks32 e)
    (h : p.exec e = .ok (some (p', .modelChanged a r md))) :
    (a.notes = (introduced e).notes ∨ ∃ ns, e = .tuplize ns ∧ Tuple.tuplize ns = .ok a.notes) ∧
    a.tempos = (introduced e).tempos ∧ a.dumpers = (introduced e).dumpers ∧ a.softs = (introduced e).softs ∧
    (∃ bs, a.bars = (introduced e).bars ++ bs ∧
      ∀ b ∈ bs, b = { startTick := b.startTick } ∧ (∀ u ∈ (introduced e).bars, u.startTick < b.startTick) ∧
        ∀ q ∈ p.bars, q.1 < b.startTick ∨ ∃ u ∈ (withdrawn e).bars, u.startTick = q.1) ∧
    r.notes = (withdrawn e).notes := by
  refine ⟨exec_notes h, ?_⟩
  cases exec_shape h with
  | rhythm r h1 h2 h3 => cases h2
  | key r h1 h2 h3 => cases h2
  | grid r h1 h2 h3 => cases h2
  | items f A bs hb hc eb et ed es hlg hf =>
    cases hc
    refine ⟨et, ed, es, ⟨bs, by rw [← eb], ?_⟩, by rw [← hf]; rfl⟩
    rcases hb with ⟨-, h1, -⟩ | ⟨-, h1⟩
    · rw [h1]; simp
    · have hw := swap_wf w f A (ticks32_of_introduced ht.introduced eb et ed es)
      have hpl := (replenish_plain hw h1).1
      have hlast := (replenish_shape hw h1).2
      intro b hb
      have below : ∀ k, ((p.swap f A).bars.get? k).isSome → k < b.startTick := by
        intro k hk
        obtain ⟨v, hv⟩ := Option.isSome_iff_exists.1 hk
        have := le_lastBarTick hw _ (Store.mem_of_get? hv)
        have := (hlast b hb).1
        dsimp only at *
        omega
      refine ⟨(hpl b hb).2, ?_, ?_⟩
      · intro u hu
        apply below
        simp only [swap, get?_addItems]
        rw [← eb] at hu
        cases hlw : lastWith Bar.startTick A.bars u.startTick with
        | none => exact absurd rfl (lastWith_none.1 hlw u hu)
        | some v => rfl
      · intro q hq
        rw [← hf]
        by_cases hx : ∃ u ∈ f.bars, u.startTick = q.1
        · exact .inr hx
        · left
          apply below
          simp only [swap, get?_addItems, get?_removeItems Bar.startTick w.bars]
          have : lastWith Bar.startTick f.bars q.1 = none := lastWith_none.2 (fun v hv h => hx ⟨v, hv, h⟩)
          rw [this, Store.get?_of_mem w.bars hq]
          cases lastWith Bar.startTick A.bars q.1 <;> rfl

/-- A tempo beyond the last bar at 2000: two bars of 480 are added with it. -/
example : (match exampleProject.exec (.addTempo ⟨2481, ⟨90⟩⟩ false) with
    | .ok (some (_, .modelChanged a r md)) => some (a, r, md)
    | _ => none) = some ({ tempos := [⟨2481, ⟨90⟩⟩], bars := [{ startTick := 2480 }, { startTick := 2960 }] }, {}, {}) := by decide +kernel

/-- C52: what a legal edit records as overwritten is exactly what was there at the
ticks it put something at, without what it took away itself. -/
theorem C52_overwritten (p p' : Project) (e : Edit) (a r : Models) (md : Metadata) (w : WF p) (hl : Legal p e)
    (h : p.exec e = .ok (some (p', .modelChanged a r md))) :
    (∃ o, r.bars = (withdrawn e).bars ++ o ∧ ∀ v, v ∈ o ↔ (v.startTick, v) ∈ p.bars ∧
      (∃ u ∈ (introduced e).bars, u.startTick = v.startTick) ∧ ∀ u ∈ (withdrawn e).bars, u.startTick ≠ v.startTick) ∧
    (∃ o, r.tempos = (withdrawn e).tempos ++ o ∧ ∀ v, v ∈ o ↔ (v.startTick, v) ∈ p.tempos ∧
      (∃ u ∈ (introduced e).tempos, u.startTick = v.startTick) ∧ ∀ u ∈ (withdrawn e).tempos, u.startTick ≠ v.startTick) ∧
    (∃ o, r.dumpers = (withdrawn e).dumpers ++ o ∧ ∀ v, v ∈ o ↔ (v.startTick, v) ∈ p.dumpers ∧
      (∃ u ∈ (introduced e).dumpers, u.startTick = v.startTick) ∧ ∀ u ∈ (withdrawn e).dumpers, u.startTick ≠ v.startTick) ∧
    (∃ o, r.softs = (withdrawn e).softs ++ o ∧ ∀ v, v ∈ o ↔ (v.startTick, v) ∈ p.softs ∧
      (∃ u ∈ (introduced e).softs, u.startTick = v.startTick) ∧ ∀ u ∈ (withdrawn e).softs, u.startTick ≠ v.startTick) := by
  cases exec_shape h with
  | rhythm r h1 h2 h3 => cases h2
  | key r h1 h2 h3 => cases h2
  | grid r h1 h2 h3 => cases h2
  | items f A bs hb hc eb et ed es hlg hf =>
    cases hc
    have hd := (hlg hl).2
    rw [← hf, ← eb, ← et, ← ed, ← es]
    exact ⟨⟨_, rfl, oOf_mem _ w.bars w.barsKeyed _ hd.bars⟩, ⟨_, rfl, oOf_mem _ w.tempos w.temposKeyed _ hd.tempos⟩,
      ⟨_, rfl, oOf_mem _ w.dumpers w.dumpersKeyed _ hd.dumpers⟩, ⟨_, rfl, oOf_mem _ w.softs w.softsKeyed _ hd.softs⟩⟩

/-- Replacing the tempo at tick 20 with selection: the old one is recorded. -/
example : ∃ p', exampleProject.exec (.addTempo ⟨20, ⟨77⟩⟩ true) = .ok (some (p', .modelChanged { tempos := [⟨20, ⟨77⟩⟩] }
    { tempos := [⟨20, ⟨200⟩⟩] } ⟨some true, false⟩)) := ⟨_, rfl⟩

/-! ## C53 -/

theorem exampleProject_savable : SavableDocument exampleProject.toExported where
  rhythm := by unfold SafeRhythm; decide
  key := by unfold SafeKey; decide
  grid := by decide
  models := by
    refine ⟨⟨?_, ?_, ?_, ?_, ?_⟩, by decide, by decide, by decide, by decide, by decide⟩ <;>
      simp only [exampleProject, toExported, List.map_cons, List.map_nil, List.mem_cons, List.not_mem_nil, or_false,
        Project.default, false_implies, implies_true]
    · rintro _ (rfl | rfl) <;> constructor <;> first | decide +kernel | (constructor <;> decide +kernel)
    · rintro _ (rfl | rfl | rfl) <;> constructor <;> simp <;> unfold SafeRhythm <;> decide
    · rintro _ (rfl | rfl) <;> constructor <;> decide

/-- C53 (partial: without the condition it is false, see below): the bytes of a
document are read back as that document, with what follows them left over, exactly
when its data fit their types. -/
theorem C53_document_partial (x : ExportedProject) (rest : Bytes) (hr : IsBytes rest) :
    ExportedProject.rd (x.bin ++ rest) = .ok (x, rest) ↔ SavableDocument x :=
  ⟨fun h => (ExportedProject.yields _ _ _ (bytes_append x.bytes hr) h).1, fun h => (ExportedProject.codes h).full rest⟩

example : ExportedProject.rd (exampleProject.toExported.bin ++ [7, 8]) = .ok (exampleProject.toExported, [7, 8]) :=
  (C53_document_partial _ _ (by unfold IsBytes; decide)).2 exampleProject_savable

/-- C53: a saved project is opened as the same project, whatever bytes follow. -/
theorem C53_project_partial (p : Project) (h : WF p) (hs : SavableDocument p.toExported) (rest : Bytes) :
    ∃ q, Project.load (p.save ++ rest) = .ok q ∧ Same q p := by
  refine ⟨p.toExported.toProject, ?_, C24_roundtrip p h⟩
  unfold Project.load Project.save
  rw [(ExportedProject.codes hs).full rest]
  rfl

/-- The example project in a file: 191 bytes; the same project comes back. -/
example : exampleProject.save.length = 191 ∧ exampleProject.save.take 13 = [6, 2, 0, 0, 0, 0, 60, 0, 0, 0, 2, 0, 0] ∧
    ∃ q, Project.load exampleProject.save = .ok q ∧ Same q exampleProject := by
  refine ⟨by decide +kernel, by decide +kernel, ?_⟩
  have := C53_project_partial exampleProject exampleProject_wf exampleProject_savable []
  rwa [List.append_nil] at this

/-- C53: what is saved is bytes. -/
theorem C53_bytes (p : Project) : IsBytes p.save := ExportedProject.bytes _

example : (Project.save { exampleProject with rhythm := ⟨255, .D4⟩ }).filter (· > 250) = [255] := by decide +kernel

/-- A project of one note -/
private def oneNote (n : Note) : Project := { Project.default with notes := [(n.startTick, n)] }

private theorem oneNote_wf {n : Note} : WF (oneNote n) where
  notes := by simp [SortedBag, oneNote]
  notesKeyed := by
    intro q hq
    simp only [oneNote, List.mem_singleton] at hq
    subst hq
    exact ⟨rfl, startTick_le n⟩
  bars := List.Pairwise.nil
  barsKeyed := by intro q hq; cases hq
  tempos := List.Pairwise.nil
  temposKeyed := by intro q hq; cases hq
  dumpers := List.Pairwise.nil
  dumpersKeyed := by intro q hq; cases hq
  softs := List.Pairwise.nil
  softsKeyed := by intro q hq; cases hq

/-- C53, what is false: a project with a note whose trimmer adds up to more than 16
bits is saved, but opening the file panics. -/
theorem C53_trimmer_false : ∃ (p : Project) (n : Note), WF p ∧ p.notes.map (·.2) = [n] ∧
    ValidTrimmer n.startTickTrimmer ∧ Project.load p.save = .error (.panic .overflow) :=
  ⟨oneNote { exampleNote with startTickTrimmer := .new 32767 1 0 0 }, _, oneNote_wf, rfl,
    ⟨by decide, by decide, by decide, by decide, by decide⟩, by rfl⟩

/-- C53, what is false: a tempo of 0, which can be constructed, comes back as 1. -/
theorem C53_tempo_false : ∃ p q : Project, WF p ∧ p.tempos.map (·.2) = [⟨5, ⟨0⟩⟩] ∧ Project.load p.save = .ok q ∧
    q.tempos.map (·.2) = [⟨5, ⟨1⟩⟩] :=
  ⟨{ Project.default with tempos := [(5, ⟨5, ⟨0⟩⟩)] }, { Project.default with tempos := [(5, ⟨5, ⟨1⟩⟩)] },
    ⟨List.Pairwise.nil, by (intro q hq; cases hq), List.Pairwise.nil, by (intro q hq; cases hq), by simp [SortedStore],
      by unfold Keyed; decide, List.Pairwise.nil, by (intro q hq; cases hq), List.Pairwise.nil, by (intro q hq; cases hq)⟩,
    rfl, by rfl, rfl⟩

/-- C53, what is false: a length rate whose total is finer than that of its rounded
rates comes back with another total. -/
theorem C53_rate_false : ∃ (p q : Project) (n m : Note), WF p ∧ p.notes.map (·.2) = [n] ∧
    n.durationTrimmer = ⟨⟨555⟩, ⟨2000⟩, ⟨1000⟩, ⟨1000⟩, ⟨1111⟩⟩ ∧ Project.load p.save = .ok q ∧
    q.notes.map (·.2) = [m] ∧ m.durationTrimmer ≠ n.durationTrimmer :=
  ⟨oneNote { exampleNote with durationTrimmer := ⟨⟨555⟩, ⟨2000⟩, ⟨1000⟩, ⟨1000⟩, ⟨1111⟩⟩ },
    oneNote { exampleNote with durationTrimmer := .fromArray ⟨555⟩ ⟨2000⟩ ⟨1000⟩ ⟨1000⟩ }, _, _, oneNote_wf, rfl, rfl, by rfl,
    rfl, by decide +kernel⟩

/-! ## C54 -/

private theorem import_held {x : ExportedProject} (h : SavableDocument x) : Held x.toProject where
  rhythm := h.rhythm
  key := h.key
  grid := h.grid
  notes q hq := by
    simp only [ExportedProject.toProject, bulkAdd_notes] at hq
    have := (addNotes_perm _ _).mem_iff.1 hq
    rw [List.append_nil] at this
    obtain ⟨n, hn, rfl⟩ := List.mem_map.1 this
    exact h.models.notes n hn
  bars := by
    simp only [ExportedProject.toProject, bulkAdd_fst]
    exact addItems_all _ (by intro q hq; cases hq) h.models.bars
  tempos := by
    simp only [ExportedProject.toProject, bulkAdd_fst]
    exact addItems_all _ (by intro q hq; cases hq) h.models.tempos
  dumpers := by
    simp only [ExportedProject.toProject, bulkAdd_fst]
    exact addItems_all _ (by intro q hq; cases hq) h.models.dumpers
  softs := by
    simp only [ExportedProject.toProject, bulkAdd_fst]
    exact addItems_all _ (by intro q hq; cases hq) h.models.softs

private theorem safe_ticks {m : Models} (h : SafeModels m) : Ticks32 m :=
  ⟨fun b hb => (h.bars b hb).tick, fun b hb => (h.tempos b hb).tick, fun b hb => (h.dumpers b hb).tick,
    fun b hb => (h.softs b hb).tick⟩

/-- C54: whatever file is opened, the project is in order and its data fit their
types; saving it and opening it again changes nothing. -/
theorem C54_opened (s : Bytes) (hs : IsBytes s) (p : Project) (h : Project.load s = .ok p) :
    WF p ∧ SavableDocument p.toExported ∧ ∀ rest, ∃ q, Project.load (p.save ++ rest) = .ok q ∧ Same q p := by
  unfold Project.load at h
  rw [De.bind_eq_ok] at h
  obtain ⟨⟨x, t⟩, h1, h2⟩ := h
  cases h2
  have hx := (ExportedProject.yields _ _ _ hs h1).1
  have hw := C24_import_wf x (safe_ticks hx.models.toSafeModels)
  have hn : x.toProject.notes.length < 2 ^ 64 := by
    have := (C24_import x).1.length_eq
    rw [List.length_map] at this
    rw [this]
    exact hx.models.manyNotes
  have hv := savable_of_held hw (import_held hx) hn
  exact ⟨hw, hv, C53_project_partial _ hw hv⟩

/-- C53: a project comes back from its own file exactly when its data fit their types. -/
theorem C53_project_iff (p : Project) (h : WF p) :
    (∃ q, Project.load p.save = .ok q ∧ Same q p) ↔ SavableDocument p.toExported := by
  constructor
  · rintro ⟨q, h1, h2⟩
    have hq := (C54_opened p.save (C53_bytes p) q h1).2.1
    have hh := held_of_savable hq
    refine savable_of_held h ⟨h2.rhythm ▸ hh.rhythm, h2.key ▸ hh.key, h2.grid ▸ hh.grid, ?_, ?_, ?_, ?_, ?_⟩ ?_
    · exact fun x hx => hh.notes x (h2.notes.mem_iff.2 hx)
    · exact fun x hx => hh.bars x (h2.bars ▸ hx)
    · exact fun x hx => hh.tempos x (h2.tempos ▸ hx)
    · exact fun x hx => hh.dumpers x (h2.dumpers ▸ hx)
    · exact fun x hx => hh.softs x (h2.softs ▸ hx)
    · rw [← h2.notes.length_eq]
      have := hq.models.manyNotes
      simpa [Project.toExported] using this
  · intro hs
    have := C53_project_partial p h hs []
    rwa [List.append_nil] at this

example : ¬ ∃ q, Project.load (Project.save { Project.default with tempos := [(5, ⟨5, ⟨0⟩⟩)] }) = .ok q ∧
    Same q { Project.default with tempos := [(5, ⟨5, ⟨0⟩⟩)] } := by
  rw [C53_project_iff _ ?_]
  · intro h
    have := h.models.tempos ⟨5, ⟨0⟩⟩ (by simp [Project.toExported])
    exact absurd this.2.1 (by decide)
  · constructor <;> simp [Project.default, SortedBag, SortedStore, Keyed, U32_MAX]

example : ∃ p, IsBytes (exampleProject.save ++ [0, 0]) ∧ Project.load (exampleProject.save ++ [0, 0]) = .ok p ∧
    p.tempos = [(10, ⟨10, ⟨100⟩⟩), (20, ⟨20, ⟨200⟩⟩)] := by
  obtain ⟨q, h1, h2⟩ := C53_project_partial exampleProject exampleProject_wf exampleProject_savable [0, 0]
  refine ⟨q, ?_, h1, h2.tempos⟩
  intro b hb
  rcases List.mem_append.1 hb with hb | hb
  · exact C53_bytes _ b hb
  · simp only [List.mem_cons, List.not_mem_nil, or_self, or_false] at hb
    omega

/-- C54: whatever file is opened, every value is in its range: pitches agree with
their names and lie between 0 and 127, loudness and pedals at most 127, tempos from 1 to 999, denominators of
lengths from 2. -/
theorem C54_ranges (s : Bytes) (hs : IsBytes s) (p : Project) (h : Project.load s = .ok p) :
    (∀ q ∈ p.notes, ValidPitch q.2.pitch ∧ q.2.baseVelocity.value ≤ 127 ∧
      2 ≤ q.2.duration.denominator ∧ q.1 = q.2.startTick) ∧
    (∀ q ∈ p.tempos, 1 ≤ q.2.value.value ∧ q.2.value.value ≤ 999) ∧
    (∀ q ∈ p.dumpers, q.2.velocity.value ≤ 127) ∧ (∀ q ∈ p.softs, q.2.velocity.value ≤ 127) := by
  obtain ⟨hw, hv, -⟩ := C54_opened s hs p h
  have hh := held_of_savable hv
  refine ⟨?_, fun q hq => (hh.tempos q hq).value, fun q hq => (hh.dumpers q hq).velocity,
    fun q hq => (hh.softs q hq).velocity⟩
  intro q hq
  have hn := hh.notes q hq
  exact ⟨((valueOf_ok_iff _ _ _ _).1 hn.pitch).1, hn.velocity, hn.denominator.1, (hw.notesKeyed q hq).1⟩

example : IsBytes exampleProject.save ∧ ∃ p, Project.load exampleProject.save = .ok p ∧ p.tempos.map (·.2.value.value) = [100, 200] ∧
    p.notes.length = 2 := by
  obtain ⟨q, h1, h2⟩ := C53_project_partial exampleProject exampleProject_wf exampleProject_savable []
  rw [List.append_nil] at h1
  exact ⟨C53_bytes _, q, h1, by rw [h2.tempos]; rfl, h2.notes.length_eq⟩

/-- C54, what is not checked: a file may hold a channel of 200, 40 dots, the
signature 0/4 and a key of 100. -/
theorem C54_unchecked : ∃ (s : Bytes) (p : Project) (n : Note) (b : Bar), IsBytes s ∧ Project.load s = .ok p ∧
    p.notes.map (·.2) = [n] ∧ p.bars.map (·.2) = [b] ∧ n.channel = 200 ∧ n.duration.dots = 40 ∧
    b.rhythm = some ⟨0, .D4⟩ ∧ b.key = some ⟨100⟩ ∧ p.rhythm = ⟨0, .D4⟩ := by
  refine ⟨(Project.mk ⟨0, .D4⟩ ⟨0⟩ ⟨60⟩ [(100, { exampleNote with channel := 200, duration := ⟨.Quarter, 2, 40⟩ })]
    [(5, { startTick := 5, rhythm := some ⟨0, .D4⟩, key := some ⟨100⟩ })] [] [] []).save, _, _, _, C53_bytes _, by rfl, rfl, rfl,
    rfl, rfl, rfl, rfl, rfl⟩

/-! ## C55 -/

/-- C55 (partial as C53): a stored command is read back as itself exactly when its
data fit their types. -/
theorem C55_command_partial (c : ProjectCmd) (rest : Bytes) (hr : IsBytes rest) :
    ProjectCmd.rd (c.bin ++ rest) = .ok (c, rest) ↔ SavableCmd c :=
  ⟨fun h => (ProjectCmd.yields _ _ _ (bytes_append c.bytes hr) h).1, fun h => (ProjectCmd.codes h).full rest⟩

example : (ProjectCmd.setKey ⟨-3⟩ ⟨1⟩).bin = [1, 0, 0, 0, 253, 1] ∧
    ProjectCmd.rd ((ProjectCmd.setKey ⟨-3⟩ ⟨1⟩).bin ++ [9]) = .ok (.setKey ⟨-3⟩ ⟨1⟩, [9]) := by
  refine ⟨by decide +kernel, ?_⟩
  exact (C55_command_partial (.setKey ⟨-3⟩ ⟨1⟩) [9] (by unfold IsBytes; decide)).2 (by simp only [SavableCmd, SafeKey]; decide)

/-- C55: whatever is read as a command can be stored and read again. -/
theorem C55_read (s : Bytes) (hs : IsBytes s) (c : ProjectCmd) (h : ProjectCmd.load s = .ok c) :
    ProjectCmd.load c.bin = .ok c := by
  unfold ProjectCmd.load at h
  rw [De.bind_eq_ok] at h
  obtain ⟨⟨x, t⟩, h1, h2⟩ := h
  cases h2
  have := (ProjectCmd.codes (ProjectCmd.yields _ _ _ hs h1).1).full []
  rw [List.append_nil] at this
  unfold ProjectCmd.load
  rw [this]
  rfl

example : IsBytes [1, 0, 0, 0, 253, 1, 77] ∧ ProjectCmd.load [1, 0, 0, 0, 253, 1, 77] = .ok (.setKey ⟨-3⟩ ⟨1⟩) :=
  ⟨by unfold IsBytes; decide, rfl⟩

/-- Legal edits of data that fit their types -/
def LegalSavable (p : Project) (e : Edit) : Prop := Legal p e ∧ SavableEdit e

private theorem reach_mono {ok ok' : Project → Edit → Prop} (hm : ∀ p e, ok p e → ok' p e) {base : Project} {s : Session}
    (h : Reach ok base s) : Reach ok' base s := by
  induction h with
  | start => exact .start
  | edit _ h1 h2 h3 ih => exact .edit ih h1 (hm _ _ h2) h3
  | undo _ h1 ih => exact .undo ih h1
  | redo _ h1 ih => exact .redo ih h1

private theorem reach_wf {base : Project} (h : WF base) {s : Session} (hs : Reach LegalSavable base s) : WF s.cur :=
  C22_sessions base h s (reach_mono (fun _ _ _ => trivial) hs)

private theorem reach_held {base : Project} (w : WF base) (hb : Held base) {s : Session}
    (hs : Reach LegalSavable base s) : Held s.cur ∧ ∀ c ∈ s.log, SavableCmd c := by
  induction hs with
  | start => exact ⟨hb, by simp [Session.start]⟩
  | @edit s s' e hr ht hl hst ih =>
    simp only [Session.step, R_bind_eq_ok] at hst
    obtain ⟨o, h1, h2⟩ := hst
    cases o with
    | none => cases h2; exact ih
    | some x =>
      obtain ⟨p', c⟩ := x
      cases h2
      have hc := exec_savable (reach_wf w hr) ih.1 ht hl.1 hl.2 h1
      refine ⟨?_, ?_⟩
      · have := redo_held ih.1 hc
        rwa [C20_redo _ _ e c (reach_wf w hr) ht h1] at this
      · intro d hd
        rcases List.mem_append.1 hd with hd | hd
        · exact ih.2 d (List.mem_of_mem_take hd)
        · rw [List.mem_singleton] at hd; rw [hd]; exact hc
  | undo _ hst ih =>
    simp only [Session.step] at hst
    split at hst
    · cases hst; exact ih
    · split at hst
      · next hg => cases hst; exact ⟨undo_held ih.1 (ih.2 _ (List.mem_of_getElem? hg)), ih.2⟩
      · cases hst; exact ih
  | redo _ hst ih =>
    simp only [Session.step] at hst
    split at hst
    · next hg => cases hst; exact ⟨redo_held ih.1 (ih.2 _ (List.mem_of_getElem? hg)), ih.2⟩
    · cases hst; exact ih

private theorem loadLog_ok {l : List ProjectCmd} (h : ∀ c ∈ l, SavableCmd c) (rest : ProjectCmd → Bytes) :
    loadLog (l.map (fun c => c.bin ++ rest c)) = .ok l := by
  induction l with
  | nil => rfl
  | cons c l ih =>
    simp only [List.map_cons, loadLog, ProjectCmd.load]
    rw [(ProjectCmd.codes (h c List.mem_cons_self)).full _, ih (fun d hd => h d (List.mem_cons_of_mem _ hd))]
    rfl

private theorem replay_same {p q : Project} (h : Same p q) (l : List ProjectCmd) : Same (replay p l) (replay q l) := by
  induction l generalizing p q with
  | nil => exact h
  | cons c l ih => exact ih (same_redo h c)

/-- C55: after any legal edits of data that fit their types, undos and redos, the
session stored as the saved base project and the stored commands is opened with
the same commands, the same position and the same project: it can be continued,
undone and redone. -/
theorem C55_session_partial (base : Project) (w : WF base) (hb : SavableDocument base.toExported) (s : Session)
    (hs : Reach LegalSavable base s) :
    ∃ t, reopen base.save (s.log.map ProjectCmd.bin) s.cursor = .ok t ∧ t.log = s.log ∧ t.cursor = s.cursor ∧
      Same t.base base ∧ Same t.cur s.cur := by
  obtain ⟨-, hlog⟩ := reach_held w (held_of_savable hb) hs
  obtain ⟨q, hq, hsame⟩ := C53_project_partial base w hb []
  rw [List.append_nil] at hq
  have hl := loadLog_ok hlog (fun _ => [])
  simp only [List.append_nil] at hl
  refine ⟨⟨q, s.log, s.cursor, replay q (s.log.take s.cursor)⟩, ?_, rfl, rfl, hsame, ?_⟩
  · unfold reopen
    rw [hq]
    change (do let l ← loadLog (s.log.map ProjectCmd.bin); _) = _
    rw [hl]
    rfl
  · exact (replay_same hsame _).trans (C21_prefix base w s (reach_mono (fun _ _ h => h.1) hs)).2.symm

/-- A session: add a note, add a tempo, undo. -/
private theorem exampleSession : ∃ s, Reach LegalSavable exampleProject s ∧ s.log.length = 2 ∧ s.cursor = 1 ∧
    s.cur.notes.length < 2 ^ 64 := by
  have hr : Reach LegalSavable exampleProject _ :=
    .undo (.edit (.edit .start (e := .addNote exampleNote false)
      ⟨⟨by simp [introduced], by simp [introduced], by simp [introduced], by simp [introduced]⟩,
        ⟨by simp [withdrawn], by simp [withdrawn], by simp [withdrawn], by simp [withdrawn]⟩⟩
      ⟨trivial, ⟨?_, by simp [introduced], by simp [introduced], by simp [introduced], by simp [introduced]⟩,
        ⟨by simp [introduced], by simp [introduced], by simp [introduced], by simp [introduced], by simp [introduced]⟩,
        ⟨by simp [withdrawn], by simp [withdrawn], by simp [withdrawn], by simp [withdrawn], by simp [withdrawn]⟩⟩ rfl)
      (e := .addTempo ⟨20, ⟨77⟩⟩ true)
      ⟨⟨by simp [introduced], by simp [introduced, U32_MAX], by simp [introduced], by simp [introduced]⟩,
        ⟨by simp [withdrawn], by simp [withdrawn], by simp [withdrawn], by simp [withdrawn]⟩⟩
      ⟨trivial, ⟨by simp [introduced], by simp [introduced], ?_, by simp [introduced], by simp [introduced]⟩,
        ⟨by simp [introduced], by simp [introduced], by simp [introduced], by simp [introduced], by simp [introduced]⟩,
        ⟨by simp [withdrawn], by simp [withdrawn], by simp [withdrawn], by simp [withdrawn], by simp [withdrawn]⟩⟩ rfl) rfl
  · exact ⟨_, hr, rfl, rfl, by decide +kernel⟩
  · simp only [introduced, List.mem_singleton]
    rintro _ rfl
    constructor <;> first | decide +kernel | (constructor <;> decide +kernel)
  · simp only [introduced, List.mem_singleton]
    rintro _ rfl
    constructor <;> decide

example : ∃ s t, Reach LegalSavable exampleProject s ∧ s.log.length = 2 ∧
    reopen exampleProject.save (s.log.map ProjectCmd.bin) s.cursor = .ok t ∧ t.cursor = 1 ∧ Same t.cur s.cur := by
  obtain ⟨s, hr, h2, h3, -⟩ := exampleSession
  obtain ⟨t, k1, -, k3, -, k5⟩ := C55_session_partial exampleProject exampleProject_wf exampleProject_savable _ hr
  exact ⟨s, t, hr, h2, k1, k3.trans h3, k5⟩

/-- C55: every project of such a session can itself be saved and opened. -/
theorem C55_state (base : Project) (w : WF base) (hb : SavableDocument base.toExported) (s : Session)
    (hs : Reach LegalSavable base s) (hn : s.cur.notes.length < 2 ^ 64) :
    ∃ q, Project.load s.cur.save = .ok q ∧ Same q s.cur := by
  have hw := reach_wf w hs
  have := C53_project_partial s.cur hw (savable_of_held hw (reach_held w (held_of_savable hb) hs).1 hn) []
  rwa [List.append_nil] at this

example : ∃ s q, Reach LegalSavable exampleProject s ∧ s.log.length = 2 ∧ Project.load s.cur.save = .ok q ∧ Same q s.cur := by
  obtain ⟨s, hr, h2, h3, h4⟩ := exampleSession
  obtain ⟨q, k⟩ := C55_state exampleProject exampleProject_wf exampleProject_savable s hr h4
  exact ⟨s, q, hr, h2, k⟩

private theorem loadLog_inv {l : List ProjectCmd} (h : loadLog (l.map ProjectCmd.bin) = .ok l) : ∀ c ∈ l, SavableCmd c := by
  induction l with
  | nil => intro c hc; cases hc
  | cons d l ih =>
    simp only [List.map_cons, loadLog] at h
    rw [De.bind_eq_ok] at h
    obtain ⟨x, h1, h2⟩ := h
    rw [De.bind_eq_ok] at h2
    obtain ⟨xs, h2, h3⟩ := h2
    obtain ⟨rfl, rfl⟩ : x = d ∧ xs = l := by cases h3; exact ⟨rfl, rfl⟩
    intro c hc
    rcases List.mem_cons.1 hc with rfl | hc
    · unfold ProjectCmd.load at h1
      rw [De.bind_eq_ok] at h1
      obtain ⟨⟨x, t⟩, h1, h3⟩ := h1
      cases h3
      exact (ProjectCmd.yields _ _ _ (ProjectCmd.bytes _) h1).1
    · exact ih h2 c hc

/-- C55: a session of legal edits is opened as it was exactly if its base project and each of
its commands, undone ones included, have data that fit their types. -/
theorem C55_session_iff (base : Project) (w : WF base) (s : Session) (hs : Reach Legal base s) :
    (∃ t, reopen base.save (s.log.map ProjectCmd.bin) s.cursor = .ok t ∧ t.log = s.log ∧ t.cursor = s.cursor ∧
      Same t.base base ∧ Same t.cur s.cur) ↔ SavableDocument base.toExported ∧ ∀ c ∈ s.log, SavableCmd c := by
  constructor
  · rintro ⟨t, h1, h2, -, h4, -⟩
    unfold reopen at h1
    rw [De.bind_eq_ok] at h1
    obtain ⟨q, hq, h1⟩ := h1
    rw [De.bind_eq_ok] at h1
    obtain ⟨l, hl, h1⟩ := h1
    cases h1
    cases h2
    exact ⟨(C53_project_iff base w).1 ⟨q, hq, h4⟩, loadLog_inv hl⟩
  · rintro ⟨hb, hlog⟩
    obtain ⟨q, hq, hsame⟩ := (C53_project_iff base w).2 hb
    have hl := loadLog_ok hlog (fun _ => [])
    simp only [List.append_nil] at hl
    refine ⟨⟨q, s.log, s.cursor, replay q (s.log.take s.cursor)⟩, ?_, rfl, rfl, hsame, ?_⟩
    · unfold reopen
      rw [hq]
      change (do let l ← loadLog (s.log.map ProjectCmd.bin); _) = _
      rw [hl]
      rfl
    · exact (replay_same hsame _).trans (C21_prefix base w s hs).2.symm

/-- The session opened as it was: both of its commands, one undone, fit their types. -/
example : ∃ s, Reach Legal exampleProject s ∧ s.log.length = 2 ∧ ∀ c ∈ s.log, SavableCmd c := by
  obtain ⟨s, hr, h2, h3, -⟩ := exampleSession
  have hl := reach_mono (fun _ _ h => h.1) hr
  exact ⟨s, hl, h2, ((C55_session_iff _ exampleProject_wf s hl).1
    (C55_session_partial exampleProject exampleProject_wf exampleProject_savable _ hr)).2⟩

/-- Every beginning of the log was the log of the session once. -/
private theorem reach_prefix {ok : Project → Edit → Prop} {base : Project} {s : Session} (hs : Reach ok base s) :
    s.base = base ∧ s.cursor ≤ s.log.length ∧
      ∀ k, k ≤ s.log.length → ∃ r, Reach ok base r ∧ r.log = s.log.take k ∧ r.cursor = k := by
  induction hs with
  | start => exact ⟨rfl, Nat.le_refl _, fun k hk => ⟨_, .start, by simp [Session.start], by simp [Session.start] at *; omega⟩⟩
  | @edit s s' e hr ht hl hst ih =>
    obtain ⟨i1, i2, i3⟩ := ih
    have hr' := Reach.edit hr ht hl hst
    simp only [Session.step, R_bind_eq_ok] at hst
    obtain ⟨o, h1, h2⟩ := hst
    cases o with
    | none => cases h2; exact ⟨i1, i2, i3⟩
    | some x =>
      obtain ⟨p', c⟩ := x
      cases h2
      have hlen : (s.log.take s.cursor).length = s.cursor := by rw [List.length_take]; omega
      refine ⟨i1, by simp only [List.length_append, hlen, List.length_singleton]; omega, ?_⟩
      intro k hk
      simp only [List.length_append, hlen, List.length_singleton] at hk
      by_cases e : k = s.cursor + 1
      · refine ⟨_, hr', ?_, e.symm⟩
        subst e
        exact (List.take_of_length_le (by simp only [List.length_append, hlen, List.length_singleton]; omega)).symm
      · obtain ⟨r, k1, k2, k3⟩ := i3 k (by omega)
        refine ⟨r, k1, ?_, k3⟩
        rw [k2]
        change s.log.take k = (s.log.take s.cursor ++ [c]).take k
        rw [List.take_append_of_le_length (by omega), List.take_take, Nat.min_eq_left (by omega)]
  | undo _ hst ih =>
    simp only [Session.step] at hst
    split at hst
    · cases hst; exact ih
    · split at hst
      · cases hst
        exact ⟨ih.1, by have := ih.2.1; simp only; omega, ih.2.2⟩
      · cases hst; exact ih
  | redo _ hst ih =>
    simp only [Session.step] at hst
    split at hst
    · next hg =>
      cases hst
      have := (List.getElem?_eq_some_iff.1 hg).1
      exact ⟨ih.1, this, ih.2.2⟩
    · cases hst; exact ih

private theorem reach_back {ok : Project → Edit → Prop} {base : Project} {s : Session} (hs : Reach ok base s) (j n : Nat)
    (h : s.cursor = j + n) : ∃ r, Reach ok base r ∧ r.log = s.log ∧ r.cursor = j := by
  induction n generalizing s with
  | zero => exact ⟨s, hs, rfl, h⟩
  | succ n ih =>
    have hc := (reach_prefix hs).2.1
    obtain ⟨c, hg⟩ : ∃ c, s.log[s.cursor - 1]? = some c := ⟨_, List.getElem?_eq_getElem (by omega)⟩
    have hst : s.step .undo = .ok { s with cursor := s.cursor - 1, cur := c.undo s.cur } := by
      simp only [Session.step]
      rw [if_neg (by omega), hg]
    obtain ⟨r, h1, h2, h3⟩ := ih (.undo hs hst) (by simp only; omega)
    exact ⟨r, h1, h2, h3⟩

/-- C55: whichever commands at the beginning of the log had been stored when the program stopped,
and whatever position up to there, what is opened is a session the user can have had: with
those commands, that position and its project. -/
theorem C55_stopped (base : Project) (w : WF base) (hb : SavableDocument base.toExported) (s : Session)
    (hs : Reach LegalSavable base s) (k j : Nat) (hk : k ≤ s.log.length) (hj : j ≤ k) :
    ∃ t r, reopen base.save ((s.log.take k).map ProjectCmd.bin) j = .ok t ∧ Reach LegalSavable base r ∧
      r.log = s.log.take k ∧ r.cursor = j ∧ t.log = r.log ∧ t.cursor = r.cursor ∧ Same t.base base ∧ Same t.cur r.cur := by
  obtain ⟨r, h1, h2, h3⟩ := (reach_prefix hs).2.2 k hk
  obtain ⟨r', k1, k2, k3⟩ := reach_back h1 j (k - j) (by omega)
  obtain ⟨t, l1, l2, l3, l4, l5⟩ := C55_session_partial base w hb r' k1
  rw [k2, h2, k3] at l1
  exact ⟨t, r', l1, k1, k2.trans h2, k3, l2, l3, l4, l5⟩

/-- The program stopped after one of the two commands of the session had been stored. -/
example : ∃ s t, Reach LegalSavable exampleProject s ∧ s.log.length = 2 ∧
    reopen exampleProject.save ((s.log.take 1).map ProjectCmd.bin) 1 = .ok t ∧ t.log.length = 1 := by
  obtain ⟨s, hr, h2, h3, -⟩ := exampleSession
  obtain ⟨t, r, k1, -, k3, -, k5, -⟩ := C55_stopped exampleProject exampleProject_wf exampleProject_savable s hr 1 1 (by omega)
    (Nat.le_refl _)
  exact ⟨s, t, hr, h2, k1, by rw [k5, k3, List.length_take]; omega⟩

private def overflowed {α : Type} : De α → Bool
  | .error (.panic .overflow) => true
  | _ => false

private theorem overflowed_eq {α : Type} {d : De α} (h : overflowed d = true) : d = .error (.panic .overflow) := by
  unfold overflowed at h
  split at h
  · rfl
  · cases h

/-- C55, what is false: after adding a note whose trimmer adds up to less than
-32768, a legal edit, the stored session cannot be opened any more: reading the
command panics, even when the note has been removed again by undo. -/
theorem C55_trimmer_false : ∃ (n : Note) (s : Session), ValidTrimmer n.startTickTrimmer ∧
    Reach Legal exampleProject s ∧ s.cursor = 0 ∧ Same s.cur exampleProject ∧
    s.log.length = 1 ∧ (∃ a r md, s.log = [.modelChanged a r md] ∧ a.notes = [n]) ∧
    reopen exampleProject.save (s.log.map ProjectCmd.bin) s.cursor = .error (.panic .overflow) := by
  have hr : Reach Legal exampleProject _ :=
    .undo (.edit .start (e := .addNote { exampleNote with startTickTrimmer := .new (-32768) (-1) 0 0 } false)
      ⟨⟨by simp [introduced], by simp [introduced], by simp [introduced], by simp [introduced]⟩,
        ⟨by simp [withdrawn], by simp [withdrawn], by simp [withdrawn], by simp [withdrawn]⟩⟩ trivial rfl) rfl
  refine ⟨_, _, ⟨by decide, by decide, by decide, by decide, by decide⟩, hr, rfl, (C21_prefix _ exampleProject_wf _ hr).2, rfl,
    ⟨_, _, _, rfl, rfl⟩, ?_⟩
  obtain ⟨q, hq, -⟩ := C53_project_partial exampleProject exampleProject_wf exampleProject_savable []
  rw [List.append_nil] at hq
  unfold reopen
  rw [hq, De_bind_ok, overflowed_eq (d := loadLog _) (by decide +kernel)]
  rfl

/-! ## C56 -/

/-- C56: a saved project cut short anywhere is refused with an error, it is neither
opened nor does it panic. -/
theorem C56_project (p : Project) (hs : SavableDocument p.toExported) (k : Nat) (hk : k < p.save.length) :
    Project.load (p.save.take k) = .error .invalid := by
  unfold Project.load
  rw [(ExportedProject.codes hs).short _ (p.save.drop k) (List.take_append_drop _ _) (by
    intro h; have := congrArg List.length h; rw [List.length_drop, List.length_nil] at this; omega)]
  rfl

example : Project.load (exampleProject.save.take 190) = .error .invalid :=
  C56_project exampleProject exampleProject_savable 190 (by decide +kernel)

/-- C56: so is a stored command. -/
theorem C56_command (c : ProjectCmd) (hs : SavableCmd c) (k : Nat) (hk : k < c.bin.length) :
    ProjectCmd.load (c.bin.take k) = .error .invalid := by
  unfold ProjectCmd.load
  rw [(ProjectCmd.codes hs).short _ (c.bin.drop k) (List.take_append_drop _ _) (by
    intro h; have := congrArg List.length h; rw [List.length_drop, List.length_nil] at this; omega)]
  rfl

example : ProjectCmd.load [1, 0, 0, 0, 253] = .error .invalid :=
  C56_command (.setKey ⟨-3⟩ ⟨1⟩) (by simp only [SavableCmd, SafeKey]; decide) 5 (by decide +kernel)

end Klavier
