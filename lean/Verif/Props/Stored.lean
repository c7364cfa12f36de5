import Verif.Lemmas.Stored
import Verif.Model.Bincode

/-!
# C98: What is copied or saved tells what it was made of
-/
set_option autoImplicit false
namespace Klavier
open Spec

/-- C98, the clipboard: two selections have the same text exactly if they differ at most in the totals of the rates of
their notes.  This holds also for what does not survive copying (C40): a tempo of 0, a denominator below 2, slots whose
sum is too large. -/
theorem C98_text (m m' : Models) (h : MadeModels m) (h' : MadeModels m') :
    m.toClipboardText = m'.toClipboardText ↔ AlikeModels m m' := by
  unfold Models.toClipboardText
  constructor
  · intro e
    exact Models.enc_inj h h' (Json.text_inj (Models.writable h.typed (d := 128) (by decide))
      (Models.writable h'.typed (d := 128) (by decide)) (List.cons.inj e).2)
  · intro e
    rw [Models.enc_alike e]

/-- C98, files: two documents have the same bytes exactly if they differ at most in the totals of the rates, and no file
is the beginning of a different one. -/
theorem C98_file (x y : ExportedProject) (h : MadeDocument x) (h' : MadeDocument y) :
    (x.bin = y.bin ↔ AlikeDocuments x y) ∧ (x.bin <+: y.bin ↔ AlikeDocuments x y) := by
  refine ⟨⟨fun e => ?_, ExportedProject.bin_alike⟩, ⟨fun ⟨s, e⟩ => ?_, fun e => ?_⟩⟩
  · exact (ExportedProject.delim h h' [] [] (by rw [e])).1
  · exact (ExportedProject.delim h h' s [] (by rw [e, List.append_nil])).1
  · rw [ExportedProject.bin_alike e]
    exact List.prefix_refl _

/-- C98, recorded commands -/
theorem C98_command (a b : ProjectCmd) (h : MadeCmd a) (h' : MadeCmd b) :
    (a.bin = b.bin ↔ AlikeCmds a b) ∧ (a.bin <+: b.bin ↔ AlikeCmds a b) := by
  refine ⟨⟨fun e => ?_, ProjectCmd.bin_alike⟩, ⟨fun ⟨s, e⟩ => ?_, fun e => ?_⟩⟩
  · exact (ProjectCmd.delim h h' [] [] (by rw [e])).1
  · exact (ProjectCmd.delim h h' s [] (by rw [e, List.append_nil])).1
  · rw [ProjectCmd.bin_alike e]
    exact List.prefix_refl _

example : (ProjectCmd.setKey ⟨-3⟩ ⟨1⟩).bin ≠ (ProjectCmd.setKey ⟨-3⟩ ⟨2⟩).bin ∧
    ¬ (ProjectCmd.setKey ⟨-3⟩ ⟨1⟩).bin <+: (ProjectCmd.setRhythm ⟨4, .D4⟩ ⟨3, .D4⟩).bin := by
  refine ⟨?_, ?_⟩
  · rw [Ne, (C98_command (.setKey ⟨-3⟩ ⟨1⟩) (.setKey ⟨-3⟩ ⟨2⟩) (by simp only [MadeCmd, SafeKey]; decide)
      (by simp only [MadeCmd, SafeKey]; decide)).1]
    simp [AlikeCmds]
  · rw [(C98_command (.setKey ⟨-3⟩ ⟨1⟩) (.setRhythm ⟨4, .D4⟩ ⟨3, .D4⟩) (by simp only [MadeCmd, SafeKey]; decide)
      (by simp only [MadeCmd, SafeRhythm]; decide)).2]
    simp [AlikeCmds]

/-- C98, projects: two projects in order have the same file exactly if they have the same time signature, key and grid,
the same bar lines, tempos and pedals, and, in the same order, the same notes but for the totals of their rates. -/
theorem C98_project (p q : Project) (w : WF p) (w' : WF q) (h : MadeDocument p.toExported) (h' : MadeDocument q.toExported) :
    p.save = q.save ↔ p.rhythm = q.rhythm ∧ p.key = q.key ∧ p.grid = q.grid ∧
      p.notes.map (fun n => (n.1, unrated n.2)) = q.notes.map (fun n => (n.1, unrated n.2)) ∧
      p.bars = q.bars ∧ p.tempos = q.tempos ∧ p.dumpers = q.dumpers ∧ p.softs = q.softs := by
  have hn := keyed_alike (f := unrated) (fun v w e => by
    have := congrArg Note.startTick e
    exact this) w.notesKeyed w'.notesKeyed
  have hb := keyed_same w.barsKeyed w'.barsKeyed
  have ht := keyed_same w.temposKeyed w'.temposKeyed
  have hd := keyed_same w.dumpersKeyed w'.dumpersKeyed
  have hs := keyed_same w.softsKeyed w'.softsKeyed
  unfold Project.save
  rw [(C98_file _ _ h h').1]
  constructor
  · intro ⟨a, b, c, d⟩
    exact ⟨a, b, c, hn.1 d.notes, hb.1 d.bars, ht.1 d.tempos, hd.1 d.dumpers, hs.1 d.softs⟩
  · intro ⟨a, b, c, d1, d2, d3, d4, d5⟩
    exact ⟨a, b, c, hn.2 d1, hb.2 d2, ht.2 d3, hd.2 d4, hs.2 d5⟩

/-- C98, the exception: two notes that are made with different rates (1/4 and 3, or 1/4 and 2) and sound for 180 or 120
ticks have the same text and, in a file, the same bytes. -/
theorem C98_rates : ∃ n n' : Note, MadeNote n ∧ MadeNote n' ∧ n.tickLen = .ok 180 ∧ n'.tickLen = .ok 120 ∧
    (∃ a b c d, n.durationTrimmer = .new a b c d) ∧ (∃ a b c d, n'.durationTrimmer = .new a b c d) ∧
    ({ notes := [n] } : Models).toClipboardText = ({ notes := [n'] } : Models).toClipboardText ∧ n.bin = n'.bin := by
  have base : MadeNote exampleNote :=
    ⟨⟨by decide, by decide, by decide, by decide, by unfold TypedTrimmer; decide, by unfold TypedRate; decide,
      by unfold TypedTrimmer; decide, by decide⟩, ⟨by decide, by decide, by decide, by decide⟩, by decide, by decide⟩
  have made : ∀ r, TypedRate r → MadeNote { exampleNote with durationTrimmer := r } := fun r hr =>
    have ⟨t1, t2, t3, t4, t5, _, t7, t8⟩ := base.typed
    ⟨⟨t1, t2, t3, t4, t5, hr, t7, t8⟩, base.pitch, base.start, base.loudness⟩
  have h1 : TypedRate (.new (.fin false (2 ^ 147)) (.fin false (3 * 2 ^ 149)) (.fin false F32.ONE) (.fin false F32.ONE)) := by
    unfold TypedRate; decide +kernel
  have h2 : TypedRate (.new (.fin false (2 ^ 147)) (.fin false (2 * 2 ^ 149)) (.fin false F32.ONE) (.fin false F32.ONE)) := by
    unfold TypedRate; decide +kernel
  have e : ∀ (t u : RateTrimmer), { t with sum := ⟨0⟩ } = ({ u with sum := ⟨0⟩ } : RateTrimmer) →
      AlikeModels { notes := [{ exampleNote with durationTrimmer := t }] } { notes := [{ exampleNote with durationTrimmer := u }] } :=
    fun t u h => ⟨by simp only [List.map_cons, List.map_nil, unrated]; rw [h], rfl, rfl, rfl, rfl⟩
  refine ⟨_, _, made _ h1, made _ h2, by decide +kernel, by decide +kernel, ⟨_, _, _, _, rfl⟩, ⟨_, _, _, _, rfl⟩, ?_, by decide +kernel⟩
  unfold Models.toClipboardText
  rw [Models.enc_alike (e (.new (.fin false (2 ^ 147)) (.fin false (3 * 2 ^ 149)) (.fin false F32.ONE) (.fin false F32.ONE))
    (.new (.fin false (2 ^ 147)) (.fin false (2 * 2 ^ 149)) (.fin false F32.ONE) (.fin false F32.ONE)) (by decide +kernel))]

/-- C98, the order of notes: two projects that differ only in the order of notes that sound together, which nobody can
tell apart, have different files. -/
theorem C98_order : ∃ p q : Project, WF p ∧ WF q ∧ Same p q ∧ p.save ≠ q.save := by
  let n : Note := exampleNote
  let m : Note := { exampleNote with channel := 1 }
  have w : ∀ a b : Note, a.startTick = 100 → b.startTick = 100 → WF { Project.default with notes := [(100, a), (100, b)] } := fun a b ha hb =>
    ⟨by simp [SortedBag], by simp [Keyed, ha, hb, U32_MAX], by simp [SortedStore, Project.default], by simp [Keyed, Project.default], by simp [SortedStore, Project.default], by simp [Keyed, Project.default],
      by simp [SortedStore, Project.default], by simp [Keyed, Project.default], by simp [SortedStore, Project.default], by simp [Keyed, Project.default]⟩
  refine ⟨_, _, w n m (by decide) (by decide), w m n (by decide) (by decide), ?_, by decide +kernel⟩
  exact ⟨rfl, rfl, rfl, List.Perm.swap _ _ _, rfl, rfl, rfl, rfl⟩

/-- Two selections that the constructors make, which do not survive copying, and which are told apart -/
example : ∃ m m' : Models, MadeModels m ∧ MadeModels m' ∧ m.tempos = [⟨5, ⟨0⟩⟩] ∧ m'.tempos = [⟨5, ⟨1⟩⟩] ∧
    m.toClipboardText ≠ m'.toClipboardText := by
  have ok : ∀ v, v ≤ 65535 → MadeModels { tempos := [⟨5, ⟨v⟩⟩] } := fun v hv =>
    ⟨⟨by simp, by simp, by simp [TypedTempo, hv], by simp, by simp⟩, by simp⟩
  refine ⟨_, _, ok 0 (by decide), ok 1 (by decide), rfl, rfl, ?_⟩
  rw [Ne, C98_text _ _ (ok 0 (by decide)) (ok 1 (by decide))]
  intro h
  have := h.tempos
  revert this; decide

/-- Two files, neither the beginning of the other -/
example : ∃ p q : Project, WF p ∧ WF q ∧ MadeDocument p.toExported ∧ MadeDocument q.toExported ∧ p.tempos = [(5, ⟨5, ⟨0⟩⟩)] ∧
    q.tempos = [(5, ⟨5, ⟨1⟩⟩)] ∧ p.save ≠ q.save ∧ ¬ p.save <+: q.save := by
  have w : ∀ v, WF { Project.default with tempos := [(5, ⟨5, ⟨v⟩⟩)] } := fun v =>
    ⟨by simp [SortedBag, Project.default], by simp [Keyed, Project.default], by simp [SortedStore, Project.default], by simp [Keyed, Project.default], by simp [SortedStore], by simp [Keyed, U32_MAX],
      by simp [SortedStore, Project.default], by simp [Keyed, Project.default], by simp [SortedStore, Project.default], by simp [Keyed, Project.default]⟩
  have d : ∀ v, v ≤ 65535 → MadeDocument (Project.toExported { Project.default with tempos := [(5, ⟨5, ⟨v⟩⟩)] }) := fun v hv =>
    ⟨show Project.default.rhythm.numerator ≤ 255 by decide,
      show -128 ≤ Project.default.key.offset ∧ Project.default.key.offset ≤ 127 by decide,
      show Project.default.grid.value ≤ 4294967295 by decide,
      ⟨⟨by simp [Project.default, Project.toExported], by simp [Project.default, Project.toExported], by simp [Project.default, Project.toExported, TypedTempo, hv],
        by simp [Project.default, Project.toExported], by simp [Project.default, Project.toExported]⟩, by simp [Project.default, Project.toExported]⟩,
      ⟨by simp [Project.default, Project.toExported], by simp [Project.default, Project.toExported], by simp [Project.default, Project.toExported], by simp [Project.default, Project.toExported],
        by simp [Project.default, Project.toExported]⟩⟩
  have ne : ¬ AlikeDocuments (Project.toExported { Project.default with tempos := [(5, ⟨5, ⟨0⟩⟩)] }) (Project.toExported { Project.default with tempos := [(5, ⟨5, ⟨1⟩⟩)] }) := by
    intro h
    have := h.models.tempos
    revert this; decide
  have c := C98_file _ _ (d 0 (by decide)) (d 1 (by decide))
  exact ⟨_, _, w 0, w 1, d 0 (by decide), d 1 (by decide), rfl, rfl, fun e => ne (c.1.1 e), fun e => ne (c.2.1 e)⟩

end Klavier
