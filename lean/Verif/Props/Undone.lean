import Verif.Lemmas.Undone
import Verif.Props.Project

/-! # C23: exactly what undoing leaves, for every edit -/
set_option autoImplicit false
namespace Klavier
open Spec Project

private theorem undone_nothing {V : Type} (tick : V → Nat) (s : Store V) : ItemsUndone tick [] [] s s := by
  intro k v
  simp [LastButOneAt, LastAt]

private theorem withdrawn_setting {p p' : Project} {e : Edit} {c : ProjectCmd} (he : p.exec e = .ok (some (p', c)))
    (hc : ∀ a r md, c ≠ .modelChanged a r md) : withdrawn e = {} ∧ introduced e = {} := by
  cases e with
  | setRhythm r => exact ⟨rfl, rfl⟩
  | setKey r => exact ⟨rfl, rfl⟩
  | setGrid r => exact ⟨rfl, rfl⟩
  | _ =>
    cases exec_shape he with
    | rhythm r h1 h2 h3 => simp [AddsContent] at h3 <;> simp [exec, viaCmd, addBar, h2] at he
    | key r h1 h2 h3 => simp [AddsContent] at h3 <;> simp [exec, viaCmd, addBar, h2] at he
    | grid r h1 h2 h3 => simp [AddsContent] at h3 <;> simp [exec, viaCmd, addBar, h2] at he
    | items f A bs hb hx => exact absurd hx (hc _ _ _)

/-- C23, the exact effect of any edit and its undoing: the settings are as before, every note
is there as often as before or as often as it was withdrawn if that is more; where several
bars, tempos or pedals were introduced at one tick, the last but one of them is left there;
elsewhere the last one withdrawn at a tick is there, and everything else as before. -/
theorem C23_undone_partial (p p' : Project) (e : Edit) (c : ProjectCmd) (h : WF p) (ht : EditTicks32 e)
    (he : p.exec e = .ok (some (p', c))) : Undone p e (c.undo p') := by
  have set : withdrawn e = {} ∧ introduced e = {} → c.undo p' = p → Undone p e (c.undo p') := by
    rintro ⟨h1, h2⟩ h3
    rw [h3]
    refine ⟨rfl, rfl, rfl, ?_, ?_, ?_, ?_, ?_⟩ <;> rw [h1]
    · intro n; simp
    all_goals rw [h2]; exact undone_nothing _ _
  rcases exec_shape he with ⟨r, rfl, rfl, _⟩ | ⟨r, rfl, rfl, _⟩ | ⟨r, rfl, rfl, _⟩ |
    ⟨f, A, bs, hs, rfl, a1, a2, a3, a4, hL, hw⟩
  · exact set (withdrawn_setting he (by intro a r md hx; cases hx)) rfl
  · exact set (withdrawn_setting he (by intro a r md hx; cases hx)) rfl
  · exact set (withdrawn_setting he (by intro a r md hx; cases hx)) rfl
  have hA := ticks32_of_introduced ht.introduced a1 a2 a3 a4
  obtain ⟨rfl, hbs⟩ := shape_final h hA hs
  refine ⟨rfl, rfl, rfl, ?_, ?_, ?_, ?_, ?_⟩
  · intro n
    have hk : Keyed Note.startTick (addNotes (removeNotes (addNotes (removeNotes p.notes f.notes) A.notes) A.notes) f.notes) :=
      (notes_swap_wf (notes_swap_wf h.notes h.notesKeyed _ _).1 (notes_swap_wf h.notes h.notesKeyed _ _).2 _ _).2
    have e1 := count_kv (p := { p with notes := addNotes (removeNotes (addNotes (removeNotes p.notes f.notes) A.notes) A.notes) f.notes }) hk n
    change (List.map (·.2) (addNotes (removeNotes (addNotes (removeNotes p.notes f.notes) A.notes) A.notes) f.notes)).count n = _
    rw [← e1]
    simp only [count_addNotes, count_removeNotes]
    rw [count_kv h.notesKeyed, count_kv_list, count_kv_list, hw]
    omega
  · rw [← hw, ← a1]
    exact undone_store Bar.startTick h.bars h.barsKeyed f.bars A.bars bs (fun b hb => (hbs b hb).2)
  · rw [← hw, ← a2]
    have := undone_store Tempo.startTick h.tempos h.temposKeyed f.tempos A.tempos [] (by simp)
    simp only [List.append_nil] at this
    exact this
  · rw [← hw, ← a3]
    have := undone_store CtrlChg.startTick h.dumpers h.dumpersKeyed f.dumpers A.dumpers [] (by simp)
    simp only [List.append_nil] at this
    exact this
  · rw [← hw, ← a4]
    have := undone_store CtrlChg.startTick h.softs h.softsKeyed f.softs A.softs [] (by simp)
    simp only [List.append_nil] at this
    exact this

/-- Three tempos pasted at one tick: after undoing, the second of them has taken the place of
the one that was there. -/
example : ∃ p' c, exampleProject.exec (.bulkAdd { tempos := [⟨20, ⟨90⟩⟩, ⟨20, ⟨80⟩⟩, ⟨20, ⟨70⟩⟩] } {}) = .ok (some (p', c)) ∧
    p'.tempos = [(10, ⟨10, ⟨100⟩⟩), (20, ⟨20, ⟨70⟩⟩)] ∧ (c.undo p').tempos = [(10, ⟨10, ⟨100⟩⟩), (20, ⟨20, ⟨80⟩⟩)] ∧
    LastButOneAt Tempo.startTick [⟨20, ⟨90⟩⟩, ⟨20, ⟨80⟩⟩, ⟨20, ⟨70⟩⟩] 20 ⟨20, ⟨80⟩⟩ :=
  ⟨_, _, rfl, by decide +kernel, by decide +kernel, [⟨20, ⟨90⟩⟩, ⟨20, ⟨80⟩⟩], ⟨20, ⟨70⟩⟩, [], rfl, rfl, by simp,
    [⟨20, ⟨90⟩⟩], [], rfl, rfl, by simp⟩

private theorem undone_wf {p p' : Project} {e : Edit} {c : ProjectCmd} (h : WF p) (ht : EditTicks32 e)
    (he : p.exec e = .ok (some (p', c))) : WF (c.undo p') := by
  have r1 : Reach (fun _ _ => True) p ⟨p, [c], 1, p'⟩ :=
    .edit (s := Session.start p) .start ht trivial (by
      simp only [Session.start, Session.step, he, R_bind_ok, R_pure]
      rfl)
  exact C22_sessions p h _ (.undo (s' := ⟨p, [c], 0, c.undo p'⟩) r1 rfl)

private theorem undoes_iff {V : Type} (tick : V → Nat) {gone put : List V} {old new : Store V} (ho : SortedStore old)
    (hn : SortedStore new) (h : ItemsUndone tick gone put old new) : new = old ↔ UndoesTo tick gone put old := by
  constructor
  · rintro rfl k v
    exact ⟨fun h1 => (h k v).2 (.inl h1), fun h1 h2 => (h k v).2 (.inr ⟨h1, .inl h2⟩)⟩
  · intro hu
    have uniq : ∀ k v w, (k, v) ∈ old → (k, w) ∈ old → v = w := by
      intro k v w hv hw
      rw [← Store.get?_some_iff ho] at hv hw
      rw [hv] at hw
      exact Option.some.inj hw
    have same : ∀ k v, (k, v) ∈ new ↔ (k, v) ∈ old := by
      intro k v
      rw [h k v]
      constructor
      · rintro (h1 | ⟨h1, h2 | ⟨-, h2⟩⟩)
        · exact (hu k v).1 h1
        · exact (hu k v).2 h1 h2
        · exact h2
      · intro hv
        by_cases h1 : ∃ w, LastButOneAt tick put k w
        · obtain ⟨w, hw⟩ := h1
          rw [uniq k v w hv ((hu k w).1 hw)]
          exact .inl hw
        · have h1 : ∀ w, ¬ LastButOneAt tick put k w := fun w hw => h1 ⟨w, hw⟩
          refine .inr ⟨h1, ?_⟩
          cases hl : lastWith tick gone k with
          | none => exact .inr ⟨lastWith_none.1 hl, hv⟩
          | some w =>
            have hw := (lastWith_iff tick gone k w).1 hl
            rw [uniq k v w hv ((hu k w).2 h1 hw)]
            exact .inl hw
    apply Store.ext hn ho
    intro k
    cases hg : Store.get? old k with
    | some v => exact (Store.get?_some_iff hn).2 ((same k v).2 ((Store.get?_some_iff ho).1 hg))
    | none =>
      cases hg' : Store.get? new k with
      | none => rfl
      | some v =>
        rw [(Store.get?_some_iff ho).2 ((same k v).1 ((Store.get?_some_iff hn).1 hg'))] at hg
        cases hg

/-- C23, exactly when undoing an edit restores the project: no note was withdrawn more often
than it was there; where several bars, tempos or pedals were introduced at one tick, the last
but one of them is the one that was there; and elsewhere the last one withdrawn at a tick was
there. -/
theorem C23_restored_iff (p p' : Project) (e : Edit) (c : ProjectCmd) (h : WF p) (ht : EditTicks32 e)
    (he : p.exec e = .ok (some (p', c))) :
    Same (c.undo p') p ↔ (∀ n, (withdrawn e).notes.count n ≤ (p.notes.map (·.2)).count n) ∧
      UndoesTo Bar.startTick (withdrawn e).bars (introduced e).bars p.bars ∧
      UndoesTo Tempo.startTick (withdrawn e).tempos (introduced e).tempos p.tempos ∧
      UndoesTo CtrlChg.startTick (withdrawn e).dumpers (introduced e).dumpers p.dumpers ∧
      UndoesTo CtrlChg.startTick (withdrawn e).softs (introduced e).softs p.softs := by
  have hu := C23_undone_partial p p' e c h ht he
  have hw := undone_wf h ht he
  constructor
  · intro hs
    refine ⟨?_, (undoes_iff _ h.bars hw.bars hu.bars).1 hs.bars, (undoes_iff _ h.tempos hw.tempos hu.tempos).1 hs.tempos,
      (undoes_iff _ h.dumpers hw.dumpers hu.dumpers).1 hs.dumpers, (undoes_iff _ h.softs hw.softs hu.softs).1 hs.softs⟩
    intro n
    have h1 := hu.notes n
    rw [(hs.notes.map (·.2)).count_eq] at h1
    omega
  · rintro ⟨h1, h2, h3, h4, h5⟩
    refine ⟨hu.rhythm, hu.key, hu.grid, ?_, (undoes_iff _ h.bars hw.bars hu.bars).2 h2,
      (undoes_iff _ h.tempos hw.tempos hu.tempos).2 h3, (undoes_iff _ h.dumpers hw.dumpers hu.dumpers).2 h4,
      (undoes_iff _ h.softs hw.softs hu.softs).2 h5⟩
    rw [List.perm_iff_count]
    intro a
    by_cases ha : a.1 = a.2.startTick
    · have : a = kv a.2 := by simp only [kv, ← ha]
      rw [this, count_kv hw.notesKeyed, count_kv h.notesKeyed, hu.notes]
      have := h1 a.2
      omega
    · have none : ∀ {q : Project}, WF q → q.notes.count a = 0 := by
        intro q hq
        rw [List.count_eq_zero]
        exact fun hm => ha (hq.notesKeyed a hm).1
      rw [none hw, none h]

/-- Pasting two tempos at a tick where there was the first of them: undoing restores the project. -/
example : ∃ p' c, exampleProject.exec (.bulkAdd { tempos := [⟨20, ⟨200⟩⟩, ⟨20, ⟨80⟩⟩] } {}) = .ok (some (p', c)) ∧
    p'.tempos ≠ exampleProject.tempos ∧ (c.undo p').tempos = exampleProject.tempos :=
  ⟨_, _, rfl, by decide +kernel, by decide +kernel⟩

end Klavier
