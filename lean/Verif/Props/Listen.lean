import Verif.Spec.Listen
import Verif.Props.Announce

/-! # C93: reading the queues and clearing them -/
set_option autoImplicit false
namespace Klavier
open Spec Project

private theorem follows_append {p q r : Project} {a b : Calls} (h1 : Follows p a q) (h2 : Follows q b r) :
    Follows p (a.append b) r := by
  constructor
  · rw [Calls.append, List.foldl_append, h1.notes, h2.notes]
  · rw [Calls.append, List.foldl_append, h1.bars, h2.bars]
  · rw [Calls.append, List.foldl_append, h1.tempos, h2.tempos]
  · rw [Calls.append, List.foldl_append, h1.dumpers, h2.dumpers]
  · rw [Calls.append, List.foldl_append, h1.softs, h2.softs]

private theorem readAll_eq (h : Heard) : readAll h = h.queues := rfl

private theorem clear_cur (forgets : Bool) (h : Heard) : (h.clearModelEvents forgets).session.cur = h.session.cur := by
  cases forgets <;> rfl

/-- C93: clearing leaves the project as it is and all queues empty. It never fails. If
the store keeps its commands, nothing else changes; if it drops them, there is nothing
left to undo or redo. -/
theorem C93_clear (forgets : Bool) (h : Heard) :
    ∃ h', h.act forgets .clear = .ok h' ∧ h'.session.cur = h.session.cur ∧ Silent h' ∧
      (forgets = false → h'.session = h.session) ∧
      (forgets = true → h'.act forgets (.op .undo) = .ok h' ∧ h'.act forgets (.op .redo) = .ok h') := by
  refine ⟨_, rfl, clear_cur forgets h, ⟨rfl, rfl, rfl, rfl, rfl⟩, ?_, ?_⟩
  · rintro rfl; rfl
  · rintro rfl; exact ⟨rfl, rfl⟩

example : Silent ((⟨Session.start exampleProject, { bars := [.remove 5] }⟩ : Heard).clearModelEvents true) ∧
    ¬ Silent (⟨Session.start exampleProject, { bars := [.remove 5] }⟩ : Heard) :=
  ⟨⟨rfl, rfl, rfl, rfl, rfl⟩, fun h => by cases h.2.1⟩

private theorem listen_follows (forgets : Bool) (acts : List Act) : ∀ (h h' : Heard) (l : List Calls) (copy : Project),
    listen forgets h acts = .ok (h', l) → Follows copy (readAll h) h.session.cur →
    Follows copy (joined l) h'.session.cur := by
  induction acts with
  | nil =>
    intro h h' l copy hl hf
    cases hl
    exact follows_joined hf (follows_nil _ _ rfl rfl rfl rfl rfl)
  | cons a acts ih =>
    intro h h' l copy hl hf
    cases a with
    | clear =>
      simp only [listen, R_bind_eq_ok] at hl
      obtain ⟨g, h1, ⟨e, l'⟩, h2, h3⟩ := hl
      cases h1
      cases h3
      refine follows_joined hf (ih _ _ _ _ h2 ?_)
      rw [clear_cur]
      exact follows_nil _ _ rfl rfl rfl rfl rfl
    | op o =>
      simp only [listen, Heard.act, R_bind_eq_ok] at hl
      obtain ⟨g, ⟨cs, h1, s, h2, h3⟩, h4⟩ := hl
      cases h3
      obtain ⟨cs', h5, h6⟩ := step_follows h2
      rw [h1] at h5
      cases h5
      exact ih _ _ _ _ h4 (follows_append hf h6)

/-- C93: an editor with a copy of the collections that reads the queues each time before
it clears them, and follows what it has read, has the collections of the project,
whatever is done in between. -/
theorem C93_follow (forgets : Bool) (p : Project) (acts : List Act) (h : Heard) (l : List Calls)
    (hl : listen forgets ⟨Session.start p, {}⟩ acts = .ok (h, l)) : Follows p (joined l) h.session.cur :=
  listen_follows forgets acts _ _ _ _ hl (follows_nil _ _ rfl rfl rfl rfl rfl)

/-- The same from any moment at which the copy lacks only what is in the queues. -/
theorem C93_resume (forgets : Bool) (h h' : Heard) (copy : Project) (acts : List Act) (l : List Calls)
    (hc : Follows copy (readAll h) h.session.cur) (hl : listen forgets h acts = .ok (h', l)) :
    Follows copy (joined l) h'.session.cur :=
  listen_follows forgets acts _ _ _ _ hl hc

private theorem append_joined (a b : Calls) (l : List Calls) : joined (a.append b :: l) = joined (a :: b :: l) := by
  simp [joined, Calls.append]

private theorem empty_joined (l : List Calls) : joined ({} :: l) = joined l := rfl

private theorem joined_congr {a b : List Calls} (c : Calls) (h : joined a = joined b) : joined (c :: a) = joined (c :: b) := by
  simp only [joined, List.flatMap_cons, Calls.mk.injEq] at h ⊢
  obtain ⟨h1, h2, h3, h4, h5⟩ := h
  rw [h1, h2, h3, h4, h5]
  exact ⟨rfl, rfl, rfl, rfl, rfl⟩

private theorem listen_once (acts : List Act) : ∀ (h h' : Heard) (l : List Calls),
    listen false h acts = .ok (h', l) →
    h.session.run (userOps acts) = .ok h'.session ∧
      ∃ q, h.session.queue (userOps acts) = .ok q ∧ joined l = joined (h.queues :: q) := by
  induction acts with
  | nil =>
    intro h h' l hl
    cases hl
    exact ⟨rfl, [], rfl, rfl⟩
  | cons a acts ih =>
    intro h h' l hl
    cases a with
    | clear =>
      simp only [listen, R_bind_eq_ok] at hl
      obtain ⟨g, h1, ⟨e, l'⟩, h2, h3⟩ := hl
      cases h1
      cases h3
      obtain ⟨k1, q, k2, k3⟩ := ih _ _ _ h2
      refine ⟨k1, q, k2, ?_⟩
      rw [readAll_eq]
      exact joined_congr _ (k3.trans (empty_joined q))
    | op o =>
      simp only [listen, Heard.act, R_bind_eq_ok] at hl
      obtain ⟨g, ⟨cs, h1, s, h2, h3⟩, h4⟩ := hl
      cases h3
      obtain ⟨k1, q, k2, k3⟩ := ih _ _ _ h4
      refine ⟨?_, cs :: q, ?_, k3.trans (append_joined _ _ _)⟩
      · simp only [userOps, Session.run, R_bind_eq_ok]
        exact ⟨s, h2, k1⟩
      · simp only [userOps, Session.queue, R_bind_eq_ok]
        exact ⟨cs, h1, s, h2, q, k2, rfl⟩

/-- C93: if the store keeps its commands, reading and clearing has no effect on what the
user does, and whatever the moments of reading, every call is read once and in order. -/
theorem C93_once (p : Project) (acts : List Act) (h : Heard) (l : List Calls)
    (hl : listen false ⟨Session.start p, {}⟩ acts = .ok (h, l)) :
    (Session.start p).run (userOps acts) = .ok h.session ∧
      ∃ q, (Session.start p).queue (userOps acts) = .ok q ∧ joined l = joined q :=
  listen_once acts _ _ _ hl

/-- The queues are read after the first edit and at the end. If the store keeps its
commands the undo takes back the edit; if not it does nothing. -/
example : (match listen false ⟨Session.start exampleProject, {}⟩
      [.op (.edit (.addTempo ⟨0, ⟨90⟩⟩ true)), .clear, .op .undo] with
    | .ok (h, l) => some (h.session.cur.tempos == exampleProject.tempos, l.map (·.tempos))
    | _ => none) = some (true, [[.add 0 ⟨0, ⟨90⟩⟩ { needSelect := some true }], [.remove 0]]) := by decide +kernel

example : (match listen true ⟨Session.start exampleProject, {}⟩
      [.op (.edit (.addTempo ⟨0, ⟨90⟩⟩ true)), .clear, .op .undo] with
    | .ok (h, l) => some (h.session.cur.tempos == exampleProject.tempos, l.map (·.tempos))
    | _ => none) = some (false, [[.add 0 ⟨0, ⟨90⟩⟩ { needSelect := some true }], []]) := by decide +kernel

end Klavier
