import Verif.Spec.Announce
import Verif.Lemmas.Edit

/-! # Lemmas on the calls on the collections -/
set_option autoImplicit false
namespace Klavier
open Spec

theorem replenish_bars {p q : Project} {bs : List Bar} (h : p.replenishBars = .ok (q, bs)) :
    q = { p with bars := Project.addBars p.bars bs } := by
  unfold Project.replenishBars at h
  dsimp only at h
  rw [R_bind_eq_ok] at h
  obtain ⟨o, -, h⟩ := h
  split at h
  all_goals
    split at h
    · cases h; rfl
    · rw [R_bind_eq_ok] at h
      obtain ⟨r, -, h⟩ := h
      rw [R_bind_eq_ok] at h
      obtain ⟨l, -, h⟩ := h
      cases h; rfl

theorem follow_replenish (s : Store Bar) (bs : List Bar) :
    (Project.replenishCalls bs).foldl follow s = Project.addBars s bs := by
  induction bs generalizing s with
  | nil => rfl
  | cons b bs ih => exact ih _

theorem told_replenish (bs : List Bar) : (Project.replenishCalls bs).flatMap told = hinted bs {} := by
  induction bs with
  | nil => rfl
  | cons b bs ih =>
    simp only [Project.replenishCalls, hinted, List.map_cons, List.flatMap_cons] at ih ⊢
    rw [ih]; rfl

theorem gone_replenish (bs : List Bar) : (Project.replenishCalls bs).flatMap gone = [] := by
  induction bs with
  | nil => rfl
  | cons b bs ih =>
    simp only [Project.replenishCalls, List.map_cons, List.flatMap_cons] at ih ⊢
    rw [ih]; rfl

theorem bulkAdd_foldl {V : Type} (s : Store V) (l : List (Nat × V)) :
    l.foldl (fun s p => s.add p.1 p.2) s = (s.bulkAdd l).1 := by
  induction l generalizing s with
  | nil => rfl
  | cons a l ih => exact ih _

section
variable {V : Type} (tick : V → Nat)

theorem follow_swap (s : Store V) (o i : List V) (md : Metadata) :
    (o.map (fun v => Call.remove (tick v)) ++ i.map (fun v => Call.add (tick v) v md)).foldl follow s =
      Project.addItems tick (Project.removeItems tick s o) i := by
  rw [List.foldl_append]
  unfold Project.addItems Project.removeItems
  rw [List.foldl_map, List.foldl_map]
  rfl

theorem told_swap (o i : List V) (md : Metadata) :
    (o.map (fun v => Call.remove (tick v)) ++ i.map (fun v => Call.add (tick v) v md)).flatMap told = hinted i md := by
  rw [List.flatMap_append, List.flatMap_map, List.flatMap_map]
  simp only [told, hinted]
  have : o.flatMap (fun _ => ([] : List (V × Metadata))) = [] := by induction o with
    | nil => rfl
    | cons a o ih => exact ih
  rw [this, List.nil_append]
  induction i with
  | nil => rfl
  | cons a i ih => simp only [List.flatMap_cons, List.map_cons, ih, List.singleton_append]

theorem gone_swap (o i : List V) (md : Metadata) :
    (o.map (fun v => Call.remove (tick v)) ++ i.map (fun v => Call.add (tick v) v md)).flatMap gone = o.map tick := by
  rw [List.flatMap_append, List.flatMap_map, List.flatMap_map]
  simp only [gone]
  have h1 : i.flatMap (fun _ => ([] : List Nat)) = [] := by induction i with
    | nil => rfl
    | cons a o ih => exact ih
  rw [h1, List.append_nil]
  induction o with
  | nil => rfl
  | cons a o ih => simp only [List.flatMap_cons, List.map_cons, ih, List.singleton_append]

end

theorem followNote_swap (s : Bag Note) (o i : List Note) (md : Metadata) :
    (o.map (fun n : Note => NoteCall.remove n.startTick n) ++ i.map (fun n : Note => NoteCall.add n.startTick n md)).foldl followNote s =
      Project.addNotes (Project.removeNotes s o) i := by
  rw [List.foldl_append]
  unfold Project.addNotes Project.removeNotes
  rw [List.foldl_map, List.foldl_map]
  rfl

theorem toldNote_swap (o i : List Note) (md : Metadata) :
    (o.map (fun n : Note => NoteCall.remove n.startTick n) ++ i.map (fun n : Note => NoteCall.add n.startTick n md)).flatMap toldNote =
      hinted i md := by
  rw [List.flatMap_append, List.flatMap_map, List.flatMap_map]
  simp only [toldNote, hinted]
  have : o.flatMap (fun _ => ([] : List (Note × Metadata))) = [] := by induction o with
    | nil => rfl
    | cons a o ih => exact ih
  rw [this, List.nil_append]
  induction i with
  | nil => rfl
  | cons a i ih => simp only [List.flatMap_cons, List.map_cons, ih, List.singleton_append]

theorem goneNote_swap (o i : List Note) (md : Metadata) :
    (o.map (fun n : Note => NoteCall.remove n.startTick n) ++ i.map (fun n : Note => NoteCall.add n.startTick n md)).flatMap goneNote = o := by
  rw [List.flatMap_append, List.flatMap_map, List.flatMap_map]
  simp only [goneNote]
  have h1 : i.flatMap (fun _ => ([] : List Note)) = [] := by induction i with
    | nil => rfl
    | cons a o ih => exact ih
  rw [h1, List.append_nil]
  induction o with
  | nil => rfl
  | cons a o ih => simp only [List.flatMap_cons, ih, List.singleton_append]

theorem swapCalls_follows (p : Project) (o i : Models) (md : Metadata) : Follows p (swapCalls o i md) (p.swap o i) :=
  ⟨followNote_swap _ _ _ _, follow_swap Bar.startTick _ _ _ _, follow_swap Tempo.startTick _ _ _ _,
   follow_swap CtrlChg.startTick _ _ _ _, follow_swap CtrlChg.startTick _ _ _ _⟩

theorem swapCalls_tells (o i : Models) (md : Metadata) : Tells (swapCalls o i md) o i md [] where
  notes := toldNote_swap _ _ _
  bars := (told_swap Bar.startTick _ _ _).trans (List.append_nil _).symm
  tempos := told_swap Tempo.startTick _ _ _
  dumpers := told_swap CtrlChg.startTick _ _ _
  softs := told_swap CtrlChg.startTick _ _ _
  goneNotes := goneNote_swap _ _ _
  goneBars := gone_swap Bar.startTick _ _ _
  goneTempos := gone_swap Tempo.startTick _ _ _
  goneDumpers := gone_swap CtrlChg.startTick _ _ _
  goneSofts := gone_swap CtrlChg.startTick _ _ _


/-- What `calls` does with the project it completes: shared by all edits that do so. -/
theorem follow_store_bulkAdd {V : Type} (s : Store V) (l : List (Nat × V)) (md : Metadata) :
    [Call.bulkAdd l md].foldl follow s = (s.bulkAdd l).1 := bulkAdd_foldl s l

theorem follow_store_change {V : Type} (s : Store V) (l : List (Nat × (Nat × V))) (md : Metadata) :
    [Call.change l md].foldl follow s = (s.change l).1 := bulkAdd_foldl _ _

theorem told_bulkAdd {V : Type} (tick : V → Nat) (l : List V) (md : Metadata) :
    [Call.bulkAdd (l.map (fun v => (tick v, v))) md].flatMap told = hinted l md := by
  simp only [List.flatMap_cons, List.flatMap_nil, List.append_nil, told, hinted, List.map_map]; rfl

theorem toldNote_bulkAdd (l : List Note) (md : Metadata) :
    [NoteCall.bulkAdd (l.map (fun n : Note => (n.startTick, n))) md].flatMap toldNote = hinted l md := by
  simp only [List.flatMap_cons, List.flatMap_nil, List.append_nil, toldNote, hinted, List.map_map]; rfl

theorem told_change {V : Type} (tick : V → Nat) (l : List (V × V)) (md : Metadata) :
    [Call.change (l.map (fun x => (tick x.1, (tick x.2, x.2)))) md].flatMap told = hinted (l.map (·.2)) md := by
  simp only [List.flatMap_cons, List.flatMap_nil, List.append_nil, told, hinted, List.map_map]; rfl

theorem gone_change {V : Type} (tick : V → Nat) (l : List (V × V)) (md : Metadata) :
    [Call.change (l.map (fun x => (tick x.1, (tick x.2, x.2)))) md].flatMap gone = (l.map (·.1)).map tick := by
  simp only [List.flatMap_cons, List.flatMap_nil, List.append_nil, gone, List.map_map]; rfl

theorem toldNote_change (l : List (Note × Note)) (md : Metadata) :
    [NoteCall.change (l.map (fun x => ((x.1.startTick, x.1), (x.2.startTick, x.2)))) md].flatMap toldNote =
      hinted (l.map (·.2)) md := by
  simp only [List.flatMap_cons, List.flatMap_nil, List.append_nil, toldNote, hinted, List.map_map]; rfl

theorem goneNote_change (l : List (Note × Note)) (md : Metadata) :
    [NoteCall.change (l.map (fun x => ((x.1.startTick, x.1), (x.2.startTick, x.2)))) md].flatMap goneNote =
      l.map (·.1) := by
  simp only [List.flatMap_cons, List.flatMap_nil, List.append_nil, goneNote, List.map_map]; rfl

theorem goneNote_tuplet (ns N : List Note) (md md' : Metadata) :
    [NoteCall.bulkRemove (ns.map (fun n : Note => (n.startTick, n))) md,
     NoteCall.bulkAdd (N.map (fun n : Note => (n.startTick, n))) md'].flatMap goneNote = ns := by
  simp only [List.flatMap_cons, List.flatMap_nil, List.append_nil, goneNote, List.map_map]
  exact List.map_id' ns

theorem selecting_hint (sel : Bool) :
    Metadata.selecting sel = { needSelect := if sel then some true else none, dragged := false } := by
  cases sel <;> rfl

/-- The calls of an edit: where they lead, and what they say. -/
theorem calls_spec {p q : Project} {e : Edit} {c : ProjectCmd} (h : p.exec e = .ok (some (q, c))) :
    ∃ cs N bs, p.calls e = .ok (some cs) ∧ Follows p cs q ∧ NewNotes N e ∧
      Tells cs (withdrawn e) (putIn e N) (hint e) bs ∧ Records c (putIn e N) (hint e) bs := by
  cases e with
  | setRhythm r =>
    cases h; exact ⟨_, [], [], rfl, ⟨rfl, rfl, rfl, rfl, rfl⟩, rfl, ⟨rfl, rfl, rfl, rfl, rfl, rfl, rfl, rfl, rfl, rfl⟩, rfl, rfl⟩
  | setKey r =>
    cases h; exact ⟨_, [], [], rfl, ⟨rfl, rfl, rfl, rfl, rfl⟩, rfl, ⟨rfl, rfl, rfl, rfl, rfl, rfl, rfl, rfl, rfl, rfl⟩, rfl, rfl⟩
  | setGrid r =>
    cases h; exact ⟨_, [], [], rfl, ⟨rfl, rfl, rfl, rfl, rfl⟩, rfl, ⟨rfl, rfl, rfl, rfl, rfl, rfl, rfl, rfl, rfl, rfl⟩, rfl, rfl⟩
  | addNote n sel =>
    simp only [Project.exec, Project.addNote, R_bind_eq_ok] at h
    obtain ⟨⟨q, d⟩, ⟨⟨q2, bs⟩, h1, h2⟩, h3⟩ := h
    cases h2; cases h3
    refine ⟨{ notes := [.add n.startTick n (.selecting sel)], bars := Project.replenishCalls bs }, [n], bs,
      by simp only [Project.calls, h1]; rfl, ?_, rfl, ?_, ?_⟩
    · rw [replenish_bars h1]; exact ⟨rfl, follow_replenish _ _, rfl, rfl, rfl⟩
    · rw [selecting_hint]
      exact ⟨rfl, told_replenish _, rfl, rfl, rfl, rfl, gone_replenish _, rfl, rfl, rfl⟩
    · exact ⟨rfl, selecting_hint sel⟩
  | addBar b sel =>
    cases h
    refine ⟨_, [], [], rfl, ⟨rfl, rfl, rfl, rfl, rfl⟩, rfl, ?_, rfl, selecting_hint sel⟩
    rw [selecting_hint]
    exact ⟨rfl, rfl, rfl, rfl, rfl, rfl, rfl, rfl, rfl, rfl⟩
  | addTempo t sel =>
    simp only [Project.exec, Project.addTempo, R_bind_eq_ok] at h
    obtain ⟨⟨q, d⟩, ⟨⟨q2, bs⟩, h1, h2⟩, h3⟩ := h
    cases h2; cases h3
    refine ⟨{ tempos := [.add t.startTick t (.selecting sel)], bars := Project.replenishCalls bs }, [], bs,
      by simp only [Project.calls, h1]; rfl, ?_, rfl, ?_, ?_⟩
    · rw [replenish_bars h1]; exact ⟨rfl, follow_replenish _ _, rfl, rfl, rfl⟩
    · rw [selecting_hint]
      exact ⟨rfl, told_replenish _, rfl, rfl, rfl, rfl, gone_replenish _, rfl, rfl, rfl⟩
    · exact ⟨rfl, selecting_hint sel⟩
  | addDumper t sel =>
    simp only [Project.exec, Project.addDumper, R_bind_eq_ok] at h
    obtain ⟨⟨q, d⟩, ⟨⟨q2, bs⟩, h1, h2⟩, h3⟩ := h
    cases h2; cases h3
    refine ⟨{ dumpers := [.add t.startTick t (.selecting sel)], bars := Project.replenishCalls bs }, [], bs,
      by simp only [Project.calls, h1]; rfl, ?_, rfl, ?_, ?_⟩
    · rw [replenish_bars h1]; exact ⟨rfl, follow_replenish _ _, rfl, rfl, rfl⟩
    · rw [selecting_hint]
      exact ⟨rfl, told_replenish _, rfl, rfl, rfl, rfl, gone_replenish _, rfl, rfl, rfl⟩
    · exact ⟨rfl, selecting_hint sel⟩
  | addSoft t sel =>
    simp only [Project.exec, Project.addSoft, R_bind_eq_ok] at h
    obtain ⟨⟨q, d⟩, ⟨⟨q2, bs⟩, h1, h2⟩, h3⟩ := h
    cases h2; cases h3
    refine ⟨{ softs := [.add t.startTick t (.selecting sel)], bars := Project.replenishCalls bs }, [], bs,
      by simp only [Project.calls, h1]; rfl, ?_, rfl, ?_, ?_⟩
    · rw [replenish_bars h1]; exact ⟨rfl, follow_replenish _ _, rfl, rfl, rfl⟩
    · rw [selecting_hint]
      exact ⟨rfl, told_replenish _, rfl, rfl, rfl, rfl, gone_replenish _, rfl, rfl, rfl⟩
    · exact ⟨rfl, selecting_hint sel⟩
  | tuplize ns =>
    simp only [Project.exec, Project.tuplize] at h
    split at h
    · next hl =>
      simp only [R_bind_eq_ok] at h
      obtain ⟨tp, h0, ⟨q2, bs⟩, h1, h2⟩ := h
      cases h2
      let cs : Calls :=
        { notes := [.bulkRemove (ns.map (fun n : Note => (n.startTick, n))) {},
            .bulkAdd (tp.map (fun n : Note => (n.startTick, n))) (Metadata.withNeedSelect {} true)]
          bars := Project.replenishCalls bs }
      refine ⟨cs, tp, bs, ?_, ?_, ⟨hl, h0⟩, ?_, rfl, rfl⟩
      · simp only [Project.calls, if_pos hl, R_bind_eq_ok]
        exact ⟨tp, h0, _, h1, rfl⟩
      · rw [replenish_bars h1]; exact ⟨rfl, follow_replenish _ _, rfl, rfl, rfl⟩
      · exact ⟨toldNote_bulkAdd tp _, told_replenish _, rfl, rfl, rfl, goneNote_tuplet ns tp _ _, gone_replenish _,
          rfl, rfl, rfl⟩
    · cases h
  | bulkRemove m md =>
    cases h
    refine ⟨_, [], [], rfl, swapCalls_follows _ _ _ _, rfl, swapCalls_tells _ _ _, rfl, rfl⟩
  | bulkAdd m md =>
    simp only [Project.exec, Project.bulkAdd, R_bind_eq_ok] at h
    obtain ⟨⟨q, d⟩, ⟨⟨q2, bs⟩, h1, h2⟩, h3⟩ := h
    cases h2; cases h3
    refine ⟨_, m.notes, bs, by simp only [Project.calls, h1]; rfl, ?_, rfl, ?_, rfl, rfl⟩
    · rw [replenish_bars h1]
      refine ⟨rfl, ?_, follow_store_bulkAdd _ _ _, follow_store_bulkAdd _ _ _, follow_store_bulkAdd _ _ _⟩
      show (Project.replenishCalls bs).foldl follow ([Call.bulkAdd _ md].foldl follow p.bars) = _
      rw [follow_store_bulkAdd, follow_replenish]
    · refine ⟨toldNote_bulkAdd _ _, ?_, told_bulkAdd _ _ _, told_bulkAdd _ _ _, told_bulkAdd _ _ _, rfl, ?_, rfl, rfl, rfl⟩
      · show ([Call.bulkAdd _ md] ++ Project.replenishCalls bs).flatMap told = _
        rw [List.flatMap_append, told_bulkAdd, told_replenish]; rfl
      · exact gone_replenish bs
  | change m md =>
    simp only [Project.exec, Project.change, R_bind_eq_ok] at h
    obtain ⟨⟨q, d⟩, ⟨⟨q2, bs⟩, h1, h2⟩, h3⟩ := h
    cases h2; cases h3
    refine ⟨_, (m.notes.map (fun x : Note × Note => x.2) : List Note), bs, by simp only [Project.calls, h1]; rfl, ?_, rfl, ?_, rfl, rfl⟩
    · rw [replenish_bars h1]
      refine ⟨rfl, ?_, follow_store_change _ _ _, follow_store_change _ _ _, follow_store_change _ _ _⟩
      show (Project.replenishCalls bs).foldl follow ([Call.change _ md].foldl follow p.bars) = _
      rw [follow_store_change, follow_replenish]
    · refine ⟨toldNote_change _ _, ?_, told_change _ _ _, told_change _ _ _, told_change _ _ _, goneNote_change _ _, ?_,
        gone_change _ _ _, gone_change _ _ _, gone_change _ _ _⟩
      · show ([Call.change _ md] ++ Project.replenishCalls bs).flatMap told = _
        rw [List.flatMap_append, told_change, told_replenish]; rfl
      · show ([Call.change _ md] ++ Project.replenishCalls bs).flatMap gone = _
        rw [List.flatMap_append, gone_change, gone_replenish, List.append_nil]; rfl

/-- Whether an edit panics, is refused or succeeds. -/
def ending {α : Type} : R (Option α) → Except Panic Bool
  | .ok o => .ok o.isSome
  | .error x => .error x

theorem calls_ending (p : Project) (e : Edit) : ending (p.calls e) = ending (p.exec e) := by
  cases e with
  | setRhythm r | setKey r | setGrid r | addBar r | bulkRemove r => rfl
  | addNote n sel =>
    simp only [Project.calls, Project.exec, Project.addNote]
    cases Project.replenishBars _ <;> rfl
  | addTempo n sel =>
    simp only [Project.calls, Project.exec, Project.addTempo]
    cases Project.replenishBars _ <;> rfl
  | addDumper n sel =>
    simp only [Project.calls, Project.exec, Project.addDumper]
    cases Project.replenishBars _ <;> rfl
  | addSoft n sel =>
    simp only [Project.calls, Project.exec, Project.addSoft]
    cases Project.replenishBars _ <;> rfl
  | tuplize ns =>
    simp only [Project.calls, Project.exec, Project.tuplize]
    split
    · cases Tuple.tuplize ns with
      | error x => rfl
      | ok tp =>
        show ending (Except.bind _ _) = ending (Except.bind _ _)
        simp only [Except.bind]
        show ending (Except.bind _ _) = ending (Except.bind _ _)
        cases Project.replenishBars _ <;> rfl
    · rfl
  | bulkAdd m md =>
    simp only [Project.calls, Project.exec, Project.bulkAdd]
    cases Project.replenishBars _ <;> rfl
  | change m md =>
    simp only [Project.calls, Project.exec, Project.change]
    cases Project.replenishBars _ <;> rfl

theorem ending_none {α : Type} (x : R (Option α)) : ending x = .ok false ↔ x = .ok none := by
  match x with
  | .ok none => simp [ending]
  | .ok (some a) => simp [ending]
  | .error x => simp [ending]

theorem ending_error {α : Type} (x : R (Option α)) (y : Panic) : ending x = .error y ↔ x = .error y := by
  match x with
  | .ok none => simp [ending]
  | .ok (some a) => simp [ending]
  | .error x => simp [ending]

/-! ### Sequences -/

theorem follows_nil (p q : Project) (h1 : q.notes = p.notes) (h2 : q.bars = p.bars) (h3 : q.tempos = p.tempos)
    (h4 : q.dumpers = p.dumpers) (h5 : q.softs = p.softs) : Follows p {} q :=
  ⟨h1.symm, h2.symm, h3.symm, h4.symm, h5.symm⟩

theorem follows_joined {p q r : Project} {cs : Calls} {l : List Calls} (h1 : Follows p cs q) (h2 : Follows q (joined l) r) :
    Follows p (joined (cs :: l)) r := by
  constructor
  · simpa [joined, List.foldl_append, h1.notes] using h2.notes
  · simpa [joined, List.foldl_append, h1.bars] using h2.bars
  · simpa [joined, List.foldl_append, h1.tempos] using h2.tempos
  · simpa [joined, List.foldl_append, h1.dumpers] using h2.dumpers
  · simpa [joined, List.foldl_append, h1.softs] using h2.softs

theorem cmd_follows (p : Project) (c : ProjectCmd) :
    Follows p c.undoCalls (c.undo p) ∧ Follows p c.redoCalls (c.redo p) := by
  cases c with
  | modelChanged a r md => exact ⟨swapCalls_follows _ _ _ _, swapCalls_follows _ _ _ _⟩
  | setRhythm a b => exact ⟨⟨rfl, rfl, rfl, rfl, rfl⟩, ⟨rfl, rfl, rfl, rfl, rfl⟩⟩
  | setKey a b => exact ⟨⟨rfl, rfl, rfl, rfl, rfl⟩, ⟨rfl, rfl, rfl, rfl, rfl⟩⟩
  | setGrid a b => exact ⟨⟨rfl, rfl, rfl, rfl, rfl⟩, ⟨rfl, rfl, rfl, rfl, rfl⟩⟩

theorem step_follows {s s' : Session} {o : Op} (h : s.step o = .ok s') :
    ∃ cs, s.calls o = .ok cs ∧ Follows s.cur cs s'.cur := by
  cases o with
  | edit e =>
    simp only [Session.step, R_bind_eq_ok] at h
    obtain ⟨r, h1, h2⟩ := h
    cases r with
    | none =>
      cases h2
      refine ⟨{}, ?_, follows_nil _ _ rfl rfl rfl rfl rfl⟩
      have := (ending_none _).1 ((calls_ending s.cur e).trans ((ending_none _).2 h1))
      simp only [Session.calls, this]; rfl
    | some pc =>
      obtain ⟨q, c⟩ := pc
      cases h2
      obtain ⟨cs, _, _, h3, h4, _⟩ := calls_spec h1
      exact ⟨cs, by simp only [Session.calls, h3]; rfl, h4⟩
  | undo =>
    simp only [Session.step, Session.calls] at h ⊢
    split at h
    · next h0 => cases h; exact ⟨{}, by simp [h0], follows_nil _ _ rfl rfl rfl rfl rfl⟩
    · next h0 =>
      rw [if_neg h0]
      split at h
      · next c hc => cases h; exact ⟨_, by rw [hc], (cmd_follows _ c).1⟩
      · next hc => cases h; exact ⟨{}, by rw [hc], follows_nil _ _ rfl rfl rfl rfl rfl⟩
  | redo =>
    simp only [Session.step, Session.calls] at h ⊢
    split at h
    · next c hc => cases h; exact ⟨_, by rw [hc], (cmd_follows _ c).2⟩
    · next hc => cases h; exact ⟨{}, by rw [hc], follows_nil _ _ rfl rfl rfl rfl rfl⟩

theorem hinted_append {V : Type} (a b : List V) (md : Metadata) : hinted (a ++ b) md = hinted a md ++ hinted b md :=
  List.map_append

theorem hinted_eq {V : Type} (l : List V) (md md' : Metadata) : hinted l md = hinted l md' ↔ l = [] ∨ md = md' := by
  constructor
  · intro h
    cases l with
    | nil => exact .inl rfl
    | cons a l =>
      refine .inr ?_
      have := congrArg (fun x => x.head?) h
      simpa [hinted] using this
  · rintro (rfl | rfl) <;> rfl

theorem redo_news {c : ProjectCmd} {cs : Calls} {out inn : Models} {md : Metadata} {bs : List Bar}
    (h1 : Tells cs out inn md bs) (h2 : Records c inn md bs) :
    SameNews cs c.redoCalls ↔ bs = [] ∨ md = {} := by
  obtain ⟨t1, t2, t3, t4, t5, -⟩ := h1
  cases c with
  | modelChanged a r md' =>
    obtain ⟨rfl, rfl⟩ := h2
    obtain ⟨u1, u2, u3, u4, u5, -⟩ := swapCalls_tells r { inn with bars := inn.bars ++ bs } md'
    simp only [hinted_append] at u2
    have u2 := u2.trans (List.append_nil _)
    simp only [SameNews, ProjectCmd.redoCalls, t1, t2, t3, t4, t5, u1, u2, u3, u4, u5, true_and, and_true]
    rw [List.append_cancel_left_eq, eq_comm, hinted_eq]
  | setRhythm a b | setKey a b | setGrid a b =>
    obtain ⟨rfl, rfl⟩ := h2
    refine ⟨fun _ => .inl rfl, fun _ => ?_⟩
    simp only [SameNews, t1, t2, t3, t4, t5]
    exact ⟨rfl, rfl, rfl, rfl, rfl⟩

theorem run_follows (ops : List Op) : ∀ (s s' : Session), s.run ops = .ok s' →
    ∃ l, s.queue ops = .ok l ∧ l.length = ops.length ∧ Follows s.cur (joined l) s'.cur := by
  induction ops with
  | nil =>
    intro s s' h
    cases h
    exact ⟨[], rfl, rfl, follows_nil _ _ rfl rfl rfl rfl rfl⟩
  | cons o ops ih =>
    intro s s' h
    simp only [Session.run, R_bind_eq_ok] at h
    obtain ⟨t, h1, h2⟩ := h
    obtain ⟨cs, h3, h4⟩ := step_follows h1
    obtain ⟨l, h5, h6, h7⟩ := ih t s' h2
    refine ⟨cs :: l, ?_, by simp [h6], follows_joined h4 h7⟩
    simp only [Session.queue, R_bind_eq_ok]
    exact ⟨cs, h3, t, h1, l, h5, rfl⟩

end Klavier
