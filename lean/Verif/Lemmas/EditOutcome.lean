import Verif.Lemmas.File

set_option autoImplicit false
namespace Klavier
open Spec
namespace Project

theorem mem_swap {V : Type} (tick : V → Nat) {s : Store V} (hs : SortedStore s) (f A : List V) :
    ItemsAfter tick f A s (addItems tick (removeItems tick s f) A) := by
  intro k v
  have h1 := sorted_removeItems tick hs f
  rw [← Store.get?_some_iff (sorted_addItems tick h1 A), get?_addItems, get?_removeItems tick hs,
    ← lastWith_iff, ← lastWith_none, ← lastWith_none, ← Store.get?_some_iff hs]
  cases lastWith tick A k <;> cases lastWith tick f k <;> simp

theorem swap_edited {p : Project} (h : WF p) (e : Edit) (N : List Note) (ht : EditTicks32 e) :
    Edited p e N (p.swap (withdrawn e) { introduced e with notes := N }) where
  wf := swap_wf h _ _ ⟨ht.introduced.bars, ht.introduced.tempos, ht.introduced.dumpers, ht.introduced.softs⟩
  rhythm := rfl
  key := rfl
  grid := rfl
  notes := by
    intro n
    have hk : Keyed Note.startTick (addNotes (removeNotes p.notes (withdrawn e).notes) N) :=
      (notes_swap_wf h.notes h.notesKeyed _ _).2
    have e1 := count_kv (p := { p with notes := addNotes (removeNotes p.notes (withdrawn e).notes) N }) hk n
    change (List.map (·.2) (addNotes (removeNotes p.notes (withdrawn e).notes) N)).count n = _
    rw [← e1, count_addNotes, count_removeNotes, count_kv h.notesKeyed, count_kv_list, count_kv_list]
    omega
  bars := mem_swap _ h.bars _ _
  tempos := mem_swap _ h.tempos _ _
  dumpers := mem_swap _ h.dumpers _ _
  softs := mem_swap _ h.softs _ _

/-- What an edit of items does, in terms of the two steps. -/
theorem exec_eq (p : Project) (e : Edit) (N : List Note) (hN : NewNotes N e) (hs : Setting e = false) :
    (AddsContent e = false → ∃ c, p.exec e = .ok (some (p.swap (withdrawn e) { introduced e with notes := N }, c))) ∧
    (AddsContent e = true → ∃ c : List Bar → ProjectCmd, p.exec e =
      (p.swap (withdrawn e) { introduced e with notes := N }).replenishBars >>= fun x => .ok (some (x.1, c x.2))) := by
  cases e with
  | setRhythm r => simp [Setting] at hs
  | setKey r => simp [Setting] at hs
  | setGrid r => simp [Setting] at hs
  | addBar b sel => cases hN; exact ⟨fun _ => ⟨_, rfl⟩, by simp [AddsContent]⟩
  | bulkRemove m md => cases hN; exact ⟨fun _ => ⟨_, rfl⟩, by simp [AddsContent]⟩
  | addNote n sel =>
    cases hN
    refine ⟨by simp [AddsContent], fun _ => ⟨fun bs => .modelChanged { notes := [n], bars := bs } {} (.selecting sel), ?_⟩⟩
    simp only [exec, addNote, bind_assoc]
    rfl
  | addTempo n sel =>
    cases hN
    refine ⟨by simp [AddsContent], fun _ => ⟨fun bs => .modelChanged { tempos := [n], bars := bs }
      { tempos := (p.tempos.get? n.startTick).toList } (.selecting sel), ?_⟩⟩
    simp only [exec, addTempo, bind_assoc]
    rfl
  | addDumper n sel =>
    cases hN
    refine ⟨by simp [AddsContent], fun _ => ⟨fun bs => .modelChanged { dumpers := [n], bars := bs }
      { dumpers := (p.dumpers.get? n.startTick).toList } (.selecting sel), ?_⟩⟩
    simp only [exec, addDumper, bind_assoc]
    rfl
  | addSoft n sel =>
    cases hN
    refine ⟨by simp [AddsContent], fun _ => ⟨fun bs => .modelChanged { softs := [n], bars := bs }
      { softs := (p.softs.get? n.startTick).toList } (.selecting sel), ?_⟩⟩
    simp only [exec, addSoft, bind_assoc]
    rfl
  | tuplize ns =>
    obtain ⟨h1, h2⟩ := hN
    refine ⟨by simp [AddsContent], fun _ => ⟨fun bs => .modelChanged { notes := N, bars := bs } { notes := ns }
      (Metadata.withNeedSelect {} true), ?_⟩⟩
    simp only [exec, tuplize, if_pos h1, h2, R_bind_ok, bulkAdd_notes, bulkRemove_notes]
    rfl
  | bulkAdd m md =>
    cases hN
    refine ⟨by simp [AddsContent], fun _ => ?_⟩
    simp only [exec, bulkAdd, bind_assoc, bulkAdd_notes, bulkAdd_fst]
    exact ⟨fun bs => .modelChanged { m with bars := m.bars ++ bs }
      { bars := (p.bars.bulkAdd (m.bars.map (fun b => (b.startTick, b)))).2.map (·.2),
        tempos := (p.tempos.bulkAdd (m.tempos.map (fun b => (b.startTick, b)))).2.map (·.2),
        dumpers := (p.dumpers.bulkAdd (m.dumpers.map (fun b => (b.startTick, b)))).2.map (·.2),
        softs := (p.softs.bulkAdd (m.softs.map (fun b => (b.startTick, b)))).2.map (·.2) } md, rfl⟩
  | change m md =>
    cases hN
    refine ⟨by simp [AddsContent], fun _ => ?_⟩
    simp only [exec, change, bind_assoc]
    refine ⟨fun bs => .modelChanged
      { notes := m.notes.map (·.2), bars := m.bars.map (·.2) ++ bs, tempos := m.tempos.map (·.2),
        dumpers := m.dumpers.map (·.2), softs := m.softs.map (·.2) }
      { notes := m.notes.map (·.1),
        bars := m.bars.map (·.1) ++ (p.bars.change (m.bars.map (fun (f, t) => (f.startTick, (t.startTick, t))))).2.map (·.2),
        tempos := m.tempos.map (·.1) ++ (p.tempos.change (m.tempos.map (fun (f, t) => (f.startTick, (t.startTick, t))))).2.map (·.2),
        dumpers := m.dumpers.map (·.1) ++ (p.dumpers.change (m.dumpers.map (fun (f, t) => (f.startTick, (t.startTick, t))))).2.map (·.2),
        softs := m.softs.map (·.1) ++ (p.softs.change (m.softs.map (fun (f, t) => (f.startTick, (t.startTick, t))))).2.map (·.2) } md, ?_⟩
    congr 1
    simp only [change_fst, Bag.change, List.map_map, swap, withdrawn, introduced, changedFrom, changedTo]
    congr 2
    rw [← bulkAdd_notes, ← bulkRemove_notes]
    simp only [List.map_map]
    rfl

end Project
end Klavier
