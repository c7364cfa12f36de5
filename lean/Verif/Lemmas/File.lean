import Verif.Lemmas.Bincode
import Verif.Lemmas.Edit
import Verif.Lemmas.Tuple

set_option autoImplicit false
namespace Klavier
open Spec

/-- The data of a project fit their types. -/
structure Held (p : Project) : Prop where
  rhythm : SafeRhythm p.rhythm
  key : SafeKey p.key
  grid : p.grid.value ≤ 4294967295
  notes : ∀ q ∈ p.notes, SafeNote q.2
  bars : ∀ q ∈ p.bars, SafeBar q.2
  tempos : ∀ q ∈ p.tempos, SafeTempo q.2
  dumpers : ∀ q ∈ p.dumpers, SafeCtrl q.2
  softs : ∀ q ∈ p.softs, SafeCtrl q.2

theorem held_of_savable {p : Project} (h : SavableDocument p.toExported) : Held p where
  rhythm := h.rhythm
  key := h.key
  grid := h.grid
  notes q hq := h.models.notes _ (List.mem_map.2 ⟨q, hq, rfl⟩)
  bars q hq := h.models.bars _ (List.mem_map.2 ⟨q, hq, rfl⟩)
  tempos q hq := h.models.tempos _ (List.mem_map.2 ⟨q, hq, rfl⟩)
  dumpers q hq := h.models.dumpers _ (List.mem_map.2 ⟨q, hq, rfl⟩)
  softs q hq := h.models.softs _ (List.mem_map.2 ⟨q, hq, rfl⟩)

/-! ## A store keyed by 32 bit ticks is not too long -/

theorem sorted_length {V : Type} : ∀ (s : Store V) (lo : Nat), SortedStore s → (∀ q ∈ s, lo ≤ q.1 ∧ q.1 ≤ U32_MAX) →
    s.length + lo ≤ U32_MAX + 1 ∨ s = [] := by
  intro s
  induction s with
  | nil => intro lo _ _; right; rfl
  | cons q s ih =>
    intro lo hs hq
    left
    have h1 := hq q List.mem_cons_self
    have hs' := List.pairwise_cons.1 hs
    rcases ih (q.1 + 1) hs'.2 (fun r hr => ⟨hs'.1 r hr, (hq r (List.mem_cons_of_mem _ hr)).2⟩) with h | h
    · rw [List.length_cons]; omega
    · rw [h, List.length_singleton]; omega

theorem keyed_length {V : Type} {tick : V → Nat} {s : Store V} (hs : SortedStore s) (hk : Keyed tick s) :
    s.length < 2 ^ 64 := by
  rcases sorted_length s 0 hs (fun q hq => ⟨Nat.zero_le _, (hk q hq).2⟩) with h | h
  · have : U32_MAX + 1 < 2 ^ 64 := by decide
    omega
  · rw [h]; simp

theorem savable_of_held {p : Project} (w : WF p) (h : Held p) (hn : p.notes.length < 2 ^ 64) :
    SavableDocument p.toExported where
  rhythm := h.rhythm
  key := h.key
  grid := h.grid
  models := by
    refine ⟨⟨?_, ?_, ?_, ?_, ?_⟩, ?_, ?_, ?_, ?_, ?_⟩
    · intro x hx; obtain ⟨q, hq, rfl⟩ := List.mem_map.1 hx; exact h.notes q hq
    · intro x hx; obtain ⟨q, hq, rfl⟩ := List.mem_map.1 hx; exact h.bars q hq
    · intro x hx; obtain ⟨q, hq, rfl⟩ := List.mem_map.1 hx; exact h.tempos q hq
    · intro x hx; obtain ⟨q, hq, rfl⟩ := List.mem_map.1 hx; exact h.dumpers q hq
    · intro x hx; obtain ⟨q, hq, rfl⟩ := List.mem_map.1 hx; exact h.softs q hq
    · exact Nat.lt_of_le_of_lt (Nat.le_of_eq (List.length_map ..)) hn
    · exact Nat.lt_of_le_of_lt (Nat.le_of_eq (List.length_map ..)) (keyed_length w.bars w.barsKeyed)
    · exact Nat.lt_of_le_of_lt (Nat.le_of_eq (List.length_map ..)) (keyed_length w.tempos w.temposKeyed)
    · exact Nat.lt_of_le_of_lt (Nat.le_of_eq (List.length_map ..)) (keyed_length w.dumpers w.dumpersKeyed)
    · exact Nat.lt_of_le_of_lt (Nat.le_of_eq (List.length_map ..)) (keyed_length w.softs w.softsKeyed)

/-! ## Swapping selections -/

theorem addItems_all {V : Type} {P : V → Prop} (tick : V → Nat) {s : Store V} {l : List V} (hs : ∀ q ∈ s, P q.2)
    (hl : ∀ v ∈ l, P v) : ∀ q ∈ Project.addItems tick s l, P q.2 := by
  induction l generalizing s with
  | nil => exact hs
  | cons v l ih =>
    refine ih (s := s.add (tick v) v) ?_ (fun w hw => hl w (List.mem_cons_of_mem _ hw))
    intro q hq
    rcases Store.mem_add hq with h | h
    · rw [h]; exact hl v List.mem_cons_self
    · exact hs q h

theorem swap_held {p : Project} (h : Held p) (f : Models) {A : Models} (hA : SafeModels A) : Held (p.swap f A) where
  rhythm := h.rhythm
  key := h.key
  grid := h.grid
  notes q hq := by
    have := (Project.addNotes_perm _ _).mem_iff.1 hq
    rcases List.mem_append.1 this with hq | hq
    · obtain ⟨n, hn, rfl⟩ := List.mem_map.1 hq
      exact hA.notes n hn
    · exact h.notes q ((Project.removeNotes_sublist _ _).mem hq)
  bars := addItems_all _ (fun q hq => h.bars q ((Project.removeItems_sublist _ _ _).mem hq)) hA.bars
  tempos := addItems_all _ (fun q hq => h.tempos q ((Project.removeItems_sublist _ _ _).mem hq)) hA.tempos
  dumpers := addItems_all _ (fun q hq => h.dumpers q ((Project.removeItems_sublist _ _ _).mem hq)) hA.dumpers
  softs := addItems_all _ (fun q hq => h.softs q ((Project.removeItems_sublist _ _ _).mem hq)) hA.softs

theorem redo_held {p : Project} (h : Held p) {c : ProjectCmd} (hc : SavableCmd c) : Held (c.redo p) := by
  cases c with
  | setRhythm o n => exact { h with rhythm := hc.2 }
  | setKey o n => exact { h with key := hc.2 }
  | setGrid o n => exact { h with grid := hc.2 }
  | modelChanged a r md => exact swap_held h r hc.1.toSafeModels

theorem undo_held {p : Project} (h : Held p) {c : ProjectCmd} (hc : SavableCmd c) : Held (c.undo p) := by
  cases c with
  | setRhythm o n => exact { h with rhythm := hc.1 }
  | setKey o n => exact { h with key := hc.1 }
  | setGrid o n => exact { h with grid := hc.1 }
  | modelChanged a r md => exact swap_held h a hc.2.toSafeModels

theorem bulkAdd_all {V : Type} {P : V → Prop} (tick : V → Nat) : ∀ (l : List V) {s : Store V}, (∀ q ∈ s, P q.2) →
    (∀ v ∈ l, P v) → (∀ q ∈ (s.bulkAdd (l.map (fun v => (tick v, v)))).2, P q.2) ∧
      (s.bulkAdd (l.map (fun v => (tick v, v)))).2.length ≤ l.length := by
  intro l
  induction l with
  | nil => intro s _ _; exact ⟨by simp [Store.bulkAdd], by simp [Store.bulkAdd]⟩
  | cons v l ih =>
    intro s hs hl
    have hadd : ∀ q ∈ s.add (tick v) v, P q.2 := by
      intro q hq
      rcases Store.mem_add hq with h | h
      · rw [h]; exact hl v List.mem_cons_self
      · exact hs q h
    obtain ⟨h1, h2⟩ := ih hadd (fun w hw => hl w (List.mem_cons_of_mem _ hw))
    simp only [List.map_cons, Store.bulkAdd]
    cases hg : s.get? (tick v) with
    | none => exact ⟨h1, by rw [List.length_cons]; simp only; omega⟩
    | some w =>
      refine ⟨?_, by simp only [List.length_cons]; omega⟩
      intro q hq
      rcases List.mem_cons.1 hq with rfl | hq
      · exact hs _ (Store.mem_of_get? hg)
      · exact h1 q hq

theorem oOf_all {V : Type} {P : V → Prop} (tick : V → Nat) {s : Store V} (f : List V) {A : List V}
    (hs : ∀ q ∈ s, P q.2) (hA : ∀ v ∈ A, P v) :
    (∀ v ∈ Project.oOf tick s f A, P v) ∧ (Project.oOf tick s f A).length ≤ A.length := by
  obtain ⟨h1, h2⟩ := bulkAdd_all (P := P) tick A (s := Project.removeItems tick s f)
    (fun q hq => hs q ((Project.removeItems_sublist _ _ _).mem hq)) hA
  unfold Project.oOf
  refine ⟨?_, by rw [List.length_map]; exact h2⟩
  intro v hv
  obtain ⟨q, hq, rfl⟩ := List.mem_map.1 hv
  exact h1 q hq

theorem recorded_savable {p : Project} (h : Held p) {f A : Models} (hf : SafeModels f) (hA : SafeModels A)
    (nf : Few (2 ^ 62) f) (nA : Few (2 ^ 62) A) : SavableModels (Project.recorded p f A) := by
  have hb := oOf_all (P := SafeBar) Bar.startTick f.bars h.bars hA.bars
  have ht := oOf_all (P := SafeTempo) Tempo.startTick f.tempos h.tempos hA.tempos
  have hd := oOf_all (P := SafeCtrl) CtrlChg.startTick f.dumpers h.dumpers hA.dumpers
  have hs := oOf_all (P := SafeCtrl) CtrlChg.startTick f.softs h.softs hA.softs
  have n1 := nf.notes
  have n2 := nf.bars
  have n3 := nf.tempos
  have n4 := nf.dumpers
  have n5 := nf.softs
  have m2 := nA.bars
  have m3 := nA.tempos
  have m4 := nA.dumpers
  have m5 := nA.softs
  refine ⟨⟨hf.notes, ?_, ?_, ?_, ?_⟩, ?_, ?_, ?_, ?_, ?_⟩
  · intro v hv
    rcases List.mem_append.1 hv with hv | hv
    · exact hf.bars v hv
    · exact hb.1 v hv
  · intro v hv
    rcases List.mem_append.1 hv with hv | hv
    · exact hf.tempos v hv
    · exact ht.1 v hv
  · intro v hv
    rcases List.mem_append.1 hv with hv | hv
    · exact hf.dumpers v hv
    · exact hd.1 v hv
  · intro v hv
    rcases List.mem_append.1 hv with hv | hv
    · exact hf.softs v hv
    · exact hs.1 v hv
  all_goals simp only [Project.recorded, List.length_append]
  · omega
  · have := hb.2; omega
  · have := ht.2; omega
  · have := hd.2; omega
  · have := hs.2; omega

/-! ## Completed bars -/

theorem newBars_plain {len E : Nat} : ∀ (d L : Nat) {bs : List Bar}, E - L = d → Project.newBars len E L = .ok bs →
    (∀ b ∈ bs, b = { startTick := b.startTick }) ∧ (bs = [] ∨ bs.length + L ≤ U32_MAX) := by
  intro d
  induction d using Nat.strongRecOn with
  | _ d ih =>
    intro L bs hd hb
    rw [Project.newBars] at hb
    split at hb
    · next h =>
      split at hb
      · cases hb
      · split at hb
        · next hl hf =>
          rw [R_bind_eq_ok] at hb
          obtain ⟨rest, h1, h2⟩ := hb
          cases h2
          obtain ⟨h3, h4⟩ := ih (E - (L + len)) (by omega) (L + len) rfl h1
          refine ⟨?_, .inr ?_⟩
          · intro b hb
            rcases List.mem_cons.1 hb with rfl | hb
            · rfl
            · exact h3 b hb
          · rcases h4 with rfl | h4
            · rw [List.length_singleton]; omega
            · rw [List.length_cons]; omega
        · cases hb
    · cases hb
      exact ⟨by simp, .inl rfl⟩

theorem replenish_plain {p p' : Project} {bs : List Bar} (h : WF p) (hr : p.replenishBars = .ok (p', bs)) :
    (∀ b ∈ bs, SafeBar b ∧ b = { startTick := b.startTick }) ∧ bs.length ≤ U32_MAX := by
  have hm := (replenish_shape h hr).2
  rw [replenish_unfold h] at hr
  rw [R_bind_eq_ok] at hr
  obtain ⟨o, -, hr⟩ := hr
  dsimp only at hr
  split at hr
  · cases hr
    exact ⟨by simp, by simp⟩
  · rw [R_bind_eq_ok] at hr
    obtain ⟨r, -, hr⟩ := hr
    rw [R_bind_eq_ok] at hr
    obtain ⟨bs', h1, hr⟩ := hr
    cases hr
    obtain ⟨h3, h4⟩ := newBars_plain _ _ rfl h1
    refine ⟨?_, ?_⟩
    · intro b hb
      refine ⟨⟨(hm b hb).2, ?_, ?_⟩, h3 b hb⟩
      · intro r hr; rw [h3 b hb] at hr; cases hr
      · intro r hr; rw [h3 b hb] at hr; cases hr
    · rcases h4 with rfl | h4
      · simp
      · omega

/-! ## Tuplets -/

theorem Tuple.place_safe {s t u d : Nat} (hd : 2 ≤ d ∧ d ≤ 255) : ∀ (ns : List Note) (w : Nat) {out : List Note},
    (∀ n ∈ ns, SafeNote n) → Tuple.place s t u d ns w = .ok out → (∀ n ∈ out, SafeNote n) ∧ out.length = ns.length := by
  intro ns
  induction ns with
  | nil =>
    intro w out _ h
    cases h
    exact ⟨by simp, rfl⟩
  | cons n ns ih =>
    intro w out hn h
    simp only [Tuple.place, R_bind_eq_ok] at h
    obtain ⟨x, -, h⟩ := h
    split at h
    · cases h
    · simp only [R_bind_eq_ok] at h
      obtain ⟨tick, h1, y, -, z, -, rest, h2, h3⟩ := h
      cases h3
      obtain ⟨h4, h5⟩ := ih _ (fun m hm => hn m (List.mem_cons_of_mem _ hm)) h2
      refine ⟨?_, by rw [List.length_cons, List.length_cons, h5]⟩
      intro m hm
      rcases List.mem_cons.1 hm with rfl | hm
      · have hs := hn n List.mem_cons_self
        have ht : tick ≤ 4294967295 := by
          unfold addU32 at h1
          split at h1
          · next hle => cases h1; exact hle
          · cases h1
        exact ⟨ht, hs.pitch, hd, hs.dots, hs.velocity, hs.start, hs.length, hs.loudness, hs.channel⟩
      · exact h4 m hm

theorem Tuple.group_length : ∀ (ns : List Note) (cur : Option Tuple.Elem) {es : List Tuple.Elem},
    Tuple.group ns cur = .ok es →
    (es.flatMap (·.notes)).Perm (ns ++ (cur.map (·.notes)).getD []) := by
  intro ns
  induction ns with
  | nil =>
    intro cur es h
    cases cur <;> cases h <;> simp
  | cons n ns ih =>
    intro cur es h
    simp only [Tuple.group, R_bind_eq_ok] at h
    obtain ⟨_, -, ⟨done, cur'⟩, h1, rest, h2, h3⟩ := h
    cases h3
    have h4 := ih _ h2
    cases cur with
    | none =>
      cases h1
      simp only [Option.map_some, Option.getD_some, Option.map_none, Option.getD_none, List.append_nil] at h4 ⊢
      exact h4.trans (List.perm_append_comm.trans (by simp))
    | some e =>
      simp only [Tuple.add] at h1
      split at h1
      · cases h1
        simp only [Option.map_some, Option.getD_some, List.flatMap_cons] at h4 ⊢
        refine (List.Perm.append_left _ h4).trans ?_
        refine List.perm_append_comm.trans ?_
        refine List.Perm.append_right _ (List.perm_append_comm.trans (by simp))
      · rw [R_bind_eq_ok] at h1
        obtain ⟨m, -, h1⟩ := h1
        cases h1
        simp only [Option.map_some, Option.getD_some] at h4 ⊢
        refine h4.trans ?_
        rw [← List.append_assoc]
        exact List.perm_append_comm.trans (by simp)

theorem Tuple.tuplize_safe {ns out : List Note} (hn : ∀ n ∈ ns, SafeNote n) (h : Tuple.tuplize ns = .ok out) :
    (∀ n ∈ out, SafeNote n) ∧ out.length ≤ ns.length := by
  have hp := Tuple.sort_perm ns
  simp only [Tuple.tuplize] at h
  split at h
  · cases h
    exact ⟨by simp, by simp⟩
  · next first more h0 =>
    rw [h0] at hp
    simp only [R_bind_eq_ok] at h
    obtain ⟨es, hes, mu, -, h⟩ := h
    cases mu with
    | none => cases h; exact ⟨by simp, by simp⟩
    | some mu =>
      simp only [R_bind_eq_ok] at h
      obtain ⟨⟨tt, tu⟩, -, h⟩ := h
      split at h
      · cases h
      · split at h
        · cases h
          exact ⟨hn, Nat.le_refl _⟩
        · simp only [R_bind_eq_ok] at h
          obtain ⟨t2, -, d, h2, h⟩ := h
          have hd : 2 ≤ d ∧ d ≤ 255 := by
            unfold unwrapO at h2
            split at h2
            · next a ha =>
              cases h2
              unfold Denominator.fromValue at ha
              split at ha
              · cases ha
              · cases ha
                have : asU8 (tu / mu : Nat) < 256 := by unfold asU8; omega
                simp only at *
                omega
            · cases h2
          have hperm := (Tuple.group_length _ _ hes).trans (by simpa using hp)
          obtain ⟨h3, h4⟩ := Tuple.place_safe hd _ _ (fun n hm => hn n (hperm.mem_iff.1 hm)) h
          exact ⟨h3, by rw [h4]; exact Nat.le_of_eq hperm.length_eq⟩

/-- The notes a recorded command adds. -/
theorem Project.exec_notes {p p' : Project} {e : Edit} {a r : Models} {md : Metadata}
    (h : p.exec e = .ok (some (p', .modelChanged a r md))) :
    a.notes = (introduced e).notes ∨ ∃ ns, e = .tuplize ns ∧ Tuple.tuplize ns = .ok a.notes := by
  cases e with
  | setRhythm r => simp [exec, viaCmd] at h
  | setKey r => simp [exec, viaCmd] at h
  | setGrid r => simp [exec, viaCmd] at h
  | addNote n sel =>
    simp only [exec, addNote, R_bind_eq_ok] at h
    obtain ⟨⟨q, d⟩, ⟨⟨q2, bs⟩, h1, h2⟩, h3⟩ := h
    cases h2; cases h3
    exact .inl rfl
  | addBar b sel =>
    simp only [exec, addBar, Except.ok.injEq, Option.some.injEq, Prod.mk.injEq, ProjectCmd.modelChanged.injEq] at h
    left; rw [← h.2.1]; rfl
  | addTempo n sel =>
    simp only [exec, addTempo, R_bind_eq_ok] at h
    obtain ⟨⟨q, d⟩, ⟨⟨q2, bs⟩, h1, h2⟩, h3⟩ := h
    cases h2; cases h3
    exact .inl rfl
  | addDumper n sel =>
    simp only [exec, addDumper, R_bind_eq_ok] at h
    obtain ⟨⟨q, d⟩, ⟨⟨q2, bs⟩, h1, h2⟩, h3⟩ := h
    cases h2; cases h3
    exact .inl rfl
  | addSoft n sel =>
    simp only [exec, addSoft, R_bind_eq_ok] at h
    obtain ⟨⟨q, d⟩, ⟨⟨q2, bs⟩, h1, h2⟩, h3⟩ := h
    cases h2; cases h3
    exact .inl rfl
  | tuplize ns =>
    simp only [exec, tuplize] at h
    split at h
    · simp only [R_bind_eq_ok] at h
      obtain ⟨t, h1, ⟨q2, bs⟩, h2, h3⟩ := h
      cases h3
      exact .inr ⟨ns, rfl, h1⟩
    · cases h
  | bulkRemove m md =>
    simp only [exec, viaCmd, Except.ok.injEq, Option.some.injEq, Prod.mk.injEq, ProjectCmd.modelChanged.injEq] at h
    left; rw [← h.2.1]; rfl
  | bulkAdd m md =>
    simp only [exec, bulkAdd, R_bind_eq_ok] at h
    obtain ⟨⟨q, d⟩, ⟨⟨q2, bs⟩, h1, h2⟩, h3⟩ := h
    cases h2; cases h3
    exact .inl rfl
  | change c md =>
    simp only [exec, change, R_bind_eq_ok] at h
    obtain ⟨⟨q, d⟩, ⟨⟨q2, bs⟩, h1, h2⟩, h3⟩ := h
    cases h2; cases h3
    exact .inl rfl

theorem present_safe {p : Project} (h : Held p) {m : Models} (hp : Present p m) : SafeModels m where
  notes n hn := by
    have h1 := hp.notes n
    have h2 := List.count_pos_iff.2 hn
    have h3 : n ∈ p.notes.map (·.2) := List.count_pos_iff.1 (by omega)
    obtain ⟨q, hq, rfl⟩ := List.mem_map.1 h3
    exact h.notes q hq
  bars b hb := h.bars _ (hp.bars b hb)
  tempos b hb := h.tempos _ (hp.tempos b hb)
  dumpers b hb := h.dumpers _ (hp.dumpers b hb)
  softs b hb := h.softs _ (hp.softs b hb)

/-- A savable legal edit of a project whose data fit their types records a
savable command. -/
theorem exec_savable {p p' : Project} {e : Edit} {c : ProjectCmd} (w : WF p) (h : Held p) (ht : EditTicks32 e)
    (hl : Legal p e) (hs : SavableEdit e) (hx : p.exec e = .ok (some (p', c))) : SavableCmd c := by
  cases Project.exec_shape hx with
  | rhythm r h1 h2 h3 =>
    subst h2
    cases e <;> simp only [AddsContent, reduceCtorEq] at h3 <;>
      simp [Project.exec, Project.viaCmd, Project.addBar] at hx
    exact ⟨h.rhythm, by rw [← hx.2]; exact hs⟩
  | key r h1 h2 h3 =>
    subst h2
    cases e <;> simp only [AddsContent, reduceCtorEq] at h3 <;>
      simp [Project.exec, Project.viaCmd, Project.addBar] at hx
    exact ⟨h.key, by rw [← hx.2]; exact hs⟩
  | grid r h1 h2 h3 =>
    subst h2
    cases e <;> simp only [AddsContent, reduceCtorEq] at h3 <;>
      simp [Project.exec, Project.viaCmd, Project.addBar] at hx
    exact ⟨h.grid, by rw [← hx.2]; exact hs⟩
  | items f A bs hb hc eb et ed es hlg hf =>
    subst hc
    have hsi : SafeModels (introduced e) ∧ Few (2 ^ 62) (introduced e) ∧ Few (2 ^ 62) (withdrawn e) := by
      cases e <;> first | exact hs | simp [Project.exec, Project.viaCmd] at hx
    obtain ⟨si, fi, fw⟩ := hsi
    rw [← hf] at fw
    have sf := present_safe h (hlg hl).1
    have hnotes : (∀ n ∈ A.notes, SafeNote n) ∧ A.notes.length ≤ 2 ^ 62 := by
      rcases Project.exec_notes hx with h1 | ⟨ns, h1, h2⟩
      · simp only at h1
        rw [h1]; exact ⟨si.notes, fi.notes⟩
      · subst h1
        have hfn : f.notes = ns := by rw [hf]; rfl
        have := Tuple.tuplize_safe (fun n hn => sf.notes n (by rw [hfn]; exact hn)) h2
        have hle := fw.notes
        rw [hfn] at hle
        exact ⟨this.1, Nat.le_trans this.2 hle⟩
    have hA : SafeModels A := ⟨hnotes.1, by rw [eb]; exact si.bars, by rw [et]; exact si.tempos,
      by rw [ed]; exact si.dumpers, by rw [es]; exact si.softs⟩
    have nA : Few (2 ^ 62) A := ⟨hnotes.2, by rw [eb]; exact fi.bars, by rw [et]; exact fi.tempos,
      by rw [ed]; exact fi.dumpers, by rw [es]; exact fi.softs⟩
    have hbs : (∀ b ∈ bs, SafeBar b) ∧ bs.length ≤ U32_MAX := by
      rcases hb with ⟨-, h1, -⟩ | ⟨-, h1⟩
      · rw [h1]; exact ⟨by simp, by simp⟩
      · have := replenish_plain (Project.swap_wf w f A (Project.ticks32_of_introduced ht.introduced eb et ed es)) h1
        exact ⟨fun b hb => (this.1 b hb).1, this.2⟩
    refine ⟨⟨⟨hA.notes, ?_, hA.tempos, hA.dumpers, hA.softs⟩, ?_, ?_, ?_, ?_, ?_⟩,
      recorded_savable h sf hA fw nA⟩
    · intro b hb
      rcases List.mem_append.1 hb with hb | hb
      · exact hA.bars b hb
      · exact hbs.1 b hb
    · have := nA.notes; simp only; omega
    · simp only [List.length_append]
      have := nA.bars
      have h2 := hbs.2
      have : U32_MAX = 4294967295 := rfl
      omega
    · have := nA.tempos; simp only; omega
    · have := nA.dumpers; simp only; omega
    · have := nA.softs; simp only; omega

/-! ## What is overwritten -/

theorem bulkAdd_mem {V : Type} (tick : V → Nat) : ∀ (l : List V) (s : Store V), (l.map tick).Nodup → ∀ (k : Nat) (w : V),
    (k, w) ∈ (s.bulkAdd (l.map (fun v => (tick v, v)))).2 ↔ s.get? k = some w ∧ ∃ v ∈ l, tick v = k := by
  intro l
  induction l with
  | nil => intro s _ k w; simp [Store.bulkAdd]
  | cons v l ih =>
    intro s hd k w
    rw [List.map_cons, List.nodup_cons] at hd
    have hrest := ih (s.add (tick v) v) hd.2 k w
    rw [Store.get?_add] at hrest
    have hne : (∃ u ∈ l, tick u = k) → tick v ≠ k := by
      rintro ⟨u, hu, rfl⟩ h
      exact hd.1 (by rw [h]; exact List.mem_map.2 ⟨u, hu, rfl⟩)
    have hcons : (∃ u ∈ v :: l, tick u = k) ↔ tick v = k ∨ ∃ u ∈ l, tick u = k := by simp
    simp only [List.map_cons, Store.bulkAdd, hcons]
    by_cases hk : tick v = k
    · have hno : ¬ ∃ u ∈ l, tick u = k := fun h => hne h hk
      have hnot : (k, w) ∉ ((s.add (tick v) v).bulkAdd (l.map (fun v => (tick v, v)))).2 := by
        rw [hrest]; exact fun h => hno h.2
      rw [hk]
      rw [hk] at hnot
      cases hg : s.get? k with
      | none => simp only [reduceCtorEq, false_and, iff_false]; exact hnot
      | some x =>
        simp only [List.mem_cons, Prod.mk.injEq, true_and, Option.some.injEq, true_or, and_true]
        constructor
        · rintro (h | h)
          · exact h.symm
          · exact absurd h hnot
        · intro h; exact .inl h.symm
    · rw [if_neg hk] at hrest
      have : (k, w) ≠ (tick v, (s.get? (tick v)).getD w) := fun h => hk (congrArg Prod.fst h).symm
      cases hg : s.get? (tick v) with
      | none => simp only [hk, false_or]; exact hrest
      | some x =>
        simp only [List.mem_cons, Prod.mk.injEq, hk, false_or]
        rw [hrest]
        constructor
        · rintro (h | h)
          · exact absurd h.1.symm hk
          · exact h
        · exact .inr

theorem oOf_mem {V : Type} (tick : V → Nat) {s : Store V} (hs : SortedStore s) (hk : Keyed tick s) (f : List V)
    {A : List V} (hA : (A.map tick).Nodup) (v : V) :
    v ∈ Project.oOf tick s f A ↔
      (tick v, v) ∈ s ∧ (∃ w ∈ A, tick w = tick v) ∧ ∀ u ∈ f, tick u ≠ tick v := by
  have key : ∀ k, (k, v) ∈ ((Project.removeItems tick s f).bulkAdd (A.map (fun v => (tick v, v)))).2 ↔
      (k, v) ∈ s ∧ (∃ w ∈ A, tick w = k) ∧ ∀ u ∈ f, tick u ≠ k := by
    intro k
    rw [bulkAdd_mem tick A _ hA, Project.get?_removeItems tick hs]
    have hn := Project.lastWith_none (tick := tick) (l := f) (k := k)
    cases hl : Project.lastWith tick f k with
    | none =>
      rw [if_neg (by simp), Store.get?_some_iff hs]
      have := hn.1 hl
      constructor
      · rintro ⟨h1, h2⟩; exact ⟨h1, h2, this⟩
      · rintro ⟨h1, h2, -⟩; exact ⟨h1, h2⟩
    | some w =>
      rw [if_pos (by simp)]
      simp only [reduceCtorEq, false_and, false_iff]
      rintro ⟨-, -, h⟩
      rw [hn.2 h] at hl
      cases hl
  unfold Project.oOf
  rw [List.mem_map]
  constructor
  · rintro ⟨⟨k, w⟩, h1, h2⟩
    dsimp only at h2
    subst h2
    have h3 := (key k).1 h1
    have := (hk _ h3.1).1
    dsimp only at this
    rw [this] at h3
    exact h3
  · intro h
    exact ⟨_, (key _).2 h, rfl⟩

end Klavier
