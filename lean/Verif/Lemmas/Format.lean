import Verif.Spec.Format
import Verif.Lemmas.Members
import Verif.Lemmas.Pasted
import Verif.Lemmas.Pitch

/-! # Reading a tree: what `de` accepts -/
set_option autoImplicit false
namespace Klavier
open Spec
namespace De

/-! ## Structs -/

/-- The members of a struct with their names -/
def view (names : List String) : Json → List (List Char × Json)
  | .obj ms => ms
  | .arr l => (names.map String.toList).zip l
  | _ => []

theorem lookup_zip {names : List String} {name : String} {v : Json} (hn : names.Nodup) {l : List Json} :
    ((names.map String.toList).zip l).lookup name.toList = some v ↔ ∃ i : Nat, names[i]? = some name ∧ l[i]? = some v := by
  induction names generalizing l with
  | nil => simp
  | cons n names ih =>
    match l with
    | [] => simp
    | x :: l =>
      rw [List.map_cons, List.zip_cons_cons, List.lookup_cons]
      by_cases e : name = n
      · subst e
        rw [show (name.toList == name.toList) = true by simp]
        constructor
        · intro h; cases h; exact ⟨0, rfl, rfl⟩
        · rintro ⟨i, h1, h2⟩
          match i with
          | 0 => exact h2
          | i + 1 => exact absurd (List.mem_of_getElem? (l := names) (i := i) h1) (List.nodup_cons.1 hn).1
      · rw [show (name.toList == n.toList) = false by simpa using fun h => e (toList_inj h)]
        rw [ih (List.nodup_cons.1 hn).2]
        constructor
        · rintro ⟨i, h1, h2⟩; exact ⟨i + 1, h1, h2⟩
        · rintro ⟨i, h1, h2⟩
          match i with
          | 0 => cases h1; exact absurd rfl e
          | i + 1 => exact ⟨i, h1, h2⟩

theorem lookup_count {ms : List (List Char × Json)} {k : List Char} {v : Json} (hc : (ms.map (·.1)).count k ≤ 1) :
    ms.lookup k = some v ↔ (k, v) ∈ ms := by
  constructor
  · exact lookup_mem
  · intro h
    induction ms with
    | nil => cases h
    | cons m ms ih =>
      obtain ⟨k', v'⟩ := m
      rw [List.lookup_cons]
      rw [List.map_cons, List.count_cons] at hc
      rcases List.mem_cons.1 h with e | hm
      · cases e; simp
      · by_cases e : k = k'
        · subst e
          have : 0 < (ms.map (·.1)).count k := List.count_pos_iff.2 (List.mem_map.2 ⟨_, hm, rfl⟩)
          simp at hc
          omega
        · rw [show (k == k') = false by simpa using e]
          exact ih (by omega) hm

theorem lookup_view {names : List String} {name : String} {j v : Json} (hn : names.Nodup) (hs : IsStruct names j)
    (hm : name ∈ names) : (view names j).lookup name.toList = some v ↔ HasMember names name j v := by
  cases hs with
  | obj hc =>
    rw [view, lookup_count (hc name hm)]
    exact ⟨.obj, fun h => by cases h; assumption⟩
  | arr hl =>
    rw [view, lookup_zip hn]
    exact ⟨fun ⟨i, h1, h2⟩ => .arr i h1 h2, fun h => by cases h; exact ⟨_, by assumption, by assumption⟩⟩

theorem hasMember_intact {names : List String} {name : String} {j v : Json} (hi : Intact j) (h : HasMember names name j v) :
    Intact v := by
  cases h with
  | obj h => cases hi with | obj hi => exact hi _ h
  | arr i h1 h2 => cases hi with | arr hi => exact hi _ (List.mem_of_getElem? h2)

theorem nodup_count (names : List String) (ks : List (List Char)) :
    (ks.filter (fun k => (names.map String.toList).contains k)).Nodup ↔ ∀ name ∈ names, ks.count name.toList ≤ 1 := by
  induction ks with
  | nil => simp
  | cons k ks ih =>
    rw [List.filter_cons]
    split
    · next hk =>
      rw [List.nodup_cons, ih]
      rw [List.contains_iff_mem, List.mem_map] at hk
      obtain ⟨n, hn, rfl⟩ := hk
      constructor
      · rintro ⟨h1, h2⟩ m hm
        rw [List.count_cons]
        split
        · next e =>
          have e : n.toList = m.toList := by simpa using e
          have : ks.count n.toList = 0 := by
            rw [List.count_eq_zero]
            intro hmem
            exact h1 (List.mem_filter.2 ⟨hmem, by simpa using ⟨n, hn, rfl⟩⟩)
          rw [← e]; omega
        · exact h2 m hm
      · intro h
        refine ⟨fun hmem => ?_, fun m hm => ?_⟩
        · have h1 := h n hn
          rw [List.count_cons_self] at h1
          have := List.count_pos_iff.2 (List.mem_filter.1 hmem).1
          omega
        · have h1 := h m hm
          rw [List.count_cons] at h1
          omega
    · next hk =>
      rw [ih]
      refine forall_congr' fun m => forall_congr' fun hm => ?_
      rw [List.count_cons, if_neg]
      · rfl
      · intro e
        have e : k = m.toList := by simpa using e
        exact hk (by rw [List.contains_iff_mem, List.mem_map]; exact ⟨m, hm, e.symm⟩)

theorem positional_ok {fs : List Field} {l : List Json} : positional fs l = .ok () ↔
    l.length = fs.length ∧ ∀ (i : Nat) f v, fs[i]? = some f → l[i]? = some v → f.2 v = .ok () := by
  induction fs generalizing l with
  | nil => cases l <;> simp [positional]
  | cons f fs ih =>
    cases l with
    | nil => simp [positional]
    | cons x l =>
      rw [positional]
      constructor
      · intro h
        cases e : f.2 x with
        | error e' => rw [e] at h; cases h
        | ok u =>
          rw [e, De_bind_ok] at h
          obtain ⟨h1, h2⟩ := ih.1 h
          refine ⟨by simp [h1], fun i g v hg hv => ?_⟩
          match i with
          | 0 => cases hg; cases hv; exact e
          | i + 1 => exact h2 i g v hg hv
      · rintro ⟨h1, h2⟩
        rw [h2 0 f x rfl rfl, De_bind_ok]
        exact ih.2 ⟨by simpa using h1, fun i g v hg hv => h2 (i + 1) g v hg hv⟩

/-- Every member there is passes its check. -/
def Checks (names : List String) (j : Json) (fs : List Field) : Prop :=
  ∀ f ∈ fs, ∀ name v, f.1 = String.toList name → HasMember names name j v → f.2 v = .ok ()

/-- No field is read from what can only be skipped. -/
def Refuses : List Field → Prop
  | [] => True
  | f :: fs => (∀ j, f.2 (.skip j) = .error .invalid) ∧ Refuses fs

theorem Refuses.mem : ∀ {fs : List Field} {f : Field} {j v : Json}, Refuses fs → f ∈ fs → f.2 v = .ok () → v ≠ .skip j
  | g :: fs, f, j, v, h, hf, hv => by
    rintro rfl
    rcases List.mem_cons.1 hf with rfl | hf
    · rw [h.1 j] at hv; cases hv
    · exact Refuses.mem h.2 hf hv rfl

theorem struct_bind {α : Type} {fs : List Field} {names : List String} {g : List (List Char × Json) → De α} {a : α} {j : Json}
    (hn : fs.map (·.1) = names.map String.toList) (hnd : names.Nodup) (hi : Intact j)
    (hr : Refuses fs := by repeat (first | exact True.intro | refine And.intro (fun _ => rfl) ?_)) :
    (struct fs j >>= g) = .ok a ↔ IsStruct names j ∧ Checks names j fs ∧ g (view names j) = .ok a := by
  have hfn : (fs.map (·.1)).Nodup := by
    rw [hn]
    exact List.Pairwise.map _ (fun _ _ h e => h (toList_inj e)) hnd
  have hl : fs.length = names.length := by simpa using congrArg List.length hn
  match j, hi with
  | .obj ms, hi =>
    have hm : members fs [] ms = .ok () ↔ IsStruct names (.obj ms) ∧ Checks names (.obj ms) fs := by
      rw [members_ok]
      have hk : (fun k => (names.map String.toList).contains k) = known fs := by unfold known; rw [hn]
      have hc := nodup_count names (ms.map (·.1))
      rw [hk] at hc
      constructor
      · rintro ⟨h1, -, h3⟩
        refine ⟨.obj (hc.1 h3), ?_⟩
        intro f hf name v e hv
        cases hv with
        | obj hv =>
          have := h1 _ hv
          unfold memberOk at this
          obtain ⟨p, q, rfl⟩ := List.append_of_mem hf
          have hff := find_field hfn
          rw [e] at hff
          simp only [hff] at this
          exact this.1
      · rintro ⟨h1, h2⟩
        cases h1 with
        | obj h1 =>
          refine ⟨?_, by simp, hc.2 h1⟩
          rintro ⟨k, v⟩ hm
          unfold memberOk
          split
          · cases hi with | obj hi => exact intact_broken (hi _ hm)
          · next f hf =>
            have hmem := List.mem_of_find?_eq_some hf
            have hfk := List.find?_some hf
            have hfk : f.1 = k := of_decide_eq_true hfk
            have : f.1 ∈ names.map String.toList := hn ▸ List.mem_map.2 ⟨f, hmem, rfl⟩
            obtain ⟨name, -, e⟩ := List.mem_map.1 this
            have hok := h2 f hmem name v e.symm (.obj (by rw [e, hfk]; exact hm))
            exact ⟨hok, fun j => hr.mem hmem hok⟩
    rw [struct, ← and_assoc, ← hm]
    cases e : members fs [] ms with
    | error e' => simp [De_bind_error]
    | ok u => simp [De_bind_ok, view]
  | .arr l, _ =>
    have hm : positional fs l = .ok () ↔ IsStruct names (.arr l) ∧ Checks names (.arr l) fs := by
      rw [positional_ok]
      constructor
      · rintro ⟨h1, h2⟩
        refine ⟨.arr (h1.trans hl), ?_⟩
        intro f hf name v e hv
        cases hv with
        | arr i hni hv =>
          have : (fs.map (·.1))[i]? = some name.toList := by rw [hn, List.getElem?_map, hni]; rfl
          rw [List.getElem?_map, Option.map_eq_some_iff] at this
          obtain ⟨g, hg, e'⟩ := this
          obtain ⟨p, q, rfl⟩ := List.append_of_mem hf
          have hff := find_field hfn
          obtain ⟨k, hk⟩ := List.getElem?_of_mem hf
          have : k = i := by
            have h1 : ((p ++ f :: q).map (·.1))[k]? = some f.1 := by rw [List.getElem?_map, hk]; rfl
            have h2 : ((p ++ f :: q).map (·.1))[i]? = some f.1 := by rw [List.getElem?_map, hg, e, ← e']; rfl
            exact (List.getElem?_inj (by
              rcases List.getElem?_eq_some_iff.1 h1 with ⟨hlt, -⟩; exact hlt) hfn).1 (h1.trans h2.symm)
          subst this
          exact h2 k f v hk hv
      · rintro ⟨h1, h2⟩
        cases h1 with
        | arr h1 =>
          refine ⟨h1.trans hl.symm, fun i f v hf hv => ?_⟩
          have : (names.map String.toList)[i]? = some f.1 := by rw [← hn, List.getElem?_map, hf]; rfl
          rw [List.getElem?_map, Option.map_eq_some_iff] at this
          obtain ⟨name, h3, e⟩ := this
          exact h2 f (List.mem_of_getElem? hf) name v e.symm (.arr i h3 hv)
    rw [struct, ← and_assoc, ← hm]
    cases e : positional fs l with
    | error e' => simp [De_bind_error]
    | ok u => simp [De_bind_ok, view, hn]
  | .null, _ => exact ⟨fun h => (by cases h), fun h => (by cases h.1)⟩
  | .bool _, _ => exact ⟨fun h => (by cases h), fun h => (by cases h.1)⟩
  | .num _, _ => exact ⟨fun h => (by cases h), fun h => (by cases h.1)⟩
  | .str _, _ => exact ⟨fun h => (by cases h), fun h => (by cases h.1)⟩
  | .skip _, _ => exact ⟨fun h => (by cases h), fun h => (by cases h.1)⟩

/-- The member is there and read as `a`. -/
def Got {α : Type} (names : List String) (name : String) (de : Json → De α) (j : Json) (a : α) : Prop :=
  ∃ v, HasMember names name j v ∧ de v = .ok a

/-- The member is read as `o`, or it is absent. -/
def GotOption {α : Type} (names : List String) (name : String) (de : Json → De α) (j : Json) (o : Option α) : Prop :=
  Got names name (option de) j o ∨ o = none ∧ ∀ v, ¬ HasMember names name j v

section
variable {α : Type} {names : List String} {name : String} {j : Json} {de : Json → De α} {of : Json → α → Prop}

theorem get_iff {a : α} (hn : names.Nodup) (hs : IsStruct names j) (hm : name ∈ names) :
    get (view names j) name de = .ok a ↔ Got names name de j a := by
  unfold get Got
  have h := fun v => lookup_view (v := v) hn hs hm
  cases e : (view names j).lookup name.toList with
  | none =>
    refine ⟨fun h' => (by cases h'), fun ⟨v, hv, _⟩ => ?_⟩
    rw [(h v).2 hv] at e; cases e
  | some v =>
    refine ⟨fun h' => ⟨v, (h v).1 e, h'⟩, fun ⟨v', hv, h'⟩ => ?_⟩
    rw [(h v').2 hv] at e; cases e; exact h'

theorem getOption_iff {o : Option α} (hn : names.Nodup) (hs : IsStruct names j) (hm : name ∈ names) :
    getOption (view names j) name de = .ok o ↔ GotOption names name de j o := by
  unfold getOption GotOption Got
  have h := fun v => lookup_view (v := v) hn hs hm
  cases e : (view names j).lookup name.toList with
  | none =>
    have hno : ∀ v, ¬ HasMember names name j v := fun v hv => by rw [(h v).2 hv] at e; cases e
    refine ⟨fun h' => .inr ⟨by cases h'; rfl, hno⟩, fun h' => ?_⟩
    rcases h' with ⟨v, hv, -⟩ | ⟨rfl, -⟩
    · exact absurd hv (hno v)
    · rfl
  | some v =>
    refine ⟨fun h' => .inl ⟨v, (h v).1 e, h'⟩, fun h' => ?_⟩
    rcases h' with ⟨v', hv, h'⟩ | ⟨-, hno⟩
    · rw [(h v').2 hv] at e; cases e; exact h'
    · exact absurd ((h v).1 e) (hno v)

theorem hasMember_unique {v v' : Json} (hn : names.Nodup) (hs : IsStruct names j) (hm : name ∈ names)
    (h : HasMember names name j v) (h' : HasMember names name j v') : v = v' := by
  have := ((lookup_view hn hs hm).2 h).symm.trans ((lookup_view hn hs hm).2 h')
  exact Option.some.inj this

theorem Checks.nil : Checks names j [] := by intro f hf; cases hf

theorem Checks.cons {a : α} {fs : List Field} (hn : names.Nodup) (hs : IsStruct names j) (hm : name ∈ names)
    (h : Got names name de j a) (h' : Checks names j fs) : Checks names j (field name de :: fs) := by
  intro f hf name' v e hv
  rcases List.mem_cons.1 hf with rfl | hf
  · cases toList_inj e
    obtain ⟨v', hv', hd⟩ := h
    cases hasMember_unique hn hs hm hv hv'
    simp only [field, hd]; rfl
  · exact h' f hf name' v e hv

theorem Checks.consOption {o : Option α} {fs : List Field} (hn : names.Nodup) (hs : IsStruct names j) (hm : name ∈ names)
    (h : GotOption names name de j o) (h' : Checks names j fs) : Checks names j (field name (option de) :: fs) := by
  rcases h with h | ⟨-, hno⟩
  · exact h'.cons hn hs hm h
  · intro f hf name' v e hv
    rcases List.mem_cons.1 hf with rfl | hf
    · cases toList_inj e
      exact absurd hv (hno v)
    · exact h' f hf name' v e hv

/-- `de` reads just what `of` tells. -/
def Agrees (de : Json → De α) (of : Json → α → Prop) : Prop := ∀ v a, Intact v → (de v = .ok a ↔ of v a)

theorem Got.iff {a : α} (hi : Intact j) (h : Agrees de of) : Got names name de j a ↔ Member names name of j a :=
  exists_congr fun v => and_congr_right fun hv => h v a (hasMember_intact hi hv)

theorem Agrees.option (h : Agrees de of) (hnull : ∀ a, de .null ≠ .ok a) : Agrees (De.option de) (IsOption of) := by
  intro v o hv
  unfold IsOption
  cases v with
  | null =>
    rw [De.option]
    constructor
    · intro h; cases h; exact .inl ⟨rfl, rfl⟩
    · rintro (⟨-, rfl⟩ | ⟨a, ha, -⟩)
      · rfl
      · exact absurd ((h _ _ hv).2 ha) (hnull a)
  | _ =>
    simp only [De.option, bind_eq_ok, h _ _ hv, reduceCtorEq, false_and, false_or]
    exact exists_congr fun a => and_congr_right fun _ => ⟨fun h => (by cases h; rfl), fun h => h ▸ rfl⟩

theorem GotOption.iff {o : Option α} (hi : Intact j) (h : Agrees de of) (hnull : ∀ a, de .null ≠ .ok a) :
    GotOption names name de j o ↔ MaybeMember names name of j o :=
  or_congr_left (Got.iff hi (h.option hnull))

theorem Agrees.elems (h : Agrees de of) : ∀ (vs : List Json) (l : List α), (∀ v ∈ vs, Intact v) →
    (De.elems de vs = .ok l ↔ Each of vs l)
  | [], l, _ => ⟨fun h => by cases h; exact .nil, fun h => by cases h; rfl⟩
  | v :: vs, l, hi => by
    simp only [De.elems, bind_eq_ok, h v _ (hi v (List.mem_cons_self ..)),
      Agrees.elems h vs _ (fun x hx => hi x (List.mem_cons_of_mem _ hx))]
    constructor
    · rintro ⟨a, ha, as, has, e⟩; cases e; exact .cons ha has
    · intro h'; cases h' with | cons ha has => exact ⟨_, ha, _, has, rfl⟩

theorem Agrees.vec (h : Agrees de of) : Agrees (De.vec de) (IsList of) := by
  intro v l hv
  unfold IsList
  cases hv with
  | arr hv =>
    rw [De.vec, h.elems _ _ hv]
    exact ⟨fun h => ⟨_, rfl, h⟩, fun ⟨_, e, h⟩ => by cases e; exact h⟩
  | _ => exact ⟨fun h => (by cases h), fun ⟨_, e, _⟩ => (by cases e)⟩

theorem Agrees.four (h : Agrees de of) : Agrees (De.four de) (fun v q => IsList of v [q.1, q.2.1, q.2.2.1, q.2.2.2]) := by
  intro v q hv
  show _ ↔ IsList of v _
  rw [← h.vec v _ hv]
  cases hv with
  | arr hv =>
    rename_i l
    match l, hv with
    | a :: b :: c :: d :: r, _ =>
      simp only [De.four, De.vec, De.elems, bind_eq_ok]
      constructor
      · rintro ⟨a', h1, b', h2, c', h3, d', h4, h5⟩
        split at h5
        · next hr =>
          cases h5
          rw [List.isEmpty_iff.1 hr]
          exact ⟨_, h1, _, ⟨_, h2, _, ⟨_, h3, _, ⟨_, h4, _, rfl, rfl⟩, rfl⟩, rfl⟩, rfl⟩
        · cases h5
      · rintro ⟨a', h1, _, ⟨b', h2, _, ⟨c', h3, _, ⟨d', h4, x, h5, e4⟩, e3⟩, e2⟩, e1⟩
        cases e4; cases e3; cases e2; cases e1
        refine ⟨_, h1, _, h2, _, h3, _, h4, ?_⟩
        match r, h5 with
        | [], _ => rfl
        | _ :: _, h5 =>
          simp only [De.elems, bind_eq_ok] at h5
          obtain ⟨_, _, _, _, e⟩ := h5
          cases e
    | [], _ => exact ⟨fun h => (by cases h), fun h => by cases h⟩
    | [a], _ =>
      constructor
      · intro h; simp only [De.four, bind_eq_ok] at h; obtain ⟨_, _, h⟩ := h; cases h
      · intro h; simp only [De.vec, De.elems, bind_eq_ok] at h; obtain ⟨_, _, _, e, h⟩ := h; cases e; cases h
    | [a, b], _ =>
      constructor
      · intro h; simp only [De.four, bind_eq_ok] at h; obtain ⟨_, _, h⟩ := h; cases h
      · intro h; simp only [De.vec, De.elems, bind_eq_ok] at h; obtain ⟨_, _, _, ⟨_, _, _, e, e'⟩, h⟩ := h; cases e; cases e'; cases h
    | [a, b, c], _ =>
      constructor
      · intro h; simp only [De.four, bind_eq_ok] at h; obtain ⟨_, _, h⟩ := h; cases h
      · intro h
        simp only [De.vec, De.elems, bind_eq_ok] at h
        obtain ⟨_, _, _, ⟨_, _, _, ⟨_, _, _, e, e'⟩, e''⟩, h⟩ := h
        cases e; cases e'; cases e''; cases h
  | _ => exact ⟨fun h => (by cases h), fun h => (by cases h)⟩

end

/-! ## Numbers and names -/

theorem uint_agrees (max : Nat) : Agrees (uint max) (IsNat max) := by
  intro v n _
  unfold IsNat uint
  split
  · split
    · next h => exact ⟨fun e => by cases e; exact ⟨rfl, h⟩, fun e => by cases e.1; rfl⟩
    · next h => exact ⟨fun e => (by cases e), fun e => by cases e.1; exact absurd e.2 h⟩
  · next h => exact ⟨fun e => (by cases e), fun e => absurd e.1 (h n)⟩

theorem sint_agrees (max : Nat) : Agrees (sint max) (IsInt (-(max : Int) - 1) max) := by
  intro v i _
  unfold IsInt sint
  split
  · split
    · exact ⟨fun e => by cases e; exact ⟨.inl ⟨_, rfl, rfl⟩, by omega, by omega⟩, fun e => by
        rcases e.1 with ⟨_, e', rfl⟩ | ⟨_, e', _⟩ <;> cases e'; rfl⟩
    · refine ⟨fun e => (by cases e), fun e => ?_⟩
      obtain ⟨⟨_, e', rfl⟩ | ⟨_, e', _⟩, h1, h2⟩ := e <;> cases e'
      omega
  · split
    · exact ⟨fun e => by cases e; exact ⟨.inr ⟨_, rfl, rfl⟩, by omega, by omega⟩, fun e => by
        rcases e.1 with ⟨_, e', _⟩ | ⟨_, e', rfl⟩ <;> cases e'; rfl⟩
    · refine ⟨fun e => (by cases e), fun e => ?_⟩
      obtain ⟨⟨_, e', _⟩ | ⟨_, e', rfl⟩, h1, h2⟩ := e <;> cases e'
      omega
  · next h1 h2 =>
    refine ⟨fun e => (by cases e), fun e => ?_⟩
    obtain ⟨⟨n, rfl, _⟩ | ⟨n, rfl, _⟩, _⟩ := e
    · exact absurd rfl (h1 n)
    · exact absurd rfl (h2 n)

theorem bool_agrees : Agrees De.bool IsBool := by
  intro v b _
  unfold IsBool De.bool
  split
  · exact ⟨fun e => by cases e; rfl, fun e => by cases e; rfl⟩
  · next h => exact ⟨fun e => (by cases e), fun e => absurd e (h b)⟩

theorem variant_iff {v : Json} {s : List Char} : variant v = .ok s ↔ v = .str s ∨ v = .obj [(s, .null)] := by
  unfold variant
  split
  · exact ⟨fun e => by cases e; exact .inl rfl, fun e => by rcases e with e | e <;> cases e; rfl⟩
  · exact ⟨fun e => by cases e; exact .inr rfl, fun e => by rcases e with e | e <;> cases e; rfl⟩
  · next h1 h2 =>
    refine ⟨fun e => (by cases e), ?_⟩
    rintro (rfl | rfl)
    · exact absurd rfl (h1 s)
    · exact absurd rfl (h2 s)

theorem enum_agrees {α : Type} {name : α → List Char} {all : List α} {text : α → String} (ht : ∀ a, name a = (text a).toList)
    (ha : ∀ a, a ∈ all) (hinj : ∀ a b, name a = name b → a = b) : Agrees (De.enum name all) (fun v a => IsName (text a) v) := by
  intro v a _
  show _ ↔ IsName (text a) v
  unfold De.enum IsName
  rw [← ht, ← variant_iff]
  simp only [bind_eq_ok]
  constructor
  · rintro ⟨s, h1, h2⟩
    split at h2
    · next b hb =>
      cases h2
      have := List.find?_some hb
      rw [of_decide_eq_true this]
      exact h1
    · cases h2
  · intro h
    refine ⟨_, h, ?_⟩
    split
    · next b hb =>
      have := List.find?_some hb
      rw [hinj _ _ (of_decide_eq_true this)]; rfl
    · next hb =>
      rw [List.find?_eq_none] at hb
      exact absurd (decide_eq_true rfl) (hb a (ha a))

end De

/-! ## Data -/
open De

theorem Solfa.agrees : Agrees (De.enum Solfa.name Solfa.ALL) (fun v s => IsName (solfaText s) v) :=
  enum_agrees (by intro a; cases a <;> rfl) (by decide) (by decide)

theorem Octave.agrees : Agrees (De.enum Octave.name Octave.ALL) (fun v s => IsName (octaveText s) v) :=
  enum_agrees (by intro a; cases a <;> rfl) (by decide) (by decide)

theorem SharpFlat.agrees : Agrees (De.enum SharpFlat.name SharpFlat.ALL) (fun v s => IsName (sharpFlatText s) v) :=
  enum_agrees (by intro a; cases a <;> rfl) (by decide) (by decide)

theorem NoteValue.agrees : Agrees (De.enum NoteValue.name NoteValue.ALL) (fun v s => IsName (noteValueText s) v) :=
  enum_agrees (by intro a; cases a <;> rfl) (by intro a; cases a <;> decide) (by intro a b; cases a <;> cases b <;> decide)

theorem BarUnit.agrees : Agrees (De.enum BarUnit.name BarUnit.ALL) (fun v s => IsName (barUnitText s) v) :=
  enum_agrees (by intro a; cases a <;> rfl) (by intro a; cases a <;> decide) (by intro a b; cases a <;> cases b <;> decide)

theorem lift_iff {α : Type} {r : R α} {a : α} : De.lift r = .ok a ↔ r = .ok a :=
  ⟨De.lift_ok, fun h => by rw [h]; rfl⟩

theorem Pitch.new_iff {s : Solfa} {o : Octave} {a : SharpFlat} {p : Pitch} :
    Pitch.new s o a = .ok p ↔ Pitch.valueOf s o a = .ok p := by
  unfold Pitch.new
  split
  · next e => rw [e]; exact ⟨fun h => (by cases h), fun h => (by cases h)⟩
  · next e => rw [e]; exact ⟨fun h => (by cases h; rfl), fun h => (by cases h; rfl)⟩

theorem Pitch.agrees : Agrees Pitch.de IsPitch := by
  intro j p hi
  unfold Pitch.de IsPitch
  rw [struct_bind (names := pitchMembers) rfl (by decide) hi]
  refine and_congr_right fun hs => ?_
  have hn : pitchMembers.Nodup := by decide
  simp (disch := decide) only [bind_eq_ok, get_iff hn hs, ← Got.iff hi Solfa.agrees, ← Got.iff hi Octave.agrees,
    ← Got.iff hi SharpFlat.agrees, lift_iff, Pitch.new_iff, valueOf_ok_iff]
  constructor
  · rintro ⟨-, _, h1, _, h2, _, h3, hv, rfl, rfl, rfl⟩
    exact ⟨h1, h2, h3, hv⟩
  · rintro ⟨h1, h2, h3, hv⟩
    exact ⟨.cons hn hs (by decide) h1 (.cons hn hs (by decide) h2 (.cons hn hs (by decide) h3 .nil)), _, h1, _, h2, _, h3, hv,
      rfl, rfl, rfl⟩

theorem Denominator.agrees : Agrees Denominator.de (fun v n => ∃ m, IsNat 255 v m ∧ n = max m 2) := by
  intro v n hv
  simp only [Denominator.de, bind_eq_ok, uint_agrees _ v _ hv]
  refine exists_congr fun m => and_congr_right fun _ => ?_
  rw [De_pure, Except.ok.injEq, Denominator.ofSerialized, Denominator.fromValue]
  split <;> simp <;> omega

theorem Duration.agrees : Agrees Duration.de IsDuration := by
  intro j a hi
  unfold Duration.de IsDuration
  rw [struct_bind (names := durationMembers) rfl (by decide) hi]
  refine and_congr_right fun hs => ?_
  have hn : (durationMembers : List String).Nodup := by decide
  simp (disch := decide) only [bind_eq_ok, get_iff hn hs, ← Got.iff hi NoteValue.agrees, ← Got.iff hi Denominator.agrees, ← Got.iff hi (uint_agrees _)]
  constructor
  · rintro ⟨-, _, h1, _, h2, _, h3, e⟩
    cases e
    exact ⟨h1, h2, h3⟩
  · rintro ⟨h1, h2, h3⟩
    exact ⟨(.cons hn hs (by decide) h1 (.cons hn hs (by decide) h2 (.cons hn hs (by decide) h3 .nil))), _, h1, _, h2, _, h3, rfl⟩

theorem Trimmer.fromArray_slots {a b c d : Int} {t : Trimmer} (h : Trimmer.fromArray a b c d = .ok t) :
    t.v0 = a ∧ t.v1 = b ∧ t.v2 = c ∧ t.v3 = d := by
  simp only [Trimmer.fromArray, R_bind_eq_ok] at h
  obtain ⟨_, _, _, _, _, _, h⟩ := h
  cases h
  exact ⟨rfl, rfl, rfl, rfl⟩

theorem Trimmer.fromArray_safe {t : Trimmer} (h : SafeTrimmer t) : Trimmer.fromArray t.v0 t.v1 t.v2 t.v3 = .ok t := by
  have hs := h.sum
  have hf := h.four
  simp only [Trimmer.fromArray, chkI16, I16_MIN, I16_MAX]
  rw [if_pos h.two]
  simp only [R_bind_ok]
  rw [if_pos h.three]
  simp only [R_bind_ok]
  rw [if_pos (by rw [← hs]; exact hf)]
  simp only [R_bind_ok, R_pure, ← hs]

theorem Trimmer.agrees : Agrees Trimmer.de IsTrimmer := by
  intro j t hi
  have h16 : Agrees (sint 32767) (IsInt (-32768) 32767) := sint_agrees 32767
  have hg := Got.iff (names := ["values"]) (name := "values") (a := (t.v0, t.v1, t.v2, t.v3)) hi h16.four
  have hn : ["values"].Nodup := by decide
  constructor
  · intro h
    have hsafe := Trimmer.de_ok h
    unfold Trimmer.de at h
    rw [struct_bind (names := ["values"]) rfl (by decide) hi] at h
    obtain ⟨hs, -, h⟩ := h
    simp (disch := decide) only [bind_eq_ok, get_iff hn hs, lift_iff] at h
    obtain ⟨⟨a, b, c, d⟩, h1, h2⟩ := h
    obtain ⟨rfl, rfl, rfl, rfl⟩ := Trimmer.fromArray_slots h2
    exact ⟨hs, hg.1 h1, hsafe⟩
  · rintro ⟨hs, hm, hsafe⟩
    unfold Trimmer.de
    rw [struct_bind (names := ["values"]) rfl (by decide) hi]
    simp (disch := decide) only [bind_eq_ok, get_iff hn hs, lift_iff]
    have h1 := hg.2 hm
    exact ⟨hs, .cons hn hs (by decide) h1 .nil, _, h1, Trimmer.fromArray_safe hsafe⟩

theorem Percent.agrees : Agrees Percent.de IsPercent := by
  intro j a hi
  unfold Percent.de IsPercent
  rw [struct_bind (names := ["value"]) rfl (by decide) hi]
  refine and_congr_right fun hs => ?_
  have hn : (["value"] : List String).Nodup := by decide
  simp (disch := decide) only [bind_eq_ok, get_iff hn hs, ← Got.iff hi (uint_agrees _)]
  constructor
  · rintro ⟨-, _, h1, e⟩
    cases e
    exact h1
  · intro h1
    exact ⟨(.cons hn hs (by decide) h1 .nil), _, h1, rfl⟩

theorem RateTrimmer.agrees : Agrees RateTrimmer.de IsRate := by
  intro j t hi
  have hg := Got.iff (names := ["values"]) (name := "values") (a := (t.v0, t.v1, t.v2, t.v3)) hi Percent.agrees.four
  have hn : ["values"].Nodup := by decide
  constructor
  · intro h
    have hsafe := RateTrimmer.de_ok h
    unfold RateTrimmer.de at h
    rw [struct_bind (names := ["values"]) rfl (by decide) hi] at h
    obtain ⟨hs, -, h⟩ := h
    simp (disch := decide) only [bind_eq_ok, get_iff hn hs] at h
    obtain ⟨⟨a, b, c, d⟩, h1, h2⟩ := h
    cases h2
    exact ⟨hs, hg.1 h1, hsafe⟩
  · rintro ⟨hs, hm, hsafe⟩
    unfold RateTrimmer.de
    rw [struct_bind (names := ["values"]) rfl (by decide) hi]
    simp (disch := decide) only [bind_eq_ok, get_iff hn hs]
    have h1 := hg.2 hm
    exact ⟨hs, .cons hn hs (by decide) h1 .nil, _, h1, congrArg Except.ok hsafe.sum.symm⟩

theorem Velocity.agrees : Agrees Velocity.de IsVelocity := by
  intro v x hv
  unfold Velocity.de IsVelocity
  simp only [bind_eq_ok, uint_agrees _ v _ hv]
  refine exists_congr fun m => and_congr_right fun _ => ?_
  rw [De_pure, Except.ok.injEq, Velocity.new]
  cases x
  split <;> simp <;> omega

theorem Note.agrees : Agrees Note.de IsNote := by
  intro j a hi
  unfold Note.de IsNote
  rw [struct_bind (names := noteMembers) rfl (by decide) hi]
  refine and_congr_right fun hs => ?_
  have hn : (noteMembers : List String).Nodup := by decide
  simp (disch := decide) only [bind_eq_ok, get_iff hn hs, ← Got.iff hi (uint_agrees _), ← Got.iff hi Pitch.agrees, ← Got.iff hi Duration.agrees, ← Got.iff hi bool_agrees, ← Got.iff hi Velocity.agrees, ← Got.iff hi Trimmer.agrees, ← Got.iff hi RateTrimmer.agrees]
  constructor
  · rintro ⟨-, _, h1, _, h2, _, h3, _, h4, _, h5, _, h6, _, h7, _, h8, _, h9, _, h10, e⟩
    cases e
    exact ⟨h1, h2, h3, h4, h5, h6, h7, h8, h9, h10⟩
  · rintro ⟨h1, h2, h3, h4, h5, h6, h7, h8, h9, h10⟩
    exact ⟨(.cons hn hs (by decide) h1 (.cons hn hs (by decide) h2 (.cons hn hs (by decide) h3 (.cons hn hs (by decide) h4 (.cons hn hs (by decide) h5 (.cons hn hs (by decide) h6 (.cons hn hs (by decide) h7 (.cons hn hs (by decide) h8 (.cons hn hs (by decide) h9 (.cons hn hs (by decide) h10 .nil)))))))))), _, h1, _, h2, _, h3, _, h4, _, h5, _, h6, _, h7, _, h8, _, h9, _, h10, rfl⟩

theorem Rhythm.agrees : Agrees Rhythm.de IsRhythm := by
  intro j a hi
  unfold Rhythm.de IsRhythm
  rw [struct_bind (names := rhythmMembers) rfl (by decide) hi]
  refine and_congr_right fun hs => ?_
  have hn : (rhythmMembers : List String).Nodup := by decide
  simp (disch := decide) only [bind_eq_ok, get_iff hn hs, ← Got.iff hi (uint_agrees _), ← Got.iff hi BarUnit.agrees]
  constructor
  · rintro ⟨-, _, h1, _, h2, e⟩
    cases e
    exact ⟨h1, h2⟩
  · rintro ⟨h1, h2⟩
    exact ⟨(.cons hn hs (by decide) h1 (.cons hn hs (by decide) h2 .nil)), _, h1, _, h2, rfl⟩

theorem Key.agrees : Agrees Key.de IsKey := by
  intro v k hv
  unfold Key.de IsKey
  simp only [bind_eq_ok, sint_agrees _ v _ hv]
  cases k
  constructor
  · rintro ⟨_, h, e⟩; cases e; exact h
  · intro h; exact ⟨_, h, rfl⟩

theorem RepeatSet.ofBits_iff (n : Nat) (s : RepeatSet) :
    RepeatSet.ofBits n = s ↔ ∀ m, s.contains m = true ↔ n / weight m % 2 = 1 := by
  have key : ∀ m, (RepeatSet.ofBits n).contains m = true ↔ n / weight m % 2 = 1 := by
    intro m
    cases m <;> simp [RepeatSet.contains, RepeatSet.ofBits, weight, Nat.testBit_eq_decide_div_mod_eq]
  constructor
  · rintro rfl; exact key
  · intro h
    have e : ∀ m, (RepeatSet.ofBits n).contains m = s.contains m := by
      intro m
      rw [Bool.eq_iff_iff, key, h]
    cases s
    have := e .Start; have := e .End; have := e .Dc; have := e .Fine; have := e .Ds; have := e .Segno
    have := e .Coda; have := e .Var1; have := e .Var2; have := e .Var3; have := e .Var4
    simp only [RepeatSet.contains] at *
    unfold RepeatSet.ofBits at *
    simp only [RepeatSet.mk.injEq]
    refine ⟨?_, ?_, ?_, ?_, ?_, ?_, ?_, ?_, ?_, ?_, ?_⟩ <;> assumption

theorem RepeatSet.agrees : Agrees RepeatSet.de IsMarks := by
  intro j s hi
  unfold RepeatSet.de IsMarks
  rw [struct_bind (names := ["value"]) rfl (by decide) hi]
  refine and_congr_right fun hs => ?_
  have hn : ["value"].Nodup := by decide
  simp (disch := decide) only [bind_eq_ok, get_iff hn hs, ← RepeatSet.ofBits_iff]
  constructor
  · rintro ⟨-, n, ⟨v, hv, h1⟩, e⟩
    exact ⟨v, hv, n, (uint_agrees _ v n (hasMember_intact hi hv)).1 h1, Except.ok.inj e⟩
  · rintro ⟨v, hv, n, h1, e⟩
    have h1 : Got ["value"] "value" (uint U16) j n := ⟨v, hv, (uint_agrees _ v n (hasMember_intact hi hv)).2 h1⟩
    exact ⟨.cons hn hs (by decide) h1 .nil, n, h1, congrArg Except.ok e⟩

theorem Rhythm.not_null (a : Rhythm) : Rhythm.de .null ≠ .ok a := fun h => by cases h
theorem Key.not_null (a : Key) : Key.de .null ≠ .ok a := fun h => by cases h

theorem Bar.agrees : Agrees Bar.de IsBar := by
  intro j a hi
  unfold Bar.de IsBar
  rw [struct_bind (names := barMembers) rfl (by decide) hi]
  refine and_congr_right fun hs => ?_
  have hn : (barMembers : List String).Nodup := by decide
  simp (disch := decide) only [bind_eq_ok, get_iff hn hs, getOption_iff hn hs, ← Got.iff hi (uint_agrees _), ← GotOption.iff hi Rhythm.agrees Rhythm.not_null, ← GotOption.iff hi Key.agrees Key.not_null, ← Got.iff hi RepeatSet.agrees]
  constructor
  · rintro ⟨-, _, h1, _, h2, _, h3, _, h4, e⟩
    cases e
    exact ⟨h1, h2, h3, h4⟩
  · rintro ⟨h1, h2, h3, h4⟩
    exact ⟨(.cons hn hs (by decide) h1 (.consOption hn hs (by decide) h2 (.consOption hn hs (by decide) h3 (.cons hn hs (by decide) h4 .nil)))), _, h1, _, h2, _, h3, _, h4, rfl⟩

theorem TempoValue.agrees :
    Agrees TempoValue.de (fun v (x : TempoValue) => ∃ n, IsNat 65535 v n ∧ x.value = min (max n 1) 999) := by
  intro v x hv
  simp only [TempoValue.de, bind_eq_ok, uint_agrees _ v _ hv]
  refine exists_congr fun m => and_congr_right fun _ => ?_
  rw [De_pure, Except.ok.injEq, TempoValue.ofSerialized]
  cases x
  split
  · simp; omega
  · split <;> simp <;> omega

theorem Tempo.agrees : Agrees Tempo.de IsTempo := by
  intro j a hi
  unfold Tempo.de IsTempo
  rw [struct_bind (names := tempoMembers) rfl (by decide) hi]
  refine and_congr_right fun hs => ?_
  have hn : (tempoMembers : List String).Nodup := by decide
  simp (disch := decide) only [bind_eq_ok, get_iff hn hs, ← Got.iff hi (uint_agrees _), ← Got.iff hi TempoValue.agrees]
  constructor
  · rintro ⟨-, _, h1, _, h2, e⟩
    cases e
    exact ⟨h1, h2⟩
  · rintro ⟨h1, h2⟩
    exact ⟨(.cons hn hs (by decide) h1 (.cons hn hs (by decide) h2 .nil)), _, h1, _, h2, rfl⟩

theorem CtrlChg.agrees : Agrees CtrlChg.de IsPedal := by
  intro j a hi
  unfold CtrlChg.de IsPedal
  rw [struct_bind (names := pedalMembers) rfl (by decide) hi]
  refine and_congr_right fun hs => ?_
  have hn : (pedalMembers : List String).Nodup := by decide
  simp (disch := decide) only [bind_eq_ok, get_iff hn hs, ← Got.iff hi (uint_agrees _), ← Got.iff hi Velocity.agrees]
  constructor
  · rintro ⟨-, _, h1, _, h2, _, h3, e⟩
    cases e
    exact ⟨h1, h2, h3⟩
  · rintro ⟨h1, h2, h3⟩
    exact ⟨(.cons hn hs (by decide) h1 (.cons hn hs (by decide) h2 (.cons hn hs (by decide) h3 .nil))), _, h1, _, h2, _, h3, rfl⟩

theorem Models.agrees : Agrees Models.de IsSelection := by
  intro j a hi
  unfold Models.de IsSelection
  rw [struct_bind (names := selectionMembers) rfl (by decide) hi]
  refine and_congr_right fun hs => ?_
  have hn : (selectionMembers : List String).Nodup := by decide
  simp (disch := decide) only [bind_eq_ok, get_iff hn hs, ← Got.iff hi Note.agrees.vec, ← Got.iff hi Bar.agrees.vec, ← Got.iff hi Tempo.agrees.vec, ← Got.iff hi CtrlChg.agrees.vec]
  constructor
  · rintro ⟨-, _, h1, _, h2, _, h3, _, h4, _, h5, e⟩
    cases e
    exact ⟨h1, h2, h3, h4, h5⟩
  · rintro ⟨h1, h2, h3, h4, h5⟩
    exact ⟨(.cons hn hs (by decide) h1 (.cons hn hs (by decide) h2 (.cons hn hs (by decide) h3 (.cons hn hs (by decide) h4 (.cons hn hs (by decide) h5 .nil))))), _, h1, _, h2, _, h3, _, h4, _, h5, rfl⟩

theorem ClipProject.agrees : Agrees ClipProject.de IsClipProject := by
  intro j a hi
  unfold ClipProject.de IsClipProject
  rw [struct_bind (names := projectMembers) rfl (by decide) hi]
  refine and_congr_right fun hs => ?_
  have hn : (projectMembers : List String).Nodup := by decide
  simp (disch := decide) only [bind_eq_ok, get_iff hn hs, getOption_iff hn hs, ← GotOption.iff hi Key.agrees Key.not_null, ← GotOption.iff hi Rhythm.agrees Rhythm.not_null, ← Got.iff hi Note.agrees.vec, ← Got.iff hi Bar.agrees.vec, ← Got.iff hi Tempo.agrees.vec, ← Got.iff hi CtrlChg.agrees.vec]
  constructor
  · rintro ⟨-, _, h1, _, h2, _, h3, _, h4, _, h5, _, h6, _, h7, e⟩
    cases e
    exact ⟨h1, h2, h3, h4, h5, h6, h7⟩
  · rintro ⟨h1, h2, h3, h4, h5, h6, h7⟩
    exact ⟨(.consOption hn hs (by decide) h1 (.consOption hn hs (by decide) h2 (.cons hn hs (by decide) h3 (.cons hn hs (by decide) h4 (.cons hn hs (by decide) h5 (.cons hn hs (by decide) h6 (.cons hn hs (by decide) h7 .nil))))))), _, h1, _, h2, _, h3, _, h4, _, h5, _, h6, _, h7, rfl⟩

end Klavier
