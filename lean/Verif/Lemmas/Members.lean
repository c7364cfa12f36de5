import Verif.Lemmas.Paste
import Verif.Spec.ClipText

/-! # Reading structs member by member -/
set_option autoImplicit false
namespace Klavier
open Spec

open Json in
/-- An object may be followed by anything. -/
theorem Json.parseValue_obj (over : List Char → Bool) {m : JsonMode} (hm : m ≠ .skip) {k : List Char} {v : Json} {ms : List (List Char × Json)} {d fuel : Nat}
    {r : List Char} (hw : Writable d (.obj ((k, v) :: ms))) (hf : 2 * (text (.obj ((k, v) :: ms))).length + 1 ≤ fuel) :
    parseValue over m fuel d (text (.obj ((k, v) :: ms)) ++ r) = (.obj ((k, v) :: ms), some r) := by
  simp only [Writable, WritableMembers] at hw
  simp only [text, List.length_cons, List.length_append, strText, List.length_nil] at hf
  match fuel with
  | 0 => omega
  | 1 => omega
  | fuel + 2 =>
    have hk := parseStr_plain (r := ':' :: (text v ++ (textMembers ms ++ r))) hw.2.1
    have h1 := parseValue_text over hm v (d - 1) fuel (textMembers ms ++ r) hw.2.2.1 (by omega) (stops_members ms r)
    have h2 := parseMembers_text over hm ms (d - 1) fuel r hw.2.2.2 (by omega)
    rw [text, List.cons_append, parseValue, skipWs_stop (by unfold IsBlank; decide)]
    simp only [strText, List.cons_append, List.append_assoc, List.nil_append, parseMembers]
    rw [skipWs_stop (show ¬ IsBlank '"' by unfold IsBlank; decide)]
    simp [tooDeep_read hm, orSkip_some, readStr_read hm, show ¬ d ≤ 1 by omega, hk, skipWs_stop (show ¬ IsBlank ':' by unfold IsBlank; decide), h1, h2]

/-- What follows the object decides whether the text is read. -/
theorem fromSlice_rest {α : Type} (over : List Char → Bool) {de : Json → De α} {k : List Char} {v : Json}
    {ms : List (List Char × Json)} {a : α} (hw : Writable 128 (.obj ((k, v) :: ms))) (hd : de (.obj ((k, v) :: ms)) = .ok a)
    (r : List Char) : fromSlice over de ((Json.obj ((k, v) :: ms)).text ++ r) =
      if (Json.skipWs r).isEmpty then .ok a else .error .invalid := by
  have hp : Json.parse over .typed ((Json.obj ((k, v) :: ms)).text ++ r) = (.obj ((k, v) :: ms), some r) :=
    Json.parseValue_obj over (by decide) hw (by rw [List.length_append]; omega)
  simp only [fromSlice, hp, hd, De_bind_ok]
  rfl

namespace De

theorem intact_broken {j : Json} (h : Intact j) : broken j = false := by
  induction h with
  | arr _ ih =>
    rename_i l _
    have : ∀ l : List Json, (∀ x ∈ l, broken x = false) → brokenElems l = false := by
      intro l
      induction l with
      | nil => intro _; rfl
      | cons x xs ih' =>
        intro h
        rw [brokenElems, h x (List.mem_cons_self ..), ih' (fun y hy => h y (List.mem_cons_of_mem _ hy))]
        rfl
    rw [broken]
    exact this _ ih
  | obj _ ih =>
    rename_i l _
    have : ∀ l : List (List Char × Json), (∀ x ∈ l, broken x.2 = false) → brokenMembers l = false := by
      intro l
      induction l with
      | nil => intro _; rfl
      | cons x xs ih' =>
        intro h
        rw [brokenMembers, h x (List.mem_cons_self ..), ih' (fun y hy => h y (List.mem_cons_of_mem _ hy))]
        rfl
    rw [broken]
    exact this _ ih
  | _ => rfl

/-- What a single member must satisfy. -/
def memberOk (fs : List Field) (m : List Char × Json) : Prop :=
  match fs.find? (fun f => f.1 = m.1) with
  | none => broken m.2 = false
  | some f => f.2 m.2 = .ok () ∧ ∀ j, m.2 ≠ .skip j

theorem knownField_ok {f : Json → De Unit} {v : Json} (hs : ∀ j, v ≠ .skip j) : knownField f v = f v := by
  cases v with
  | skip j => exact absurd rfl (hs j)
  | _ => rfl

theorem knownField_iff {f : Json → De Unit} {v : Json} : knownField f v = .ok () ↔ f v = .ok () ∧ ∀ j, v ≠ .skip j := by
  cases v with
  | skip j =>
    refine ⟨fun h => ?_, fun h => absurd rfl (h.2 j)⟩
    rw [knownField] at h
    cases e : f j with
    | error e' => rw [e] at h; cases h
    | ok u => rw [e] at h; cases h
  | _ => simp [knownField]

/-- Is it one of the fields? -/
def known (fs : List Field) (k : List Char) : Bool := (fs.map (·.1)).contains k

theorem known_iff (fs : List Field) (k : List Char) : known fs k = true ↔ ∃ f, fs.find? (fun f => f.1 = k) = some f := by
  rw [← Option.isSome_iff_exists, List.find?_isSome]
  simp [known]

theorem members_ok (fs : List Field) : ∀ (ms : List (List Char × Json)) (seen : List (List Char)),
    members fs seen ms = .ok () ↔ (∀ m ∈ ms, memberOk fs m) ∧
      (∀ m ∈ ms, known fs m.1 = true → m.1 ∉ seen) ∧ ((ms.map (·.1)).filter (known fs)).Nodup
  | [], seen => by simp [members]
  | (k, v) :: ms, seen => by
    rw [members]
    split
    · next hn =>
      have hk : known fs k = false := by
        cases e : known fs k with
        | false => rfl
        | true =>
          obtain ⟨f, hf⟩ := (known_iff fs k).1 e
          rw [hn] at hf
          cases hf
      have hm : memberOk fs (k, v) ↔ broken v = false := by unfold memberOk; simp only [hn]
      have ih := members_ok fs ms seen
      simp only [List.forall_mem_cons, hm, List.map_cons, List.filter_cons, hk, Bool.false_eq_true, false_implies, true_and, if_false]
      rw [and_assoc, ← ih]
      unfold ignored
      cases broken v <;> simp [De_bind_ok, De_bind_error]
    · next f hf =>
      have hk : known fs k = true := (known_iff fs k).2 ⟨f, hf⟩
      have hm : memberOk fs (k, v) ↔ knownField f.2 v = .ok () := by unfold memberOk; simp only [hf]; exact knownField_iff.symm
      have ih := members_ok fs ms (k :: seen)
      simp only [List.forall_mem_cons, hm, List.map_cons, List.filter_cons, hk, true_implies, if_true, List.nodup_cons]
      split
      · next hs => simp [hs]
      · next hs =>
        cases e : knownField f.2 v with
        | error e => simp [De_bind_error]
        | ok u =>
          rw [De_bind_ok, ih]
          simp only [true_and, hs, not_false_eq_true]
          simp only [List.mem_cons, not_or, List.mem_filter, List.mem_map, not_and, hk]
          constructor
          · rintro ⟨h1, h2, h3⟩
            exact ⟨h1, fun m hm hk' => (h2 m hm hk').2, fun ⟨m, hm, e⟩ => absurd e (h2 m hm (e ▸ hk)).1, h3⟩
          · rintro ⟨h1, h2, h3, h4⟩
            exact ⟨h1, fun m hm hk' => ⟨fun e => h3 ⟨m, hm, e⟩ trivial, h2 m hm hk'⟩, h4⟩

theorem lookup_mem {ms : List (List Char × Json)} {k : List Char} {v : Json} (h : ms.lookup k = some v) : (k, v) ∈ ms := by
  induction ms with
  | nil => cases h
  | cons m ms ih =>
    obtain ⟨k', v'⟩ := m
    rw [List.lookup_cons] at h
    split at h
    · next e =>
      cases h
      rw [show k = k' from by simpa using e]
      exact List.mem_cons_self ..
    · exact List.mem_cons_of_mem _ (ih h)

theorem lookup_none {ms : List (List Char × Json)} {k : List Char} : ms.lookup k = none ↔ k ∉ ms.map (·.1) := by
  rw [List.lookup_eq_none_iff]
  simp only [List.mem_map, not_exists, not_and, bne_iff_ne, ne_eq]
  exact ⟨fun h p hp e => h p hp e.symm, fun h p hp e => h p hp e.symm⟩

theorem lookup_of_mem (fs : List Field) {ms : List (List Char × Json)} {k : List Char} {v : Json} (hk : known fs k = true)
    (hn : ((ms.map (fun x => x.1)).filter (known fs)).Nodup) (h : (k, v) ∈ ms) : ms.lookup k = some v := by
  induction ms with
  | nil => cases h
  | cons m ms ih =>
    obtain ⟨k', v'⟩ := m
    rw [List.lookup_cons]
    rw [List.map_cons, List.filter_cons] at hn
    rcases List.mem_cons.1 h with e | hm
    · cases e
      simp
    · by_cases e : k = k'
      · subst e
        rw [if_pos hk] at hn
        exact absurd (List.mem_filter.2 ⟨List.mem_map.2 ⟨(k, v), hm, rfl⟩, hk⟩) (List.nodup_cons.1 hn).1
      · rw [show (k == k') = false from by simpa using e]
        refine ih ?_ hm
        split at hn
        · exact (List.nodup_cons.1 hn).2
        · exact hn

theorem lookup_perm (fs : List Field) {ms ms' : List (List Char × Json)} {k : List Char} (hk : known fs k = true)
    (hn : ((ms.map (·.1)).filter (known fs)).Nodup) (hp : ms.Perm ms') : ms.lookup k = ms'.lookup k := by
  have hn' : ((ms'.map (·.1)).filter (known fs)).Nodup := ((hp.map _).filter _).nodup_iff.1 hn
  cases e : ms.lookup k with
  | some v => exact (lookup_of_mem fs hk hn' (hp.mem_iff.1 (lookup_mem e))).symm
  | none =>
    refine (lookup_none.2 ?_).symm
    intro h
    exact lookup_none.1 e ((hp.map _).mem_iff.2 h)

theorem lookup_skip {ms ms' : List (List Char × Json)} {k k' : List Char} {v : Json} (h : k ≠ k') :
    (ms ++ (k', v) :: ms').lookup k = (ms ++ ms').lookup k := by
  rw [List.lookup_append, List.lookup_append, List.lookup_cons, show (k == k') = false from by simpa using h]

theorem members_skip (fs : List Field) {k : List Char} {v : Json} (hk : known fs k = false) (hv : broken v = false)
    (ms' : List (List Char × Json)) : ∀ (ms : List (List Char × Json)) (seen : List (List Char)),
    members fs seen (ms ++ (k, v) :: ms') = members fs seen (ms ++ ms')
  | [], seen => by
    rw [List.nil_append, members]
    split
    · unfold ignored
      rw [hv]
      rfl
    · next f hf => rw [(known_iff fs k).2 ⟨f, hf⟩] at hk; cases hk
  | (k', v') :: ms, seen => by
    rw [List.cons_append, List.cons_append, members, members]
    split
    · rw [members_skip fs hk hv ms' ms seen]
    · split
      · rfl
      · rw [members_skip fs hk hv ms' ms]

theorem find_field {pre rest : List Field} {f : Field} (h : ((pre ++ f :: rest).map (·.1)).Nodup) :
    (pre ++ f :: rest).find? (fun x => decide (x.1 = f.1)) = some f := by
  rw [List.find?_append]
  rw [List.map_append, List.map_cons] at h
  have : pre.find? (fun x => decide (x.1 = f.1)) = none := by
    rw [List.find?_eq_none]
    intro x hx e
    have e := of_decide_eq_true e
    exact (List.nodup_append.1 h).2.2 _ (List.mem_map.2 ⟨x, hx, rfl⟩) _ (List.mem_cons_self ..) e
  rw [this]
  simp

theorem members_zip (fs : List Field) (hn : (fs.map (·.1)).Nodup) : ∀ (rest pre : List Field) (vs : List Json)
    (seen : List (List Char)), (∀ v ∈ vs, ∀ j, v ≠ .skip j) → fs = pre ++ rest → (∀ k ∈ seen, k ∈ pre.map (·.1)) → vs.length = rest.length →
    members fs seen ((rest.map (·.1)).zip vs) = positional rest vs
  | [], pre, [], seen, _, _, _, _ => rfl
  | [], pre, _ :: _, seen, _, _, _, h => by cases h
  | f :: rest, pre, [], seen, _, _, _, h => by cases h
  | f :: rest, pre, v :: vs, seen, hv, e, hs, h => by
    have hf := find_field (pre := pre) (rest := rest) (f := f) (e ▸ hn)
    rw [List.map_cons, List.zip_cons_cons, members, e, hf]
    simp only
    have hns : f.1 ∉ seen := by
      intro hm
      have := hs _ hm
      rw [e, List.map_append, List.map_cons] at hn
      exact (List.nodup_append.1 hn).2.2 _ this _ (List.mem_cons_self ..) rfl
    rw [if_neg hns, positional, ← e, knownField_ok (hv v (by simp)), members_zip fs hn rest (pre ++ [f]) vs (f.1 :: seen)
      (fun x hx => hv x (by simp [hx])) (by simp [e]) ?_ (by simpa using h)]
    intro k hk
    rw [List.map_append]
    rcases List.mem_cons.1 hk with rfl | hk
    · simp
    · exact List.mem_append_left _ (hs k hk)

theorem positional_length {fs : List Field} {vs : List Json} (h : positional fs vs = .ok ()) : vs.length = fs.length := by
  induction fs generalizing vs with
  | nil =>
    cases vs with
    | nil => rfl
    | cons v vs => cases h
  | cons f fs ih =>
    cases vs with
    | nil => cases h
    | cons v vs =>
      rw [positional] at h
      cases e : f.2 v with
      | error e' => rw [e] at h; cases h
      | ok u =>
        rw [e, De_bind_ok] at h
        simp [ih h]

theorem toList_inj {a b : String} (h : a.toList = b.toList) : a = b := String.toList_injective h

theorem anObject {α : Type} {de : Json → De α} {fs : List Field} {g : List (List Char × Json) → De α}
    {names optional : List String} (hd : ∀ j, de j = (struct fs j >>= g)) (hn : fs.map (·.1) = names.map String.toList)
    (hnd : names.Nodup)
    (hg : ∀ ms ms', (∀ k ∈ names, ms.lookup k.toList = ms'.lookup k.toList) → g ms = g ms')
    (hr : ∀ k ∈ names, k ∉ optional → ∀ ms a, ms.lookup k.toList = none → g ms ≠ .ok a)
    (ho : ∀ k ∈ optional, (∀ f ∈ fs, f.1 = k.toList → f.2 .null = .ok ()) ∧
      ∀ ms, ms.lookup k.toList = none → g ((k.toList, .null) :: ms) = g ms) : AnObject de names optional := by
  have hfn : (fs.map (·.1)).Nodup := by
    rw [hn]
    exact List.Pairwise.map _ (fun _ _ h e => h (toList_inj e)) hnd
  have hkn : ∀ k : String, known fs k.toList = true ↔ k ∈ names := by
    intro k
    rw [known, hn, List.contains_iff_mem, List.mem_map]
    exact ⟨fun ⟨x, hx, e⟩ => toList_inj e ▸ hx, fun h => ⟨k, h, rfl⟩⟩
  have hob : ∀ ms a, de (.obj ms) = .ok a ↔ members fs [] ms = .ok () ∧ g ms = .ok a := by
    intro ms a
    rw [hd, struct]
    cases members fs [] ms with
    | error e => simp
    | ok u => simp
  constructor
  · intro ms ms' a hp h
    obtain ⟨h1, h2⟩ := (hob ms a).1 h
    obtain ⟨m1, _, m3⟩ := (members_ok fs ms []).1 h1
    refine (hob ms' a).2 ⟨(members_ok fs ms' []).2 ⟨fun m hm => m1 m (hp.mem_iff.2 hm), by simp,
      ((hp.map _).filter _).nodup_iff.1 m3⟩, ?_⟩
    rw [← h2]
    exact (hg ms ms' (fun k hk => lookup_perm fs ((hkn k).2 hk) m3 hp)).symm
  · intro k v ms ms' hk hv
    rw [hd, hd, struct, struct, members_skip fs (by
      cases e : known fs k.toList with
      | false => rfl
      | true => exact absurd ((hkn k).1 e) hk) (intact_broken hv)]
    cases members fs [] (ms ++ ms') with
    | error e => rfl
    | ok u =>
      simp only [De_bind_ok, pure, Except.pure]
      refine hg _ _ (fun k' hk' => lookup_skip ?_)
      intro e
      exact hk (toList_inj e ▸ hk')
  · intro k j ms ms' a hk h
    have := ((members_ok fs _ []).1 ((hob _ a).1 h).1).1 (k.toList, .skip j) (by simp)
    unfold memberOk at this
    obtain ⟨f, hf⟩ := (known_iff fs _).1 ((hkn k).2 hk)
    simp only [hf] at this
    exact this.2 j rfl
  · intro k v v' l l' l'' a hk h
    have := ((members_ok fs _ []).1 ((hob _ a).1 h).1).2.2
    simp only [List.map_append, List.map_cons, List.filter_append, List.filter_cons, (hkn k).2 hk, if_true, List.append_assoc,
      List.cons_append] at this
    have h2 := (List.nodup_append.1 this).2.1
    exact (List.nodup_cons.1 h2).1 (List.mem_append_right _ (List.mem_cons_self ..))
  · intro k ms a hk hno hm h
    exact hr k hk hno ms a (lookup_none.2 hm) ((hob _ a).1 h).2
  · intro k ms a hk ho' hm
    obtain ⟨h1, h2⟩ := ho k ho'
    rw [hob, hob, h2 ms (lookup_none.2 hm), members_ok, members_ok]
    have hok : memberOk fs (k.toList, .null) := by
      unfold memberOk
      obtain ⟨f, hf⟩ := (known_iff fs _).1 ((hkn k).2 hk)
      simp only [hf]
      have := List.find?_some hf
      exact ⟨h1 f (List.mem_of_find?_eq_some hf) (of_decide_eq_true this), fun j e => (by cases e)⟩
    simp only [List.forall_mem_cons, hok, true_and, List.not_mem_nil, not_false_eq_true, implies_true, List.map_cons, List.filter_cons,
      (hkn k).2 hk, if_true, List.nodup_cons, List.mem_filter, and_true, hm]
  · intro vs hl hv
    have hl' : vs.length = fs.length := by
      have h2 := congrArg List.length hn
      rw [List.length_map, List.length_map] at h2
      exact hl.trans h2.symm
    rw [hd, hd, struct, struct, ← hn, members_zip fs hfn fs [] vs [] hv rfl (by simp) hl']
  · intro vs a hl h
    rw [hd, struct] at h
    cases e : positional fs vs with
    | error e' => rw [e] at h; cases h
    | ok u =>
      have := positional_length e
      have h2 := congrArg List.length hn
      rw [List.length_map, List.length_map] at h2
      exact hl (this.trans h2)
  · intro j a hj h
    rw [hd] at h
    cases j <;> first | exact hj | cases h

end De
end Klavier
