import Verif.Spec.JsonGrammar
import Verif.Spec.Format

/-! # What members that are skipped hold does not matter -/
set_option autoImplicit false
namespace Klavier
open Spec

theorem Spec.SameElems.length : ∀ {l l' : List Json}, SameElems l' l → l'.length = l.length
  | _, _, .nil => rfl
  | _, _, .cons _ h => by simp [Spec.SameElems.length h]

theorem Spec.SameElems.get : ∀ {l l' : List Json} {i : Nat} {v : Json}, SameElems l' l → l[i]? = some v →
    ∃ v', l'[i]? = some v' ∧ SameBut v' v
  | _, _, 0, _, .cons h _, e => by cases e; exact ⟨_, rfl, h⟩
  | _, _, i + 1, _, .cons _ h, e => by
    rw [List.getElem?_cons_succ] at e ⊢
    exact Spec.SameElems.get h e

theorem Spec.SameMembers.keys : ∀ {l l' : List (List Char × Json)}, SameMembers l' l → l'.map (·.1) = l.map (·.1)
  | _, _, .nil => rfl
  | _, _, .cons _ h => by simp [Spec.SameMembers.keys h]

theorem Spec.SameMembers.mem : ∀ {l l' : List (List Char × Json)} {k : List Char} {v : Json}, SameMembers l' l → (k, v) ∈ l →
    ∃ v', (k, v') ∈ l' ∧ SameBut v' v
  | _, _, _, _, .cons h h', e => by
    rcases List.mem_cons.1 e with e | e
    · cases e; exact ⟨_, List.mem_cons_self .., h⟩
    · obtain ⟨v', h1, h2⟩ := Spec.SameMembers.mem h' e
      exact ⟨v', List.mem_cons_of_mem _ h1, h2⟩

theorem Spec.SameMembers.mem' : ∀ {l l' : List (List Char × Json)} {k : List Char} {v' : Json}, SameMembers l' l → (k, v') ∈ l' →
    ∃ v, (k, v) ∈ l
  | _, _, _, _, .cons h h', e => by
    rcases List.mem_cons.1 e with e | e
    · cases e; exact ⟨_, List.mem_cons_self ..⟩
    · obtain ⟨v, h1⟩ := Spec.SameMembers.mem' h' e
      exact ⟨v, List.mem_cons_of_mem _ h1⟩

/-- `of` does not depend on what skipped members hold. -/
def Steady {α : Type} (of : Json → α → Prop) : Prop := ∀ j j' a, SameBut j' j → of j a → of j' a

section
variable {α β : Type} {of : Json → α → Prop} {names : List String} {name : String}

theorem hasMember_steady {j j' v : Json} (h : SameBut j' j) (hm : HasMember names name j v) :
    ∃ v', HasMember names name j' v' ∧ SameBut v' v := by
  cases hm with
  | obj hv =>
    cases h with
    | same => exact ⟨v, .obj hv, .same v⟩
    | obj h => obtain ⟨v', h1, h2⟩ := h.mem hv; exact ⟨v', .obj h1, h2⟩
  | arr i hi hv =>
    cases h with
    | same => exact ⟨v, .arr i hi hv, .same v⟩
    | arr h => obtain ⟨v', h1, h2⟩ := h.get hv; exact ⟨v', .arr i hi h1, h2⟩

theorem hasMember_steady' {j j' v' : Json} (h : SameBut j' j) (hj : ∀ i, j ≠ .skip i) (hm : HasMember names name j' v') :
    ∃ v, HasMember names name j v := by
  cases h with
  | same => exact ⟨v', hm⟩
  | skipped i => exact absurd rfl (hj i)
  | obj h => cases hm with | obj hv => obtain ⟨v, hv⟩ := h.mem' hv; exact ⟨v, .obj hv⟩
  | @arr l l' h =>
    cases hm with
    | arr i hi hv =>
      have : i < l.length := h.length ▸ (List.getElem?_eq_some_iff.1 hv).1
      exact ⟨l[i], .arr i hi (List.getElem?_eq_getElem this)⟩

theorem isStruct_steady {j j' : Json} (h : SameBut j' j) (hs : IsStruct names j) : IsStruct names j' := by
  cases hs with
  | obj hc =>
    cases h with
    | same => exact .obj hc
    | obj h => exact .obj (by rw [h.keys]; exact hc)
  | arr hl =>
    cases h with
    | same => exact .arr hl
    | arr h => exact .arr (by rw [h.length]; exact hl)

theorem isStruct_read {j : Json} (hs : IsStruct names j) : ∀ i, j ≠ .skip i := by
  intro i e; subst e; cases hs

theorem member_steady {j j' : Json} {a : α} (hf : Steady of) (h : SameBut j' j) (hm : Member names name of j a) :
    Member names name of j' a := by
  obtain ⟨v, h1, h2⟩ := hm
  obtain ⟨v', h3, h4⟩ := hasMember_steady h h1
  exact ⟨v', h3, hf _ _ _ h4 h2⟩

theorem isOption_steady (hf : Steady of) : Steady (IsOption of) := by
  rintro j j' o h (⟨rfl, rfl⟩ | ⟨a, h1, rfl⟩)
  · cases h; exact .inl ⟨rfl, rfl⟩
  · exact .inr ⟨a, hf _ _ _ h h1, rfl⟩

theorem maybeMember_steady {j j' : Json} {o : Option α} (hf : Steady of) (h : SameBut j' j) (hj : ∀ i, j ≠ .skip i)
    (hm : MaybeMember names name of j o) : MaybeMember names name of j' o := by
  rcases hm with hm | ⟨rfl, hm⟩
  · exact .inl (member_steady (isOption_steady hf) h hm)
  · refine .inr ⟨rfl, fun v' hv' => ?_⟩
    obtain ⟨v, hv⟩ := hasMember_steady' h hj hv'
    exact hm v hv

theorem each_steady (hf : Steady of) : ∀ {l l' : List Json} {as : List α}, SameElems l' l → Each of l as → Each of l' as
  | _, _, _, .nil, .nil => .nil
  | _, _, _, .cons h h', .cons e e' => .cons (hf _ _ _ h e) (each_steady hf h' e')

theorem isList_steady (hf : Steady of) : Steady (IsList of) := by
  rintro j j' l h ⟨vs, rfl, he⟩
  cases h with
  | same => exact ⟨vs, rfl, he⟩
  | arr h => exact ⟨_, rfl, each_steady hf h he⟩

theorem isNat_steady (max : Nat) : Steady (IsNat max) := by
  rintro j j' n h ⟨rfl, h1⟩
  cases h; exact ⟨rfl, h1⟩

theorem isInt_steady (lo hi : Int) : Steady (IsInt lo hi) := by
  rintro j j' n h ⟨⟨m, rfl, e⟩ | ⟨m, rfl, e⟩, h1⟩
  · cases h; exact ⟨.inl ⟨m, rfl, e⟩, h1⟩
  · cases h; exact ⟨.inr ⟨m, rfl, e⟩, h1⟩

theorem isBool_steady : Steady IsBool := by
  rintro j j' b h rfl
  cases h; rfl

theorem isName_steady (text : α → String) : Steady (fun v a => IsName (text a) v) := by
  rintro j j' a h (rfl | rfl)
  · cases h; exact .inl rfl
  · cases h with
    | same => exact .inr rfl
    | obj h => cases h with | cons h h' => cases h; cases h'; exact .inr rfl

theorem isNat_map_steady (max : Nat) (p : Nat → α → Prop) : Steady (fun v a => ∃ n, IsNat max v n ∧ p n a) := by
  rintro j j' a h ⟨n, h1, h2⟩
  exact ⟨n, isNat_steady max _ _ _ h h1, h2⟩
end

theorem isPitch_steady : Steady IsPitch := by
  rintro j j' p h ⟨h0, h1, h2, h3, h4⟩
  exact ⟨isStruct_steady h h0, member_steady (isName_steady _) h h1, member_steady (isName_steady _) h h2,
    member_steady (isName_steady _) h h3, h4⟩

theorem isDuration_steady : Steady IsDuration := by
  rintro j j' p h ⟨h0, h1, h2, h3⟩
  exact ⟨isStruct_steady h h0, member_steady (isName_steady _) h h1, member_steady (isNat_map_steady _ _) h h2,
    member_steady (isNat_steady _) h h3⟩

theorem isTrimmer_steady : Steady IsTrimmer := by
  rintro j j' p h ⟨h0, h1, h2⟩
  exact ⟨isStruct_steady h h0, member_steady (isList_steady (isInt_steady _ _)) h h1, h2⟩

theorem isPercent_steady : Steady IsPercent := by
  rintro j j' p h ⟨h0, h1⟩
  exact ⟨isStruct_steady h h0, member_steady (isNat_steady _) h h1⟩

theorem isRate_steady : Steady IsRate := by
  rintro j j' p h ⟨h0, h1, h2⟩
  exact ⟨isStruct_steady h h0, member_steady (isList_steady isPercent_steady) h h1, h2⟩

theorem isVelocity_steady : Steady IsVelocity := isNat_map_steady _ _

theorem isNote_steady : Steady IsNote := by
  rintro j j' p h ⟨h0, h1, h2, h3, h4, h5, h6, h7, h8, h9, h10⟩
  exact ⟨isStruct_steady h h0, member_steady (isNat_steady _) h h1, member_steady isPitch_steady h h2,
    member_steady isDuration_steady h h3, member_steady isBool_steady h h4, member_steady isBool_steady h h5,
    member_steady isVelocity_steady h h6, member_steady isTrimmer_steady h h7, member_steady isRate_steady h h8,
    member_steady isTrimmer_steady h h9, member_steady (isNat_steady _) h h10⟩

theorem isRhythm_steady : Steady IsRhythm := by
  rintro j j' p h ⟨h0, h1, h2⟩
  exact ⟨isStruct_steady h h0, member_steady (isNat_steady _) h h1, member_steady (isName_steady _) h h2⟩

theorem isKey_steady : Steady IsKey := fun _ _ _ h h' => isInt_steady _ _ _ _ _ h h'

theorem isMarks_steady : Steady IsMarks := by
  rintro j j' p h ⟨h0, h1⟩
  exact ⟨isStruct_steady h h0, member_steady (isNat_map_steady _ _) h h1⟩

theorem isBar_steady : Steady IsBar := by
  rintro j j' p h ⟨h0, h1, h2, h3, h4⟩
  exact ⟨isStruct_steady h h0, member_steady (isNat_steady _) h h1, maybeMember_steady isRhythm_steady h (isStruct_read h0) h2,
    maybeMember_steady isKey_steady h (isStruct_read h0) h3, member_steady isMarks_steady h h4⟩

theorem isTempo_steady : Steady IsTempo := by
  rintro j j' p h ⟨h0, h1, h2⟩
  exact ⟨isStruct_steady h h0, member_steady (isNat_steady _) h h1, member_steady (isNat_map_steady _ _) h h2⟩

theorem isPedal_steady : Steady IsPedal := by
  rintro j j' p h ⟨h0, h1, h2, h3⟩
  exact ⟨isStruct_steady h h0, member_steady (isNat_steady _) h h1, member_steady isVelocity_steady h h2,
    member_steady (isNat_steady _) h h3⟩

theorem isSelection_steady : Steady IsSelection := by
  rintro j j' p h ⟨h0, h1, h2, h3, h4, h5⟩
  exact ⟨isStruct_steady h h0, member_steady (isList_steady isNote_steady) h h1, member_steady (isList_steady isBar_steady) h h2,
    member_steady (isList_steady isTempo_steady) h h3, member_steady (isList_steady isPedal_steady) h h4,
    member_steady (isList_steady isPedal_steady) h h5⟩

theorem isClipProject_steady : Steady IsClipProject := by
  rintro j j' p h ⟨h0, h6, h7, h1, h2, h3, h4, h5⟩
  exact ⟨isStruct_steady h h0, maybeMember_steady isKey_steady h (isStruct_read h0) h6,
    maybeMember_steady isRhythm_steady h (isStruct_read h0) h7, member_steady (isList_steady isNote_steady) h h1,
    member_steady (isList_steady isBar_steady) h h2, member_steady (isList_steady isTempo_steady) h h3,
    member_steady (isList_steady isPedal_steady) h h4, member_steady (isList_steady isPedal_steady) h h5⟩

end Klavier
