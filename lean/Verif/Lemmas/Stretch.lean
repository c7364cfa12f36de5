import Verif.Spec.Stretch
import Verif.Lemmas.RenderAll

/-! # Lemmas for C82 -/
set_option autoImplicit false
namespace Klavier
namespace Stretch
open Spec GlobalRepeatBuilder

/-- Lists of the same length with related elements. -/
inductive Along {α : Type} (P : α → α → Prop) : List α → List α → Prop
  | nil : Along P [] []
  | cons {a b : α} {l m : List α} : P a b → Along P l m → Along P (a :: l) (b :: m)

theorem Along.append {α : Type} {P : α → α → Prop} {l m l' m' : List α} (h : Along P l m) (h' : Along P l' m') :
    Along P (l ++ l') (m ++ m') := by
  induction h with
  | nil => exact h'
  | cons a _ ih => exact .cons a ih

theorem Along.length {α : Type} {P : α → α → Prop} {l m : List α} (h : Along P l m) : l.length = m.length := by
  induction h with
  | nil => rfl
  | cons _ _ ih => simp [ih]

/-- Both none, or both some and related. -/
inductive Maybe {α : Type} (P : α → α → Prop) : Option α → Option α → Prop
  | none : Maybe P none none
  | some {a b : α} : P a b → Maybe P (some a) (some b)

theorem Along.head {α : Type} {P : α → α → Prop} {l m : List α} (h : Along P l m) : Maybe P l.head? m.head? := by
  cases h with
  | nil => exact .none
  | cons a _ => exact .some a

theorem Along.last {α : Type} {P : α → α → Prop} {l m : List α} (h : Along P l m) : Maybe P l.getLast? m.getLast? := by
  induction h with
  | nil => exact .none
  | cons a h ih =>
    rw [List.getLast?_cons, List.getLast?_cons]
    revert ih
    generalize List.getLast? _ = u
    generalize List.getLast? _ = v
    intro ih
    cases ih with
    | none => exact .some a
    | some b => exact .some b

/-- The same panic, the same error at other ticks, or related values. -/
inductive Alike {α : Type} (φ : Nat → Nat) (P : α → α → Prop) : RR α → RR α → Prop
  | panic (p : Panic) : Alike φ P (.error (.panic p)) (.error (.panic p))
  | err (e : RenderRegionError) : Alike φ P (.error (.err e)) (.error (.err (errorAt φ e)))
  | ok {a b : α} : P a b → Alike φ P (.ok a) (.ok b)

theorem Alike.bind {α β : Type} {φ : Nat → Nat} {P : α → α → Prop} {Q : β → β → Prop} {a b : RR α} {f g : α → RR β}
    (h : Alike φ P a b) (hf : ∀ x y, P x y → Alike φ Q (f x) (g y)) : Alike φ Q (a >>= f) (b >>= g) := by
  cases h with
  | panic p => exact .panic p
  | err e => exact .err e
  | ok h => exact hf _ _ h

/-- The same panic or related values. -/
inductive AlikeR {α : Type} (P : α → α → Prop) : R α → R α → Prop
  | panic (p : Panic) : AlikeR P (.error p) (.error p)
  | ok {a b : α} : P a b → AlikeR P (.ok a) (.ok b)

theorem AlikeR.bind {α β : Type} {P : α → α → Prop} {Q : β → β → Prop} {a b : R α} {f g : α → R β}
    (h : AlikeR P a b) (hf : ∀ x y, P x y → AlikeR Q (f x) (g y)) : AlikeR Q (a >>= f) (b >>= g) := by
  cases h with
  | panic p => exact .panic p
  | ok h => exact hf _ _ h

theorem AlikeR.lift {α : Type} {φ : Nat → Nat} {P : α → α → Prop} {a b : R α} (h : AlikeR P a b) :
    Alike φ P (liftR a) (liftR b) := by
  cases h with
  | panic p => exact .panic p
  | ok h => exact .ok h

/-- A set of ticks that `φ` keeps in order. -/
structure Order (φ : Nat → Nat) (T : Nat → Prop) : Prop where
  zero : T 0
  top : T U32_MAX
  first : φ 0 = 0
  last : φ U32_MAX = U32_MAX
  order : ∀ a b, T a → T b → (φ a < φ b ↔ a < b)

variable {φ : Nat → Nat} {T : Nat → Prop}

/-- The tick goes there. -/
def M (φ : Nat → Nat) (T : Nat → Prop) (a b : Nat) : Prop := T a ∧ b = φ a

theorem Order.m0 (o : Order φ T) : M φ T 0 0 := ⟨o.zero, o.first.symm⟩
theorem Order.mtop (o : Order φ T) : M φ T U32_MAX U32_MAX := ⟨o.top, o.last.symm⟩
theorem Order.lt (o : Order φ T) {a b a' b' : Nat} (h : M φ T a a') (h' : M φ T b b') : a' < b' ↔ a < b := by
  rw [h.2, h'.2]; exact o.order a b h.1 h'.1
theorem Order.le (o : Order φ T) {a b a' b' : Nat} (h : M φ T a a') (h' : M φ T b b') : a' ≤ b' ↔ a ≤ b := by
  have := o.lt h' h; omega
theorem Order.eq (o : Order φ T) {a b a' b' : Nat} (h : M φ T a a') (h' : M φ T b b') : a' = b' ↔ a = b := by
  have := o.lt h' h; have := o.lt h h'; omega
theorem Order.pos (o : Order φ T) {a a' : Nat} (h : M φ T a a') : a' = 0 ↔ a = 0 := o.eq h o.m0

/-! ## Interval sets -/

/-- Intervals whose ends (exclusive) go there. -/
def I (φ : Nat → Nat) (T : Nat → Prop) (i j : Nat × Nat) : Prop := M φ T i.1 j.1 ∧ M φ T (i.2 + 1) (j.2 + 1)

theorem pred (o : Order φ T) {a a' : Nat} (h : M φ T a a') : AlikeR (fun x y => M φ T (x + 1) (y + 1)) (subU32 a 1) (subU32 a' 1) := by
  have h0 := o.pos h
  unfold subU32
  by_cases e : a = 0
  · rw [if_neg (by omega), if_neg (by omega)]
    exact .panic _
  · rw [if_pos (by omega), if_pos (by omega)]
    refine .ok ?_
    rw [show a - 1 + 1 = a by omega, show a' - 1 + 1 = a' by omega]
    exact h

theorem m_min (o : Order φ T) {a b a' b' : Nat} (h : M φ T a a') (h' : M φ T b b') : M φ T (min a b) (min a' b') := by
  have := o.le h h'
  by_cases e : a ≤ b
  · rw [Nat.min_eq_left e, Nat.min_eq_left (this.2 e)]; exact h
  · rw [Nat.min_eq_right (by omega), Nat.min_eq_right (by omega)]; exact h'

theorem m_max (o : Order φ T) {a b a' b' : Nat} (h : M φ T a a') (h' : M φ T b b') : M φ T (max a b) (max a' b') := by
  have := o.le h h'
  by_cases e : a ≤ b
  · rw [Nat.max_eq_right e, Nat.max_eq_right (this.2 e)]; exact h'
  · rw [Nat.max_eq_left (by omega), Nat.max_eq_left (by omega)]; exact h

theorem m_max1 (o : Order φ T) {a b a' b' : Nat} (h : M φ T (a + 1) (a' + 1)) (h' : M φ T (b + 1) (b' + 1)) :
    M φ T (max a b + 1) (max a' b' + 1) := by
  have := m_max o h h'
  rwa [Nat.add_max_add_right, Nat.add_max_add_right] at this

theorem m_min1 (o : Order φ T) {a b a' b' : Nat} (h : M φ T (a + 1) (a' + 1)) (h' : M φ T (b + 1) (b' + 1)) :
    M φ T (min a b + 1) (min a' b' + 1) := by
  have := m_min o h h'
  rwa [Nat.add_min_add_right, Nat.add_min_add_right] at this

theorem insert_alike (o : Order φ T) {s s' : IntervalSet} (h : Along (I φ T) s s') : ∀ {lo hi lo' hi' : Nat}, M φ T lo lo' →
    M φ T (hi + 1) (hi' + 1) → Along (I φ T) (IntervalSet.insert lo hi s) (IntervalSet.insert lo' hi' s') := by
  induction h with
  | nil => intro lo hi lo' hi' h1 h2; exact .cons ⟨h1, h2⟩ .nil
  | @cons a b l m hab hl ih =>
    intro lo hi lo' hi' h1 h2
    obtain ⟨a1, a2⟩ := a
    obtain ⟨b1, b2⟩ := b
    have c1 := o.lt h2 hab.1
    have c2 := o.lt hab.2 h1
    simp only at c1 c2
    unfold IntervalSet.insert
    by_cases e1 : hi + 1 < a1
    · rw [if_pos e1, if_pos (c1.2 e1)]
      exact .cons ⟨h1, h2⟩ (.cons hab hl)
    · rw [if_neg e1, if_neg (mt c1.1 e1)]
      by_cases e2 : a2 + 1 < lo
      · rw [if_pos e2, if_pos (c2.2 e2)]
        exact .cons hab (ih h1 h2)
      · rw [if_neg e2, if_neg (mt c2.1 e2)]
        exact ih (m_min o h1 hab.1) (m_max1 o h2 hab.2)

theorem union_alike (o : Order φ T) {s s' t t' : IntervalSet} (h : Along (I φ T) s s') (ht : Along (I φ T) t t') :
    Along (I φ T) (s.union t) (s'.union t') := by
  unfold IntervalSet.union
  induction h with
  | nil => exact ht
  | cons hab _ ih => exact insert_alike o ih hab.1 hab.2

theorem inter_alike (o : Order φ T) {s s' t t' : IntervalSet} (h : Along (I φ T) s s') (ht : Along (I φ T) t t') :
    Along (I φ T) (s.inter t) (s'.inter t') := by
  unfold IntervalSet.inter
  induction h with
  | nil => exact .nil
  | @cons a b l m hab _ ih =>
    simp only [List.foldr_cons]
    revert ih
    generalize List.foldr (fun (i : Nat × Nat) u => t.foldr (fun j u => if max i.1 j.1 ≤ min i.2 j.2 then
      IntervalSet.insert (max i.1 j.1) (min i.2 j.2) u else u) u) [] l = u
    generalize List.foldr (fun (i : Nat × Nat) u => t'.foldr (fun j u => if max i.1 j.1 ≤ min i.2 j.2 then
      IntervalSet.insert (max i.1 j.1) (min i.2 j.2) u else u) u) [] m = u'
    intro hu
    induction ht with
    | nil => exact hu
    | @cons c d l m hcd _ ih =>
      simp only [List.foldr_cons]
      have h1 := m_max o hab.1 hcd.1
      have h2 := m_min1 o hab.2 hcd.2
      have hc := o.lt h1 h2
      by_cases e : max a.1 c.1 ≤ min a.2 c.2
      · rw [if_pos e, if_pos (by omega)]
        exact insert_alike o ih h1 h2
      · rw [if_neg e, if_neg (by omega)]
        exact ih

theorem ofPairs_alike (o : Order φ T) (ip : Bool) {l l' : List (Nat × Nat)} (h : Along (I φ T) l l') :
    AlikeR (Along (I φ T)) (IntervalSet.ofPairs ip l) (IntervalSet.ofPairs ip l') := by
  induction h with
  | nil => exact .ok .nil
  | @cons a b l m hab _ ih =>
    obtain ⟨a1, a2⟩ := a
    obtain ⟨b1, b2⟩ := b
    have c := o.lt hab.1 hab.2
    simp only at c
    unfold IntervalSet.ofPairs
    by_cases e : a1 ≤ a2
    · have e' : b1 ≤ b2 := by omega
      rw [if_pos e, if_pos e']
      exact ih.bind fun x y hxy => .ok (insert_alike o hxy hab.1 hab.2)
    · have e' : ¬ b1 ≤ b2 := by omega
      rw [if_neg e, if_neg e']
      cases ip with
      | true => exact .panic _
      | false => exact ih

/-! ## The jump -/

inductive DsDcR (φ : Nat → Nat) (T : Nat → Prop) : DsDc → DsDc → Prop
  | dc {t t' l l' : Nat} : M φ T t t' → M φ T l l' → DsDcR φ T (.dc t l) (.dc t' l')
  | ds {t t' : Nat} : M φ T t t' → DsDcR φ T (.ds t) (.ds t')

inductive CodaR (φ : Nat → Nat) (T : Nat → Prop) : Coda → Coda → Prop
  | one {t t' : Nat} : M φ T t t' → CodaR φ T (.one t) (.one t')
  | two {a a' b b' : Nat} : M φ T a a' → M φ T b b' → CodaR φ T (.two a b) (.two a' b')

/-- The same marks have been met. -/
structure G (φ : Nat → Nat) (T : Nat → Prop) (g g' : GlobalRepeatBuilder) : Prop where
  dsDc : Maybe (DsDcR φ T) g.dsDc g'.dsDc
  fine : Maybe (M φ T) g.fine g'.fine
  segno : Maybe (M φ T) g.segno g'.segno
  coda : Maybe (CodaR φ T) g.coda g'.coda
  firstBarLen : Maybe (M φ T) g.firstBarLen g'.firstBarLen
  warnings : g'.warnings = g.warnings.map (warningAt φ)

theorem g_note (o : Order φ T) {g g' : GlobalRepeatBuilder} (h : G φ T g g') {x y : Bar} (hx : M φ T x.startTick y.startTick) :
    G φ T (g.noteFirstBar x) (g'.noteFirstBar y) := by
  obtain ⟨a, b, c, d, f, r, w⟩ := g
  obtain ⟨a', b', c', d', f', r', w'⟩ := g'
  obtain ⟨h1, h2, h3, h4, h5, h6⟩ := h
  simp only at h1 h2 h3 h4 h5 h6
  have h0 := o.pos hx
  unfold noteFirstBar
  cases h5 with
  | some h5 => exact ⟨h1, h2, h3, h4, .some h5, h6⟩
  | none =>
    by_cases e : x.startTick = 0
    · simp only [e, h0.2 e, if_true]
      cases x.rhythm <;> cases y.rhythm <;> exact ⟨h1, h2, h3, h4, .none, h6⟩
    · simp only [e, mt h0.1 e, if_false]
      exact ⟨h1, h2, h3, h4, .some hx, h6⟩

theorem g_addIf {f f' : GlobalRepeatBuilder → RR GlobalRepeatBuilder} (b : Bool)
    (hf : ∀ g g', G φ T g g' → Alike φ (G φ T) (f g) (f' g')) {g g' : GlobalRepeatBuilder} (h : G φ T g g') :
    Alike φ (G φ T) (addIf b f g) (addIf b f' g') := by
  cases b with
  | true => exact hf g g' h
  | false => exact .ok h

theorem g_onBar (o : Order φ T) {g g' : GlobalRepeatBuilder} (h : G φ T g g') {x y : Bar} (hx : M φ T x.startTick y.startTick)
    (hm : y.repeats = x.repeats) : Alike φ (G φ T) (g.onBar x) (g'.onBar y) := by
  unfold onBar
  rw [hm]
  refine Alike.bind (P := G φ T) (g_addIf _ (fun g g' h => ?_) (g_note o h hx)) fun g g' h => ?_
  · obtain ⟨a, b, c, d, f, r, w⟩ := g
    obtain ⟨a', b', c', d', f', r', w'⟩ := g'
    obtain ⟨h1, h2, h3, h4, h5, h6⟩ := h
    simp only at h1 h2 h3 h4 h5 h6
    unfold addingDc
    cases h1 with
    | none =>
      refine .ok ⟨.some (.dc hx ?_), h2, h3, h4, h5, h6⟩
      cases h5 with
      | none => exact o.m0
      | some h => exact h
    | some h1 =>
      cases h1 with
      | dc ha hb => simp only [ha.2, hx.2]; exact .err _
      | ds ha => simp only [ha.2, hx.2]; exact .err _
  refine Alike.bind (P := G φ T) (g_addIf _ (fun g g' h => ?_) h) fun g g' h => ?_
  · obtain ⟨a, b, c, d, f, r, w⟩ := g
    obtain ⟨a', b', c', d', f', r', w'⟩ := g'
    obtain ⟨h1, h2, h3, h4, h5, h6⟩ := h
    simp only at h1 h2 h3 h4 h5 h6
    unfold addingDs
    cases h1 with
    | none => exact .ok ⟨.some (.ds hx), h2, h3, h4, h5, h6⟩
    | some h1 =>
      cases h1 with
      | dc ha hb => simp only [ha.2, hx.2]; exact .err _
      | ds ha => simp only [ha.2, hx.2]; exact .err _
  refine Alike.bind (P := G φ T) (g_addIf _ (fun g g' h => ?_) h) fun g g' h => ?_
  · obtain ⟨a, b, c, d, f, r, w⟩ := g
    obtain ⟨a', b', c', d', f', r', w'⟩ := g'
    obtain ⟨h1, h2, h3, h4, h5, h6⟩ := h
    simp only at h1 h2 h3 h4 h5 h6
    unfold addingFine
    cases h2 with
    | none => exact .ok ⟨h1, .some hx, h3, h4, h5, h6⟩
    | some h2 => simp only [h2.2, hx.2]; exact .err _
  refine Alike.bind (P := G φ T) (g_addIf _ (fun g g' h => ?_) h) fun g g' h => ?_
  · obtain ⟨a, b, c, d, f, r, w⟩ := g
    obtain ⟨a', b', c', d', f', r', w'⟩ := g'
    obtain ⟨h1, h2, h3, h4, h5, h6⟩ := h
    simp only at h1 h2 h3 h4 h5 h6
    unfold addingSegno
    cases h3 with
    | none => exact .ok ⟨h1, h2, .some hx, h4, h5, h6⟩
    | some h3 => simp only [h3.2, hx.2]; exact .err _
  refine g_addIf _ (fun g g' h => ?_) h
  obtain ⟨a, b, c, d, f, r, w⟩ := g
  obtain ⟨a', b', c', d', f', r', w'⟩ := g'
  obtain ⟨h1, h2, h3, h4, h5, h6⟩ := h
  simp only at h1 h2 h3 h4 h5 h6
  unfold addingCoda
  cases h4 with
  | none => exact .ok ⟨h1, h2, h3, .some (.one hx), h5, h6⟩
  | some h4 =>
    cases h4 with
    | one ha => exact .ok ⟨h1, h2, h3, .some (.two ha hx), h5, h6⟩
    | two ha hb => simp only [ha.2, hb.2, hx.2]; exact .err _

/-- The second pass goes over the same bars. -/
def Gr (φ : Nat → Nat) (T : Nat → Prop) (g g' : GlobalRepeat) : Prop :=
  M φ T g.dsDc.tick g'.dsDc.tick ∧ Along (I φ T) g.iter1 g'.iter1

/-- Where it goes to and from, and the warnings. -/
def Built (φ : Nat → Nat) (T : Nat → Prop) (a b : Option GlobalRepeat × List RenderRegionWarning) : Prop :=
  Maybe (Gr φ T) a.1 b.1 ∧ b.2 = a.2.map (warningAt φ)

theorem set_alike (o : Order φ T) (ip : Bool) {s s' : Nat} (hs : M φ T s s') {f f' : Option Nat} (hf : Maybe (M φ T) f f')
    {c c' : Option (Nat × Nat)} (hc : Maybe (fun a b => M φ T a.1 b.1 ∧ M φ T a.2 b.2) c c') :
    AlikeR (Along (I φ T)) (toIntervalSet ip s f c) (toIntervalSet ip s' f' c') := by
  have he : M φ T (f.getD U32_MAX) (f'.getD U32_MAX) := by
    cases hf with
    | none => exact o.mtop
    | some h => exact h
  unfold toIntervalSet
  cases hc with
  | some h =>
    refine (pred o h.1).bind fun a a' ha => ?_
    refine (pred o he).bind fun b b' hb => ?_
    exact ofPairs_alike o ip (.cons ⟨hs, ha⟩ (.cons ⟨h.2, hb⟩ .nil))
  | none =>
    have := o.le he hs
    by_cases e : f.getD U32_MAX ≤ s
    · simp only [e, this.2 e, if_true]
      exact .ok .nil
    · simp only [e, mt this.1 e, if_false]
      refine (pred o he).bind fun b b' hb => ?_
      exact ofPairs_alike o ip (.cons ⟨hs, hb⟩ .nil)

theorem check_alike (o : Order φ T) {a a' b b' : Nat} (ha : M φ T a a') (hb : M φ T b b') {f f' : Option Nat}
    (hf : Maybe (M φ T) f f') : Alike φ (fun _ _ => True) (checkCodaPos a b f) (checkCodaPos a' b' f') := by
  unfold checkCodaPos
  cases hf with
  | none => exact .ok trivial
  | @some x y h =>
    have := o.lt h hb
    by_cases e : x < b
    · simp only [e, this.2 e, if_true]
      rw [ha.2, hb.2, h.2]
      exact .err _
    · simp only [e, mt this.1 e, if_false]
      exact .ok trivial

theorem build_alike (o : Order φ T) (ip : Bool) {g g' : GlobalRepeatBuilder} (h : G φ T g g')
    (hi : ∀ t l f t' l' f', g.dsDc = some (.dc t l) → g'.dsDc = some (.dc t' l') → g.firstBarLen = some f →
      g'.firstBarLen = some f' → g.segno = none → AlikeR (M φ T) (g.implicitSegno l f) (g'.implicitSegno l' f')) :
    Alike φ (Built φ T) (g.build ip) (g'.build ip) := by
  obtain ⟨a, b, c, d, f, r, w⟩ := g
  obtain ⟨a', b', c', d', f', r', w'⟩ := g'
  obtain ⟨h1, h2, h3, h4, h5, h6⟩ := h
  simp only at h1 h2 h3 h4 h5 h6
  unfold build
  cases h1 with
  | none => exact .ok ⟨.none, h6⟩
  | some h1 =>
    cases h1 with
    | @dc t t' l l' ht hl =>
      cases h5 with
      | none => exact .ok ⟨.none, h6⟩
      | @some f f' hf =>
        refine Alike.bind (P := fun x y => M φ T x.1 y.1 ∧ y.2 = x.2.map (warningAt φ)) ?_ ?_
        · unfold dcSegno
          cases h3 with
          | some hs => exact .ok ⟨hs, by simp [h6, warningAt, hs.2, ht.2]⟩
          | none => exact (hi t l f t' l' f' rfl rfl rfl rfl rfl).lift.bind fun x y hxy => .ok ⟨hxy, h6⟩
        · rintro ⟨s, v⟩ ⟨s', v'⟩ ⟨hs, hv⟩
          refine Alike.bind (P := fun x y => Maybe (fun a b => M φ T a.1 b.1 ∧ M φ T a.2 b.2) x.1 y.1 ∧
            y.2 = x.2.map (warningAt φ)) ?_ ?_
          · unfold dcCoda
            cases h4 with
            | none => exact .ok ⟨.none, hv⟩
            | some h4 =>
              cases h4 with
              | one hx => exact .ok ⟨.none, by simp only at hv; simp [hv, warningAt, hx.2]⟩
              | two hx hy => exact (check_alike o hx hy h2).bind fun _ _ _ => .ok ⟨.some ⟨hx, hy⟩, hv⟩
          · rintro ⟨k, v⟩ ⟨k', v'⟩ ⟨hk, hv⟩
            exact (set_alike o ip hs h2 hk).lift.bind fun x y hxy => .ok ⟨.some ⟨ht, hxy⟩, hv⟩
    | @ds t t' ht =>
      refine Alike.bind (P := M φ T) ?_ fun s s' hs => ?_
      · unfold dsSegno
        cases h3 with
        | some hs => exact .ok hs
        | none => simp only [ht.2]; exact .err _
      · refine Alike.bind (P := Maybe (fun a b => M φ T a.1 b.1 ∧ M φ T a.2 b.2)) ?_ fun k k' hk => ?_
        · unfold dsCoda
          cases h4 with
          | none => exact .ok .none
          | some h4 =>
            cases h4 with
            | one hx => simp only [hx.2]; exact .err _
            | two hx hy => exact (check_alike o hx hy h2).bind fun _ _ _ => .ok (.some ⟨hx, hy⟩)
        · exact (set_alike o ip hs h2 hk).lift.bind fun x y hxy => .ok ⟨.some ⟨ht, hxy⟩, h6⟩

/-! ## Regions -/

def Sq (φ : Nat → Nat) (T : Nat → Prop) (r r' : SequenceRegion) : Prop := M φ T r.start r'.start ∧ M φ T r.stop r'.stop

inductive Rg (φ : Nat → Nat) (T : Nat → Prop) : SimpleRegion → SimpleRegion → Prop
  | seq {r r' : SequenceRegion} : Sq φ T r r' → Rg φ T (.seq r) (.seq r')
  | rep {r r' : SequenceRegion} : Sq φ T r r' → Rg φ T (.rep r) (.rep r')
  | var {c c' : SequenceRegion} {vs vs' : List SequenceRegion} : Sq φ T c c' → Along (Sq φ T) vs vs' → Rg φ T (.var c vs) (.var c' vs')

inductive St (φ : Nat → Nat) (T : Nat → Prop) : RenderState → RenderState → Prop
  | idle : St φ T .idle .idle
  | seq {s s' : Nat} : M φ T s s' → St φ T (.seq s) (.seq s')
  | repeatStart {s s' : Nat} : M φ T s s' → St φ T (.repeatStart s) (.repeatStart s')
  | variation {s s' : Nat} {ts ts' : List Nat} : M φ T s s' → Along (M φ T) ts ts' → St φ T (.variation s ts) (.variation s' ts')

theorem variations_alike {ts ts' : List Nat} (h : Along (M φ T) ts ts') : ∀ {t t' e e' : Nat}, M φ T t t' → M φ T e e' →
    Along (Sq φ T) (variationsFrom t ts e) (variationsFrom t' ts' e') := by
  induction h with
  | nil => intro t t' e e' h1 h2; exact .cons ⟨h1, h2⟩ .nil
  | cons hab _ ih => intro t t' e e' h1 h2; exact .cons ⟨h1, hab⟩ (ih hab h2)

/-- What one bar line brings. -/
def Step (φ : Nat → Nat) (T : Nat → Prop) (a b : List SimpleRegion × RenderState) : Prop :=
  Along (Rg φ T) a.1 b.1 ∧ St φ T a.2 b.2

theorem step_alike (o : Order φ T) {sg sg' : Option Nat} (hs : Maybe (M φ T) sg sg') {st st' : RenderState} (h : St φ T st st')
    {x y : Bar} (hx : M φ T x.startTick y.startTick) (hm : y.repeats = x.repeats) :
    Alike φ (Step φ T) (renderStep sg st x) (renderStep sg' st' y) := by
  have e0 := hx.2
  unfold renderStep
  rw [hm]
  simp only
  cases h with
  | idle =>
    simp only
    split
    · exact .ok ⟨.cons (.rep ⟨o.m0, hx⟩) .nil, .repeatStart hx⟩
    · split
      · exact .ok ⟨.cons (.rep ⟨o.m0, hx⟩) .nil, .seq hx⟩
      · split
        · exact .ok ⟨.cons (.seq ⟨o.m0, hx⟩) .nil, .repeatStart hx⟩
        · split
          · split
            · rw [e0]; exact .err _
            · exact .ok ⟨.nil, .variation o.m0 (.cons hx .nil)⟩
          · exact .ok ⟨.nil, .idle⟩
  | seq h =>
    simp only
    split
    · rw [e0]; exact .err _
    · split
      · exact .ok ⟨.cons (.seq ⟨h, hx⟩) .nil, .repeatStart hx⟩
      · exact .ok ⟨.nil, .seq h⟩
  | repeatStart h =>
    simp only
    split
    · exact .ok ⟨.cons (.rep ⟨h, hx⟩) .nil, .repeatStart hx⟩
    · split
      · exact .ok ⟨.cons (.rep ⟨h, hx⟩) .nil, .seq hx⟩
      · split
        · rw [e0]; exact .err _
        · split
          · rw [e0]; exact .err _
          · split
            · split
              · rw [e0]; exact .err _
              · exact .ok ⟨.nil, .variation h (.cons hx .nil)⟩
            · exact .ok ⟨.nil, .repeatStart h⟩
  | @variation s s' ts ts' h ht =>
    have hl := ht.length
    simp only [← hl]
    split
    · rw [e0]; exact .err _
    · split
      · split
        · rw [e0]; exact .err _
        · split
          · exact .ok ⟨.nil, .variation h ht⟩
          · split
            · exact .ok ⟨.nil, .variation h (ht.append (.cons hx .nil))⟩
            · split
              · rw [e0]; exact .err _
              · exact .panic _
      · refine Alike.bind (P := fun _ _ => True) ?_ fun _ _ _ => ?_
        · unfold checkSegno
          cases hs with
          | none => exact .ok trivial
          | @some a a' ha =>
            have h1 := ht.head
            have h2 := ht.last
            revert h1 h2
            generalize ts.head? = u1
            generalize ts'.head? = u2
            generalize ts.getLast? = v1
            generalize ts'.getLast? = v2
            intro h1 h2
            cases h1 with
            | none => cases h2 <;> exact .panic _
            | @some b b' hb =>
              cases h2 with
              | none => exact .panic _
              | @some c c' hc =>
                have h1 := o.le hb ha
                have h2 := o.lt ha hc
                simp only [h1, h2]
                split
                · rw [e0]; exact .err _
                · exact .ok trivial
        · refine Alike.bind (P := Rg φ T) ?_ fun v v' hv => ?_
          · refine AlikeR.lift ?_
            unfold createVariation
            cases ht with
            | nil => exact .panic _
            | cons hab hr => exact .ok (.var ⟨h, hab⟩ (variations_alike hr hab hx))
          · refine .ok ⟨.cons hv .nil, ?_⟩
            split
            · exact .repeatStart hx
            · exact .seq hx

/-- The state of the loop. -/
def Lp (φ : Nat → Nat) (T : Nat → Prop) (a b : GlobalRepeatBuilder × List SimpleRegion × RenderState) : Prop :=
  G φ T a.1 b.1 ∧ Along (Rg φ T) a.2.1 b.2.1 ∧ St φ T a.2.2 b.2.2

theorem loop_alike (o : Order φ T) {bars bars' : List Bar} (hb : Moved φ bars bars') (hT : ∀ x ∈ bars, T x.startTick) :
    ∀ {g g' : GlobalRepeatBuilder} {st st' : RenderState}, G φ T g g' → St φ T st st' →
      Alike φ (Lp φ T) (renderLoop g st bars) (renderLoop g' st' bars') := by
  induction hb with
  | nil => intro g g' st st' h h'; exact .ok ⟨h, .nil, h'⟩
  | cons x y xs ys tick marks _ ih =>
    intro g g' st st' h h'
    have hx : M φ T x.startTick y.startTick := ⟨hT x (by simp), tick⟩
    refine Alike.bind (g_onBar o h hx marks) fun g g' h => ?_
    refine Alike.bind (step_alike o h.segno h' hx marks) ?_
    rintro ⟨rs, st⟩ ⟨rs', st'⟩ ⟨h1, h2⟩
    refine Alike.bind (ih (fun z hz => hT z (by simp [hz])) h h2) ?_
    rintro ⟨g, q, t⟩ ⟨g', q', t'⟩ ⟨k1, k2, k3⟩
    exact .ok ⟨k1, h1.append k2, k3⟩

/-! ## Chunks -/

def Ck (φ : Nat → Nat) (T : Nat → Prop) (c c' : Chunk) : Prop := M φ T c.startTick c'.startTick ∧ M φ T c.endTick c'.endTick

theorem Along.chunks {cs cs' : List Chunk} (h : Along (Ck φ T) cs cs') : cs' = cs.map (chunkAt φ) := by
  induction h with
  | nil => rfl
  | @cons a b l m hab _ ih =>
    rw [ih, List.map_cons]
    congr 1
    obtain ⟨s, e⟩ := b
    obtain ⟨h1, h2⟩ := hab
    simp only at h1 h2
    rw [chunkAt, h1.2, h2.2]

theorem seqSet_alike (o : Order φ T) (ip : Bool) {r r' : SequenceRegion} (h : Sq φ T r r') :
    AlikeR (Along (I φ T)) (r.iter1Set ip) (r'.iter1Set ip) :=
  (pred o h.2).bind fun _ _ he => ofPairs_alike o ip (.cons ⟨h.1, he⟩ .nil)

theorem regionSet_alike (o : Order φ T) (ip : Bool) {r r' : SimpleRegion} (h : Rg φ T r r') :
    AlikeR (Along (I φ T)) (r.iter1Set ip) (r'.iter1Set ip) := by
  cases h with
  | seq h => exact seqSet_alike o ip h
  | rep h => exact seqSet_alike o ip h
  | @var c c' vs vs' h hv =>
    refine (seqSet_alike o ip h).bind fun a a' ha => ?_
    have hl := hv.last
    revert hl
    generalize vs.getLast? = u
    generalize vs'.getLast? = u'
    intro hl
    cases hl with
    | none => exact .panic _
    | some hx => exact (seqSet_alike o ip hx).bind fun b b' hb => .ok (union_alike o ha hb)

theorem section_alike (hT : ∀ t, T t → t ≤ U32_MAX ∧ φ t ≤ U32_MAX) {s s' : IntervalSet} (h : Along (I φ T) s s') :
    AlikeR (Along (Ck φ T)) (SimpleRegion.sectionChunks s) (SimpleRegion.sectionChunks s') := by
  induction h with
  | nil => exact .ok .nil
  | @cons a b l m hab _ ih =>
    obtain ⟨a1, a2⟩ := a
    obtain ⟨b1, b2⟩ := b
    obtain ⟨h1, h2, h3⟩ := hab
    simp only at h1 h2 h3
    have := hT _ h2
    unfold SimpleRegion.sectionChunks
    rw [show addU32 a2 1 = .ok (a2 + 1) from if_pos this.1, show addU32 b2 1 = .ok (b2 + 1) from if_pos (h3 ▸ this.2), R_bind_ok, R_bind_ok]
    exact ih.bind fun cs cs' hc => .ok (.cons ⟨h1, h2, h3⟩ hc)

/-- The phases correspond. -/
inductive Ph (φ : Nat → Nat) (T : Nat → Prop) : RenderPhase → RenderPhase → Prop
  | non : Ph φ T .nonDcDs .nonDcDs
  | iter0 {d d' : Nat} : M φ T d d' → Ph φ T (.iter0 d) (.iter0 d')
  | iter1 {g g' : GlobalRepeat} : Gr φ T g g' → Ph φ T (.iter1 g) (.iter1 g')

theorem sq_chunks {r r' : SequenceRegion} (h : Sq φ T r r') : Along (Ck φ T) r.toChunks r'.toChunks := .cons h .nil

theorem full_alike {c c' : SequenceRegion} (h : Sq φ T c c') {vs vs' : List SequenceRegion} (hv : Along (Sq φ T) vs vs') :
    Along (Ck φ T) (SimpleRegion.fullVariations c vs) (SimpleRegion.fullVariations c' vs') := by
  unfold SimpleRegion.fullVariations
  induction hv with
  | nil => exact .nil
  | cons hx _ ih =>
    rw [List.flatMap_cons, List.flatMap_cons]
    exact ((sq_chunks h).append (sq_chunks hx)).append ih

theorem iter1_alike (o : Order φ T) (hT : ∀ t, T t → t ≤ U32_MAX ∧ φ t ≤ U32_MAX) (ip : Bool) {r r' : SimpleRegion}
    (h : Rg φ T r r') {g g' : GlobalRepeat} (hg : Gr φ T g g') :
    AlikeR (Along (Ck φ T)) (r.iter1Chunks ip g) (r'.iter1Chunks ip g') :=
  (regionSet_alike o ip h).bind fun _ _ hs => section_alike hT (inter_alike o hg.2 hs)

theorem chunks_alike (o : Order φ T) (hT : ∀ t, T t → t ≤ U32_MAX ∧ φ t ≤ U32_MAX) (ip : Bool) {r r' : SimpleRegion}
    (h : Rg φ T r r') {ph ph' : RenderPhase} (hp : Ph φ T ph ph') :
    AlikeR (Along (Ck φ T)) (r.renderChunks ip ph) (r'.renderChunks ip ph') := by
  unfold SimpleRegion.renderChunks
  cases hp with
  | iter1 hg => cases h <;> exact iter1_alike o hT ip (by constructor <;> assumption) hg
  | non =>
    cases h with
    | seq h => exact .ok (.cons h .nil)
    | rep h => exact .ok ((sq_chunks h).append (sq_chunks h))
    | var h hv => exact .ok (full_alike h hv)
  | iter0 hd =>
    cases h with
    | seq h =>
      simp only [o.le h.2 hd, o.lt h.1 hd, o.lt hd h.2]
      split
      · exact .ok (.cons h .nil)
      · split
        · exact .ok (.cons ⟨h.1, hd⟩ .nil)
        · exact .ok .nil
    | rep h =>
      simp only [o.le h.2 hd, o.lt h.2 hd, o.lt hd h.2]
      split
      · exact .ok ((sq_chunks h).append (sq_chunks h))
      · split
        · exact .panic _
        · exact .ok .nil
    | @var c c' vs vs' h hv =>
      simp only [o.le hd h.1]
      split
      · exact .ok .nil
      · have hl := hv.last
        revert hl
        generalize vs.getLast? = u
        generalize vs'.getLast? = u'
        intro hl
        cases hl with
        | none => exact .panic _
        | some hx =>
          simp only [o.lt hd hx.2]
          split
          · exact .panic _
          · exact .ok (full_alike h hv)

theorem all_alike (o : Order φ T) (hT : ∀ t, T t → t ≤ U32_MAX ∧ φ t ≤ U32_MAX) (ip : Bool) {rs rs' : List SimpleRegion}
    (h : Along (Rg φ T) rs rs') {ph ph' : RenderPhase} (hp : Ph φ T ph ph') :
    AlikeR (Along (Ck φ T)) (CompoundRegion.renderAll ip ph rs) (CompoundRegion.renderAll ip ph' rs') := by
  induction h with
  | nil => exact .ok .nil
  | cons hx _ ih =>
    exact (chunks_alike o hT ip hx hp).bind fun a a' ha => ih.bind fun b b' hb => .ok (ha.append hb)

theorem compound_alike (o : Order φ T) (hT : ∀ t, T t → t ≤ U32_MAX ∧ φ t ≤ U32_MAX) (ip : Bool) {g g' : Option GlobalRepeat}
    (hg : Maybe (Gr φ T) g g') {rs rs' : List SimpleRegion} (h : Along (Rg φ T) rs rs') :
    AlikeR (Along (Ck φ T)) (CompoundRegion.toChunks ip ⟨g, rs⟩) (CompoundRegion.toChunks ip ⟨g', rs'⟩) := by
  unfold CompoundRegion.toChunks
  cases hg with
  | none => exact all_alike o hT ip h .non
  | some hg =>
    exact (all_alike o hT ip h (.iter0 hg.1)).bind fun a a' ha =>
      (all_alike o hT ip h (.iter1 hg)).bind fun b b' hb => .ok (ha.append hb)

end Stretch
end Klavier
