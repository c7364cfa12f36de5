import Verif.Lemmas.Grammar

/-! # The global marks collected over all bars -/
set_option autoImplicit false
namespace Klavier
open Spec

namespace GlobalRepeatBuilder

def codaList : Option Coda → List Nat
  | none => []
  | some (.one a) => [a]
  | some (.two a b) => [a, b]

def codaOf : List Nat → Option Coda
  | [] => none
  | [a] => some (.one a)
  | a :: b :: _ => some (.two a b)

/-- The mark at this bar, as a list. -/
def at_ {α : Type} (c : Bool) (a : α) : List α := if c then [a] else []

theorem addDc_ok (c : Bool) (g g' : GlobalRepeatBuilder) (t : Nat) :
    addIf c (fun g => g.addingDc t (g.firstBarLen.getD 0)) g = .ok g' ↔
      (g.dsDc.toList ++ at_ c (DsDc.dc t (g.firstBarLen.getD 0))).length ≤ 1 ∧
      g' = { g with dsDc := (g.dsDc.toList ++ at_ c (DsDc.dc t (g.firstBarLen.getD 0))).head? } := by
  obtain ⟨d, f, s, k, b, r, w⟩ := g
  cases c with
  | false => cases d <;> simp [addIf, at_, eq_comm]
  | true =>
    cases d with
    | none => simp [addIf, at_, addingDc, eq_comm]
    | some d => cases d <;> simp [addIf, at_, addingDc, fail]

theorem addDs_ok (c : Bool) (g g' : GlobalRepeatBuilder) (t : Nat) :
    addIf c (fun g => g.addingDs t) g = .ok g' ↔
      (g.dsDc.toList ++ at_ c (DsDc.ds t)).length ≤ 1 ∧
      g' = { g with dsDc := (g.dsDc.toList ++ at_ c (DsDc.ds t)).head? } := by
  obtain ⟨d, f, s, k, b, r, w⟩ := g
  cases c with
  | false => cases d <;> simp [addIf, at_, eq_comm]
  | true =>
    cases d with
    | none => simp [addIf, at_, addingDs, eq_comm]
    | some d => cases d <;> simp [addIf, at_, addingDs, fail]

theorem addFine_ok (c : Bool) (g g' : GlobalRepeatBuilder) (t : Nat) :
    addIf c (fun g => g.addingFine t) g = .ok g' ↔
      (g.fine.toList ++ at_ c t).length ≤ 1 ∧ g' = { g with fine := (g.fine.toList ++ at_ c t).head? } := by
  obtain ⟨d, f, s, k, b, r, w⟩ := g
  cases c <;> cases f <;> simp [addIf, at_, addingFine, fail, eq_comm]

theorem addSegno_ok (c : Bool) (g g' : GlobalRepeatBuilder) (t : Nat) :
    addIf c (fun g => g.addingSegno t) g = .ok g' ↔
      (g.segno.toList ++ at_ c t).length ≤ 1 ∧ g' = { g with segno := (g.segno.toList ++ at_ c t).head? } := by
  obtain ⟨d, f, s, k, b, r, w⟩ := g
  cases c <;> cases s <;> simp [addIf, at_, addingSegno, fail, eq_comm]

theorem addCoda_ok (c : Bool) (g g' : GlobalRepeatBuilder) (t : Nat) :
    addIf c (fun g => g.addingCoda t) g = .ok g' ↔
      (codaList g.coda ++ at_ c t).length ≤ 2 ∧ g' = { g with coda := codaOf (codaList g.coda ++ at_ c t) } := by
  obtain ⟨d, f, s, k, b, r, w⟩ := g
  cases c with
  | false =>
    cases k with
    | none => simp [addIf, at_, codaList, codaOf, eq_comm]
    | some k => cases k <;> simp [addIf, at_, codaList, codaOf, eq_comm]
  | true =>
    cases k with
    | none => simp [addIf, at_, codaList, codaOf, addingCoda, eq_comm]
    | some k => cases k <;> simp [addIf, at_, codaList, codaOf, addingCoda, fail, eq_comm]

/-- The jumps of one bar. -/
def jumpsAt (first : Option Nat) (x : Bar) : List DsDc :=
  at_ (x.repeats.contains .Dc) (DsDc.dc x.startTick (first.getD 0)) ++ at_ (x.repeats.contains .Ds) (DsDc.ds x.startTick)

theorem noteFirstBar_eq (g : GlobalRepeatBuilder) (x : Bar) :
    g.noteFirstBar x = { g with firstBarLen := (g.noteFirstBar x).firstBarLen, topRhythm := (g.noteFirstBar x).topRhythm } := by
  simp only [noteFirstBar]
  split
  · rfl
  · split
    · split <;> rfl
    · rfl

theorem head_toList {α : Type} {l : List α} (h : l.length ≤ 1) : l.head?.toList = l := by
  match l with
  | [] => rfl
  | [a] => rfl
  | _ :: _ :: _ => simp at h

theorem codaList_of {l : List Nat} (h : l.length ≤ 2) : codaList (codaOf l) = l := by
  match l with
  | [] => rfl
  | [a] => rfl
  | [a, b] => rfl
  | _ :: _ :: _ :: _ => simp at h

theorem onBar_ok (g g' : GlobalRepeatBuilder) (x : Bar) :
    g.onBar x = .ok g' ↔
      (g.dsDc.toList ++ jumpsAt (g.noteFirstBar x).firstBarLen x).length ≤ 1 ∧
      (g.fine.toList ++ at_ (x.repeats.contains .Fine) x.startTick).length ≤ 1 ∧
      (g.segno.toList ++ at_ (x.repeats.contains .Segno) x.startTick).length ≤ 1 ∧
      (codaList g.coda ++ at_ (x.repeats.contains .Coda) x.startTick).length ≤ 2 ∧
      g' = { dsDc := (g.dsDc.toList ++ jumpsAt (g.noteFirstBar x).firstBarLen x).head?
             fine := (g.fine.toList ++ at_ (x.repeats.contains .Fine) x.startTick).head?
             segno := (g.segno.toList ++ at_ (x.repeats.contains .Segno) x.startTick).head?
             coda := codaOf (codaList g.coda ++ at_ (x.repeats.contains .Coda) x.startTick)
             firstBarLen := (g.noteFirstBar x).firstBarLen
             topRhythm := (g.noteFirstBar x).topRhythm
             warnings := g.warnings } := by
  have hn := noteFirstBar_eq g x
  generalize (g.noteFirstBar x).firstBarLen = fb at *
  generalize (g.noteFirstBar x).topRhythm = tr at *
  obtain ⟨d, f, s, k, b, r, w⟩ := g
  simp only [onBar, hn, RR_bind_eq_ok, addDc_ok, addDs_ok, addFine_ok, addSegno_ok, addCoda_ok]
  simp only [jumpsAt]
  constructor
  · rintro ⟨a, ⟨ha, rfl⟩, b, ⟨hb, rfl⟩, c, ⟨hc, rfl⟩, d, ⟨hd, rfl⟩, ⟨he, rfl⟩⟩
    dsimp only at ha hb hc hd he ⊢
    rw [head_toList ha, List.append_assoc] at hb ⊢
    exact ⟨hb, hc, hd, he, rfl⟩
  · rintro ⟨hb, hc, hd, he, rfl⟩
    have ha : (d.toList ++ at_ (x.repeats.contains .Dc) (DsDc.dc x.startTick (fb.getD 0))).length ≤ 1 := by
      simp only [List.length_append] at hb ⊢
      omega
    refine ⟨_, ⟨ha, rfl⟩, _, ⟨?_, rfl⟩, _, ⟨hc, rfl⟩, _, ⟨hd, rfl⟩, ⟨he, ?_⟩⟩
    · rw [head_toList ha, List.append_assoc]; exact hb
    · rw [head_toList ha, List.append_assoc]

/-- The first bar length known after the bars. -/
def firstAfter (first : Option Nat) : List Bar → Option Nat
  | [] => first
  | x :: xs => firstAfter (if first.isNone ∧ x.startTick ≠ 0 then some x.startTick else first) xs

/-- All jumps. -/
def jumpsFrom (first : Option Nat) : List Bar → List DsDc
  | [] => []
  | x :: xs =>
    let f := if first.isNone ∧ x.startTick ≠ 0 then some x.startTick else first
    jumpsAt f x ++ jumpsFrom f xs

def rhythmAfter (first : Option Nat) (r : Rhythm) : List Bar → Rhythm
  | [] => r
  | x :: xs =>
    rhythmAfter (if first.isNone ∧ x.startTick ≠ 0 then some x.startTick else first)
      (if first.isNone ∧ x.startTick = 0 then x.rhythm.getD r else r) xs

theorem noteFirstBar_first (g : GlobalRepeatBuilder) (x : Bar) :
    (g.noteFirstBar x).firstBarLen = (if g.firstBarLen.isNone ∧ x.startTick ≠ 0 then some x.startTick else g.firstBarLen) ∧
    (g.noteFirstBar x).topRhythm = (if g.firstBarLen.isNone ∧ x.startTick = 0 then x.rhythm.getD g.topRhythm else g.topRhythm) := by
  obtain ⟨d, f, s, k, b, r, w⟩ := g
  simp only [noteFirstBar]
  cases b with
  | some b => simp
  | none =>
    by_cases h : x.startTick = 0
    · cases hr : x.rhythm <;> simp [h]
    · simp [h]

theorem marks_cons (x : Bar) (xs : List Bar) (m : Repeat) :
    marks (x :: xs) m = at_ (x.repeats.contains m) x.startTick ++ marks xs m := by
  unfold marks at_
  rw [List.filter_cons]
  split <;> simp

theorem buildLoop_ok (bars : List Bar) : ∀ g g' : GlobalRepeatBuilder, 
    g.dsDc.toList.length ≤ 1 →
    (buildLoop g bars = .ok g' ↔
      (g.dsDc.toList ++ jumpsFrom g.firstBarLen bars).length ≤ 1 ∧
      (g.fine.toList ++ marks bars .Fine).length ≤ 1 ∧
      (g.segno.toList ++ marks bars .Segno).length ≤ 1 ∧
      (codaList g.coda ++ marks bars .Coda).length ≤ 2 ∧
      g' = { dsDc := (g.dsDc.toList ++ jumpsFrom g.firstBarLen bars).head?
             fine := (g.fine.toList ++ marks bars .Fine).head?
             segno := (g.segno.toList ++ marks bars .Segno).head?
             coda := codaOf (codaList g.coda ++ marks bars .Coda)
             firstBarLen := firstAfter g.firstBarLen bars
             topRhythm := rhythmAfter g.firstBarLen g.topRhythm bars
             warnings := g.warnings }) := by
  induction bars with
  | nil =>
    intro g g' _
    obtain ⟨d, f, s, k, b, r, w⟩ := g
    have hk : (codaList k).length ≤ 2 ∧ codaOf (codaList k) = k := by
      cases k with
      | none => simp [codaList, codaOf]
      | some k => cases k <;> simp [codaList, codaOf]
    have e1 : ∀ {α : Type} (o : Option α), o.toList.length ≤ 1 ∧ o.toList.head? = o := by
      intro α o; cases o <;> simp
    simp only [buildLoop, Except.ok.injEq, jumpsFrom, marks, List.filter_nil, List.map_nil, List.append_nil, firstAfter,
      rhythmAfter, hk, (e1 d).1, (e1 f).1, (e1 s).1, (e1 d).2, (e1 f).2, (e1 s).2, true_and]
    exact eq_comm
  | cons x xs ih =>
    intro g g' _
    rw [buildLoop, RR_bind_eq_ok]
    simp only [onBar_ok]
    obtain ⟨n1, n2⟩ := noteFirstBar_first g x
    rw [n1, n2]
    simp only [marks_cons, jumpsFrom, firstAfter, rhythmAfter]
    generalize (if g.firstBarLen.isNone ∧ x.startTick ≠ 0 then some x.startTick else g.firstBarLen) = fb
    generalize (if g.firstBarLen.isNone ∧ x.startTick = 0 then x.rhythm.getD g.topRhythm else g.topRhythm) = tr
    constructor
    · rintro ⟨g1, ⟨h1, h2, h3, h4, rfl⟩, h⟩
      rw [ih _ _ (by rw [head_toList h1]; exact h1)] at h
      dsimp only at h
      rw [head_toList h1, head_toList h2, head_toList h3, codaList_of h4] at h
      simpa only [List.append_assoc] using h
    · intro h
      obtain ⟨h1, h2, h3, h4, h5⟩ := h
      have k1 : (g.dsDc.toList ++ jumpsAt fb x).length ≤ 1 := by
        simp only [List.length_append] at h1 ⊢; omega
      have k2 : (g.fine.toList ++ at_ (x.repeats.contains .Fine) x.startTick).length ≤ 1 := by
        simp only [List.length_append] at h2 ⊢; omega
      have k3 : (g.segno.toList ++ at_ (x.repeats.contains .Segno) x.startTick).length ≤ 1 := by
        simp only [List.length_append] at h3 ⊢; omega
      have k4 : (codaList g.coda ++ at_ (x.repeats.contains .Coda) x.startTick).length ≤ 2 := by
        simp only [List.length_append] at h4 ⊢; omega
      refine ⟨_, ⟨k1, k2, k3, k4, rfl⟩, ?_⟩
      rw [ih _ _ (by rw [head_toList k1]; exact k1)]
      dsimp only
      rw [head_toList k1, head_toList k2, head_toList k3, codaList_of k4]
      simp only [List.append_assoc]
      exact ⟨h1, h2, h3, h4, h5⟩

end GlobalRepeatBuilder
end Klavier
