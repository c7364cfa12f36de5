import Verif.Spec.Marks
import Verif.Props.RepeatSet
import Verif.Lemmas.Builder

/-! # C73, C74: marks of a bar, the jump builder -/
set_option autoImplicit false
namespace Klavier
open Spec

/-! ## C73 -/

/-- C73: `repeat_set!` makes the set of the marks listed, or panics: exactly if a mark is
refused by one that stands after it. -/
theorem C73_macro (l : List Repeat) :
    (l.Pairwise (fun a b => refuses a b = false) →
      ∃ s, RepeatSet.ofMarks l = .ok s ∧ Built s ∧ ∀ x, s.contains x = true ↔ x ∈ l) ∧
    (¬ l.Pairwise (fun a b => refuses a b = false) → RepeatSet.ofMarks l = .error .unwrap) := by
  induction l with
  | nil => exact ⟨fun _ => ⟨_, rfl, .empty, fun x => by simp [contains_EMPTY]⟩, fun h => absurd .nil h⟩
  | cons r rs ih =>
    rw [List.pairwise_cons]
    by_cases hp : rs.Pairwise (fun a b => refuses a b = false)
    · obtain ⟨s, hs, hb, hc⟩ := ih.1 hp
      have e : RepeatSet.ofMarks (r :: rs) = unwrapR (s.tryAdd r) := by rw [RepeatSet.ofMarks, hs]; rfl
      rw [e]
      constructor
      · rintro ⟨h, -⟩
        have ha : s.tryAdd r = .ok (s.set r true) := (tryAdd_ok_iff ..).2 ⟨rfl, fun x hx => h x ((hc x).1 hx)⟩
        refine ⟨s.set r true, by rw [ha]; rfl, .add hb ha, fun x => ?_⟩
        rw [contains_set, List.mem_cons, ← hc x]
        split <;> simp_all
      · intro h
        cases ha : s.tryAdd r with
        | error d => rfl
        | ok s' =>
          have := ((tryAdd_ok_iff ..).1 ha).2
          exact absurd ⟨fun x hx => this x ((hc x).2 hx), hp⟩ h
    · refine ⟨fun h => absurd h.2 hp, fun _ => ?_⟩
      rw [RepeatSet.ofMarks, ih.2 hp]
      rfl

example : RepeatSet.ofMarks [.Segno, .Dc, .Fine] = .ok { dc := true, segno := true, fine := true } ∧
    RepeatSet.ofMarks [.Dc, .Segno, .Fine] = .error .unwrap ∧
    [Repeat.Segno, .Dc, .Fine].Pairwise (fun a b => refuses a b = false) := by decide

/-- C73: `len` is the number of marks in the set. -/
theorem C73_len (s : RepeatSet) (l : List Repeat) (hn : l.Nodup) (hl : ∀ x, x ∈ l ↔ s.contains x = true) :
    s.len = l.length := by
  have all : ∀ x : Repeat, x ∈ [Repeat.Start, .End, .Dc, .Fine, .Ds, .Segno, .Coda, .Var1, .Var2, .Var3, .Var4] := by decide
  have nd : [Repeat.Start, .End, .Dc, .Fine, .Ds, .Segno, .Coda, .Var1, .Var2, .Var3, .Var4].Nodup := by decide
  have hp : l.Perm ([Repeat.Start, .End, .Dc, .Fine, .Ds, .Segno, .Coda, .Var1, .Var2, .Var3, .Var4].filter s.contains) := by
    refine (List.perm_ext_iff_of_nodup hn (nd.filter _)).2 (fun x => ?_)
    rw [hl, List.mem_filter]
    exact ⟨fun h => ⟨all x, h⟩, fun h => h.2⟩
  rw [hp.length_eq]
  clear hp hl hn nd all
  obtain ⟨a, b, c, d, e, f, g, h, i, j, k⟩ := s
  revert a b c d e f g h i j k
  decide +kernel

example : RepeatSet.len { dc := true, segno := true, fine := true } = 3 ∧ [Repeat.Fine, .Segno, .Dc].Nodup := by decide

/-- C73: a bar has at most six marks, and four if one is an ending. -/
theorem C73_most {s : RepeatSet} (h : Built s) :
    s.len ≤ 6 ∧ ((∃ x, isEnding x = true ∧ s.contains x = true) → s.len ≤ 4) := by
  obtain ⟨h1, h2, h3⟩ := C26_consistent h
  have ne : ∀ {a b : Bool}, (a = true → b = true → False) → a.toNat + b.toNat ≤ 1 := by decide
  have le : ∀ a : Bool, a.toNat ≤ 1 := by decide
  have ft : ∀ {a : Bool}, a = false → a = true → False := by decide
  have n12 : s.var1.toNat + s.var2.toNat ≤ 1 := ne (fun p q => nomatch h1 .Var1 .Var2 rfl rfl p q)
  have n13 : s.var1.toNat + s.var3.toNat ≤ 1 := ne (fun p q => nomatch h1 .Var1 .Var3 rfl rfl p q)
  have n14 : s.var1.toNat + s.var4.toNat ≤ 1 := ne (fun p q => nomatch h1 .Var1 .Var4 rfl rfl p q)
  have n23 : s.var2.toNat + s.var3.toNat ≤ 1 := ne (fun p q => nomatch h1 .Var2 .Var3 rfl rfl p q)
  have n24 : s.var2.toNat + s.var4.toNat ≤ 1 := ne (fun p q => nomatch h1 .Var2 .Var4 rfl rfl p q)
  have n34 : s.var3.toNat + s.var4.toNat ≤ 1 := ne (fun p q => nomatch h1 .Var3 .Var4 rfl rfl p q)
  have sd : s.start.toNat + s.dc.toNat ≤ 1 := ne (fun p q => ft (h3 p).1 q)
  have ss : s.start.toNat + s.ds.toNat ≤ 1 := ne (fun p q => ft (h3 p).2 q)
  have l1 := le s.end_
  have l2 := le s.fine
  have l3 := le s.segno
  have l4 := le s.coda
  have ending : ∀ x, isEnding x = true → s.contains x = true →
      s.start.toNat = 0 ∧ s.end_.toNat = 0 ∧ s.dc.toNat = 0 ∧ s.ds.toNat = 0 := by
    intro x hx hc
    obtain ⟨p1, p2, p3, p4⟩ := h2 x hx hc
    have p1 : s.start = false := p1
    have p2 : s.end_ = false := p2
    have p3 : s.dc = false := p3
    have p4 : s.ds = false := p4
    simp [p1, p2, p3, p4]
  have four : (∃ x, isEnding x = true ∧ s.contains x = true) → s.len ≤ 4 := by
    rintro ⟨x, hx, hc⟩
    obtain ⟨p1, p2, p3, p4⟩ := ending x hx hc
    simp only [RepeatSet.len]
    omega
  refine ⟨?_, four⟩
  by_cases he : ∃ x, isEnding x = true ∧ s.contains x = true
  · have := four he; omega
  · have no : ∀ x, isEnding x = true → s.contains x = true → False := fun x p q => he ⟨x, p, q⟩
    have z : ∀ {a : Bool}, (a = true → False) → a.toNat = 0 := by decide
    have v1 : s.var1.toNat = 0 := z (no .Var1 rfl)
    have v2 : s.var2.toNat = 0 := z (no .Var2 rfl)
    have v3 : s.var3.toNat = 0 := z (no .Var3 rfl)
    have v4 : s.var4.toNat = 0 := z (no .Var4 rfl)
    have := le s.dc
    have := le s.ds
    simp only [RepeatSet.len]
    omega

example : (∃ s, RepeatSet.ofMarks [.Segno, .Coda, .Fine, .Ds, .Dc, .End] = .ok s ∧ s.len = 6) ∧
    ∃ s, RepeatSet.ofMarks [.Segno, .Coda, .Fine, .Var1] = .ok s ∧ s.len = 4 := ⟨⟨_, rfl, by decide⟩, _, rfl, by decide⟩

/-! ## C64: selections -/

private theorem lastTold_cons_some {K α : Type} (f : K → Option (List α)) (was x : List α) (c : K) (cs : List K) (h : f c = some x) :
    lastTold f was (c :: cs) = lastTold f x cs := by
  simp only [lastTold, List.filterMap_cons, h, List.getLast?_cons, Option.getD_some]

/-- C64: a selection holds of each kind what was told last, and nothing of the kinds never
told; so does a list of changes. -/
theorem C64_selection :
    (∀ l : List (SelCall Note Bar Tempo CtrlChg), l.foldl SelCall.run .empty =
      ⟨lastTold (fun | .notes x => some x | _ => none) [] l, lastTold (fun | .bars x => some x | _ => none) [] l,
        lastTold (fun | .tempos x => some x | _ => none) [] l, lastTold (fun | .dumpers x => some x | _ => none) [] l,
        lastTold (fun | .softs x => some x | _ => none) [] l⟩) ∧
    (∀ l : List (SelCall (Note × Note) (Bar × Bar) (Tempo × Tempo) (CtrlChg × CtrlChg)), l.foldl SelCall.runChanges .empty =
      ⟨lastTold (fun | .notes x => some x | _ => none) [] l, lastTold (fun | .bars x => some x | _ => none) [] l,
        lastTold (fun | .tempos x => some x | _ => none) [] l, lastTold (fun | .dumpers x => some x | _ => none) [] l,
        lastTold (fun | .softs x => some x | _ => none) [] l⟩) := by
  constructor
  · have : ∀ (l : List (SelCall Note Bar Tempo CtrlChg)) (a b c d e), l.foldl SelCall.run ⟨a, b, c, d, e⟩ =
      ⟨lastTold (fun | .notes x => some x | _ => none) a l, lastTold (fun | .bars x => some x | _ => none) b l,
        lastTold (fun | .tempos x => some x | _ => none) c l, lastTold (fun | .dumpers x => some x | _ => none) d l,
        lastTold (fun | .softs x => some x | _ => none) e l⟩ := by
      intro l
      induction l with
      | nil => intros; rfl
      | cons x xs ih =>
        intro a b c d e
        cases x <;> refine (ih ..).trans ?_ <;> congr 1 <;> (symm; apply lastTold_cons_some; rfl)
    exact fun l => this l [] [] [] [] []
  · have : ∀ (l : List (SelCall (Note × Note) (Bar × Bar) (Tempo × Tempo) (CtrlChg × CtrlChg))) (a b c d e),
      l.foldl SelCall.runChanges ⟨a, b, c, d, e⟩ =
      ⟨lastTold (fun | .notes x => some x | _ => none) a l, lastTold (fun | .bars x => some x | _ => none) b l,
        lastTold (fun | .tempos x => some x | _ => none) c l, lastTold (fun | .dumpers x => some x | _ => none) d l,
        lastTold (fun | .softs x => some x | _ => none) e l⟩ := by
      intro l
      induction l with
      | nil => intros; rfl
      | cons x xs ih =>
        intro a b c d e
        cases x <;> refine (ih ..).trans ?_ <;> congr 1 <;> (symm; apply lastTold_cons_some; rfl)
    exact fun l => this l [] [] [] [] []

example : lastTold (fun | SelCall.softs x => some x | _ => none) [] [(.softs [7] : SelCall Nat Nat Nat Nat), .notes [3], .softs [8, 9]] = [8, 9] := by decide

/-! ## C74 -/

open JumpCall GlobalRepeatBuilder

private theorem isCoda_iff {l : List Nat} {k : Option Coda} : IsCoda l k ↔ l.length ≤ 2 ∧ k = codaOf l := by
  match l with
  | [] => simp [IsCoda, codaOf]
  | [a] => simp [IsCoda, codaOf]
  | [a, b] => simp [IsCoda, codaOf]
  | _ :: _ :: _ :: _ => simp [IsCoda]

private theorem codaList_codaOf (k : Option Coda) : codaOf (codaList k) = k := by
  match k with
  | none => rfl
  | some (.one a) => rfl
  | some (.two a b) => rfl

private theorem codaList_length (k : Option Coda) : (codaList k).length ≤ 2 := by
  match k with
  | none => simp [codaList]
  | some (.one a) => simp [codaList]
  | some (.two a b) => simp [codaList]

private theorem runAll_ok (l : List JumpCall) : ∀ (g g' : GlobalRepeatBuilder), runAll g l = .ok g' ↔
    (g.dsDc.toList ++ jumps l).length ≤ 1 ∧ (g.fine.toList ++ fines l).length ≤ 1 ∧ (g.segno.toList ++ segnos l).length ≤ 1 ∧
    (codaList g.coda ++ codas l).length ≤ 2 ∧
    g' = ⟨(g.dsDc.toList ++ jumps l).head?, (g.fine.toList ++ fines l).head?, (g.segno.toList ++ segnos l).head?,
      codaOf (codaList g.coda ++ codas l), (g.firstBarLen.toList ++ firstBarLens l).getLast?, g.topRhythm, g.warnings⟩ := by
  induction l with
  | nil =>
    rintro ⟨d, f, s, k, b, r, w⟩ g'
    simp only [runAll, jumps, fines, segnos, codas, firstBarLens, List.filterMap_nil, List.append_nil, codaList_codaOf]
    have e1 : d.toList.length ≤ 1 := by cases d <;> simp
    have e2 : f.toList.length ≤ 1 := by cases f <;> simp
    have e3 : s.toList.length ≤ 1 := by cases s <;> simp
    have o1 : d.toList.head? = d := by cases d <;> rfl
    have o2 : f.toList.head? = f := by cases f <;> rfl
    have o3 : s.toList.head? = s := by cases s <;> rfl
    have o4 : b.toList.getLast? = b := by cases b <;> rfl
    simp only [o1, o2, o3, o4]
    exact ⟨fun h => ⟨e1, e2, e3, codaList_length k, (Except.ok.inj h).symm⟩, fun h => by rw [h.2.2.2.2]⟩
  | cons c cs ih =>
    rintro ⟨d, f, s, k, b, r, w⟩ g'
    simp only [runAll]
    cases c with
    | dc t len =>
      have e : jumps (.dc t len :: cs) = .dc t len :: jumps cs := rfl
      have e' : fines (.dc t len :: cs) = fines cs ∧ segnos (.dc t len :: cs) = segnos cs ∧ codas (.dc t len :: cs) = codas cs ∧
        firstBarLens (.dc t len :: cs) = firstBarLens cs := ⟨rfl, rfl, rfl, rfl⟩
      rw [e, e'.1, e'.2.1, e'.2.2.1, e'.2.2.2]
      match d with
      | none => simp only [run, addingDc, ih]; simp
      | some (.dc p q) => simp [run, addingDc, fail]
      | some (.ds p) => simp [run, addingDc, fail]
    | ds t =>
      have e : jumps (.ds t :: cs) = .ds t :: jumps cs := rfl
      have e' : fines (.ds t :: cs) = fines cs ∧ segnos (.ds t :: cs) = segnos cs ∧ codas (.ds t :: cs) = codas cs ∧
        firstBarLens (.ds t :: cs) = firstBarLens cs := ⟨rfl, rfl, rfl, rfl⟩
      rw [e, e'.1, e'.2.1, e'.2.2.1, e'.2.2.2]
      match d with
      | none => simp only [run, addingDs, ih]; simp
      | some (.dc p q) => simp [run, addingDs, fail]
      | some (.ds p) => simp [run, addingDs, fail]
    | fine t =>
      have e : fines (.fine t :: cs) = t :: fines cs := rfl
      have e' : jumps (.fine t :: cs) = jumps cs ∧ segnos (.fine t :: cs) = segnos cs ∧ codas (.fine t :: cs) = codas cs ∧
        firstBarLens (.fine t :: cs) = firstBarLens cs := ⟨rfl, rfl, rfl, rfl⟩
      rw [e, e'.1, e'.2.1, e'.2.2.1, e'.2.2.2]
      match f with
      | none => simp only [run, addingFine, ih]; simp
      | some p => simp [run, addingFine, fail]
    | segno t =>
      have e : segnos (.segno t :: cs) = t :: segnos cs := rfl
      have e' : jumps (.segno t :: cs) = jumps cs ∧ fines (.segno t :: cs) = fines cs ∧ codas (.segno t :: cs) = codas cs ∧
        firstBarLens (.segno t :: cs) = firstBarLens cs := ⟨rfl, rfl, rfl, rfl⟩
      rw [e, e'.1, e'.2.1, e'.2.2.1, e'.2.2.2]
      match s with
      | none => simp only [run, addingSegno, ih]; simp
      | some p => simp [run, addingSegno, fail]
    | coda t =>
      have e : codas (.coda t :: cs) = t :: codas cs := rfl
      have e' : jumps (.coda t :: cs) = jumps cs ∧ fines (.coda t :: cs) = fines cs ∧ segnos (.coda t :: cs) = segnos cs ∧
        firstBarLens (.coda t :: cs) = firstBarLens cs := ⟨rfl, rfl, rfl, rfl⟩
      rw [e, e'.1, e'.2.1, e'.2.2.1, e'.2.2.2]
      match k with
      | none => simp only [run, addingCoda, ih]; simp [codaList]
      | some (.one p) => simp only [run, addingCoda, ih]; simp [codaList]
      | some (.two p q) => simp [run, addingCoda, fail, codaList]
    | firstBarLen n =>
      have e : firstBarLens (.firstBarLen n :: cs) = n :: firstBarLens cs := rfl
      have e' : jumps (.firstBarLen n :: cs) = jumps cs ∧ fines (.firstBarLen n :: cs) = fines cs ∧
        segnos (.firstBarLen n :: cs) = segnos cs ∧ codas (.firstBarLen n :: cs) = codas cs := ⟨rfl, rfl, rfl, rfl⟩
      rw [e, e'.1, e'.2.1, e'.2.2.1, e'.2.2.2]
      simp only [run, addingFirstBarLen, ih]
      have hl : (b.toList ++ n :: firstBarLens cs).getLast? = ((some n).toList ++ firstBarLens cs).getLast? := by
        rw [List.getLast?_append]
        show (n :: firstBarLens cs).getLast?.or _ = (n :: firstBarLens cs).getLast?
        rw [List.getLast?_cons]
        rfl
      rw [hl]

/-- C74: the jump builder accepts any calls with at most one jump, one Fine, one Segno and
two Codas, and holds what was told; of several first bar lengths the last counts. -/
theorem C74_calls (r : Rhythm) (l : List JumpCall) (g : GlobalRepeatBuilder) :
    runAll (.new r) l = .ok g ↔
      ((jumps l).length ≤ 1 ∧ (fines l).length ≤ 1 ∧ (segnos l).length ≤ 1 ∧ (codas l).length ≤ 2) ∧
      g.dsDc = (jumps l).head? ∧ g.fine = (fines l).head? ∧ g.segno = (segnos l).head? ∧ IsCoda (codas l) g.coda ∧
      g.firstBarLen = (firstBarLens l).getLast? ∧ g.topRhythm = r ∧ g.warnings = [] := by
  rw [runAll_ok]
  obtain ⟨d, f, s, k, b, r', w⟩ := g
  simp only [GlobalRepeatBuilder.new, codaList, Option.toList_none, List.nil_append, isCoda_iff, GlobalRepeatBuilder.mk.injEq]
  constructor
  · rintro ⟨h1, h2, h3, h4, h5, h6, h7, h8, h9, h10, h11⟩
    exact ⟨⟨h1, h2, h3, h4⟩, h5, h6, h7, ⟨h4, h8⟩, h9, h10, h11⟩
  · rintro ⟨⟨h1, h2, h3, h4⟩, h5, h6, h7, ⟨_, h8⟩, h9, h10, h11⟩
    exact ⟨h1, h2, h3, h4, h5, h6, h7, h8, h9, h10, h11⟩

example : runAll (.new ⟨4, .D4⟩) [.coda 5, .firstBarLen 1, .dc 9 3, .coda 2, .firstBarLen 4] =
    .ok { dsDc := some (.dc 9 3), coda := some (.two 5 2), firstBarLen := some 4, topRhythm := ⟨4, .D4⟩ } := by decide

/-- C74: the order of the calls does not matter, but for the order of the Codas and which
first bar length comes last. -/
theorem C74_order (r : Rhythm) (l l' : List JumpCall) (hp : l.Perm l') (hc : codas l = codas l')
    (hf : (firstBarLens l).getLast? = (firstBarLens l').getLast?) (g : GlobalRepeatBuilder) :
    runAll (.new r) l = .ok g ↔ runAll (.new r) l' = .ok g := by
  have pj : (jumps l).Perm (jumps l') := hp.filterMap _
  have pf : (fines l).Perm (fines l') := hp.filterMap _
  have ps : (segnos l).Perm (segnos l') := hp.filterMap _
  have same : ∀ {α : Type} {a b : List α}, a.Perm b → a.length ≤ 1 → a = b := by
    intro α a b h ha
    match a, ha with
    | [], _ => exact h.nil_eq
    | [x], _ => exact (List.perm_singleton.1 h.symm).symm
    | _ :: _ :: _, ha => simp at ha
  rw [C74_calls, C74_calls]
  by_cases h : (jumps l).length ≤ 1 ∧ (fines l).length ≤ 1 ∧ (segnos l).length ≤ 1
  · rw [same pj h.1, same pf h.2.1, same ps h.2.2, hc, hf]
  · rw [pj.length_eq, pf.length_eq, ps.length_eq] at h
    rw [pj.length_eq, pf.length_eq, ps.length_eq]
    constructor
    · rintro ⟨⟨h1, h2, h3, _⟩, _⟩; exact absurd ⟨h1, h2, h3⟩ h
    · rintro ⟨⟨h1, h2, h3, _⟩, _⟩; exact absurd ⟨h1, h2, h3⟩ h

example : [JumpCall.dc 9 3, .fine 7, .firstBarLen 4].Perm [.firstBarLen 4, .fine 7, .dc 9 3] := by decide

/-- C74: a call is refused only for a jump, Fine or Segno told before, or two Codas, and
the error gives the ticks of both (of all three). -/
theorem C74_refused (r : Rhythm) (l : List JumpCall) (e : Fail) (h : runAll (.new r) l = .error e) :
    ∃ pre c post g, l = pre ++ c :: post ∧ runAll (.new r) pre = .ok g ∧
      ((∃ j t, jumps pre = [j] ∧ ((∃ n, c = .dc t n) ∨ c = .ds t) ∧ e = .err (.duplicatedDsDc j.tick t)) ∨
       (∃ a t, fines pre = [a] ∧ c = .fine t ∧ e = .err (.duplicatedFine a t)) ∨
       (∃ a t, segnos pre = [a] ∧ c = .segno t ∧ e = .err (.duplicatedSegno a t)) ∨
       (∃ a b t, codas pre = [a, b] ∧ c = .coda t ∧ e = .err (.moreThanTwoCodas a b t))) := by
  -- the first call that is refused
  have first : ∀ (l : List JumpCall) (g : GlobalRepeatBuilder), runAll g l = .error e →
      ∃ pre c post g', l = pre ++ c :: post ∧ runAll g pre = .ok g' ∧ run g' c = .error e := by
    intro l
    induction l with
    | nil => intro g h; cases h
    | cons c cs ih =>
      intro g h
      simp only [runAll] at h
      cases hc : run g c with
      | error e' =>
        rw [hc] at h
        cases h
        exact ⟨[], c, cs, g, rfl, rfl, hc⟩
      | ok g' =>
        rw [hc] at h
        obtain ⟨pre, c', post, g'', h1, h2, h3⟩ := ih g' h
        exact ⟨c :: pre, c', post, g'', by rw [h1]; rfl, by simp only [runAll, hc]; exact h2, h3⟩
  obtain ⟨pre, c, post, g, h1, h2, h3⟩ := first l _ h
  refine ⟨pre, c, post, g, h1, h2, ?_⟩
  obtain ⟨⟨l1, l2, l3, l4⟩, e1, e2, e3, e4, -⟩ := (C74_calls r pre g).1 h2
  rw [isCoda_iff] at e4
  have one : ∀ {α : Type} {a : List α} {x : α}, a.length ≤ 1 → some x = a.head? → a = [x] := by
    intro α a x ha hx
    match a, ha with
    | [], _ => cases hx
    | [y], _ => cases hx; rfl
  cases c with
  | dc t n =>
    simp only [run, addingDc] at h3
    split at h3
    · cases h3
    · next p q hd => cases h3; exact .inl ⟨_, t, one l1 (hd ▸ e1), .inl ⟨n, rfl⟩, rfl⟩
    · next p hd => cases h3; exact .inl ⟨_, t, one l1 (hd ▸ e1), .inl ⟨n, rfl⟩, rfl⟩
  | ds t =>
    simp only [run, addingDs] at h3
    split at h3
    · cases h3
    · next p q hd => cases h3; exact .inl ⟨_, t, one l1 (hd ▸ e1), .inr rfl, rfl⟩
    · next p hd => cases h3; exact .inl ⟨_, t, one l1 (hd ▸ e1), .inr rfl, rfl⟩
  | fine t =>
    simp only [run, addingFine] at h3
    split at h3
    · next p hd => cases h3; exact .inr (.inl ⟨p, t, one l2 (hd ▸ e2), rfl, rfl⟩)
    · cases h3
  | segno t =>
    simp only [run, addingSegno] at h3
    split at h3
    · next p hd => cases h3; exact .inr (.inr (.inl ⟨p, t, one l3 (hd ▸ e3), rfl, rfl⟩))
    · cases h3
  | coda t =>
    simp only [run, addingCoda] at h3
    split at h3
    · cases h3
    · cases h3
    · next p q hd =>
      cases h3
      refine .inr (.inr (.inr ⟨p, q, t, ?_, rfl, rfl⟩))
      have := codaList_of l4
      rw [← e4.2, hd] at this
      exact this.symm
  | firstBarLen n => cases h3

example : runAll (.new ⟨4, .D4⟩) [.ds 5, .fine 7, .dc 9 3] = .error (.err (.duplicatedDsDc 5 9)) := by decide

/-- C74: what is built of a D.C. without Segno and Codas: the second pass goes back to the
beginning if the first bar is complete, alone or with the bar of the D.C., and else behind
the first bar, and it ends at the Fine.  Nothing is built without a first bar length. -/
theorem C74_dc (ip : Bool) (r : Rhythm) (l : List JumpCall) (g : GlobalRepeatBuilder) (t len : Nat)
    (h : runAll (.new r) l = .ok g) (hj : jumps l = [.dc t len]) (hs : segnos l = []) (hc : codas l = []) :
    ((firstBarLens l = [] ∧ g.build ip = .ok (none, [])) ∨
     (∃ n, (firstBarLens l).getLast? = some n ∧ U32_MAX < len + n ∧ g.build ip = .error (.panic .overflow)) ∨
     ∃ n target until_, (firstBarLens l).getLast? = some n ∧
      target = (if len + n = r.tickLen ∨ (len = r.tickLen ∧ n = r.tickLen) then 0 else n) ∧
      until_ = (fines l).head?.getD U32_MAX ∧
      g.build ip = .ok (some ⟨.dc t len, (fines l).head?, target, none, if target < until_ then [(target, until_ - 1)] else []⟩, [])) := by
  obtain ⟨-, e1, e2, e3, e4, e5, e6, e7⟩ := (C74_calls r l g).1 h
  rw [hj] at e1
  rw [hs] at e3
  rw [hc] at e4
  obtain ⟨d, f, s, k, b, r', w⟩ := g
  dsimp only at e1 e2 e3 e4 e5 e6 e7
  have e4 : k = none := e4
  subst e1 e3 e4 e7
  subst e6
  cases hb : b with
  | none =>
    subst hb
    exact .inl ⟨List.getLast?_eq_none_iff.1 e5.symm, rfl⟩
  | some n =>
    subst hb
    simp only [build, dcSegno, implicitSegno, List.head?_cons, List.head?_nil]
    by_cases ho : U32_MAX < len + n
    · refine .inr (.inl ⟨n, e5.symm, ho, ?_⟩)
      rw [show addU32 len n = .error .overflow by simp only [addU32]; rw [if_neg (by omega)]]
      rfl
    · refine .inr (.inr ⟨n, _, _, e5.symm, rfl, rfl, ?_⟩)
      rw [show addU32 len n = .ok (len + n) by simp only [addU32]; rw [if_pos (by omega)]]
      rw [← e2]
      generalize htar : (if len + n = r'.tickLen ∨ (len = r'.tickLen ∧ n = r'.tickLen) then 0 else n) = target
      have hseg : (if len + n = r'.tickLen then (pure 0 : R Nat)
          else if len = r'.tickLen ∧ n = r'.tickLen then pure 0 else pure n) = .ok target := by
        rw [← htar]
        by_cases h1 : len + n = r'.tickLen
        · rw [if_pos h1, if_pos (.inl h1)]; rfl
        · rw [if_neg h1]
          by_cases h2 : len = r'.tickLen ∧ n = r'.tickLen
          · rw [if_pos h2, if_pos (.inr h2)]; rfl
          · rw [if_neg h2, if_neg (fun h => h.elim h1 h2)]; rfl
      have hint : toIntervalSet ip target f none = .ok (if target < f.getD U32_MAX then [(target, f.getD U32_MAX - 1)] else []) := by
        simp only [toIntervalSet]
        by_cases hlt : target < f.getD U32_MAX
        · rw [if_neg (by omega), if_pos hlt]
          rw [show subU32 (f.getD U32_MAX) 1 = .ok (f.getD U32_MAX - 1) by simp [subU32]; omega]
          show IntervalSet.ofPairs ip [(target, f.getD U32_MAX - 1)] = _
          simp only [IntervalSet.ofPairs]
          rw [if_pos (by omega)]
          rfl
        · rw [if_pos (by omega), if_neg hlt]
      show (do
        let (sg, warnings) ← (do
          let s ← liftR (if len + n = r'.tickLen then (pure 0 : R Nat)
            else if len = r'.tickLen ∧ n = r'.tickLen then pure 0 else pure n)
          pure (s, []) : RR (Nat × List RenderRegionWarning))
        let s ← liftR (toIntervalSet ip sg f none)
        pure (some (⟨.dc t len, f, sg, none, s⟩ : GlobalRepeat), warnings) : RR _) = _
      rw [hseg]
      show (do
        let s ← liftR (toIntervalSet ip target f none)
        pure (some (⟨.dc t len, f, target, none, s⟩ : GlobalRepeat), []) : RR _) = _
      rw [hint]
      rfl

example : ∃ g, runAll (.new ⟨4, .D4⟩) [.dc 9600 240, .fine 4800, .firstBarLen 240] = .ok g ∧
    g.build true = .ok (some ⟨.dc 9600 240, some 4800, 240, none, [(240, 4799)]⟩, []) := ⟨_, rfl, by decide⟩

/-- C74: with a Segno, a D.C. is a D.S.: the same second pass, the same errors, but for a
warning, and but for a single Coda, which is a warning for a D.C. and an error for a D.S. -/
theorem C74_dc_ds (ip : Bool) (r : Rhythm) (pre post : List JumpCall) (t len s : Nat) (g g' : GlobalRepeatBuilder)
    (h : runAll (.new r) (pre ++ .dc t len :: post) = .ok g) (h' : runAll (.new r) (pre ++ .ds t :: post) = .ok g')
    (hs : segnos (pre ++ post) = [s]) (hf : firstBarLens (pre ++ post) ≠ []) :
    ((codas (pre ++ post)).length ≠ 1 →
      g.build ip = (g'.build ip).map (fun x => (x.1.map (fun y => { y with dsDc := .dc t len }), [.segnoAndDcFound s t]))) ∧
    (∀ a, codas (pre ++ post) = [a] → g'.build ip = .error (.err (.onlyOneCoda a)) ∧
      ∀ x w, g.build ip = .ok (x, w) → w = [.segnoAndDcFound s t, .orphanCodaFound a]) := by
  have ap : ∀ (f : JumpCall → Option Nat) (c : JumpCall), f c = none →
      (pre ++ c :: post).filterMap f = (pre ++ post).filterMap f := by
    intro f c hc
    simp [List.filterMap_append, hc]
  obtain ⟨⟨b1, -, -, b4⟩, e1, e2, e3, e4, e5, e6, e7⟩ := (C74_calls r _ g).1 h
  obtain ⟨⟨c1, -⟩, d1, d2, d3, d4, d5, d6, d7⟩ := (C74_calls r _ g').1 h'
  have sole : ∀ {α : Type} {a b : List α} {x : α}, (a ++ x :: b).length ≤ 1 → (a ++ x :: b).head? = some x := by
    intro α a b x h
    match a with
    | [] => rfl
    | _ :: _ => simp at h
  have j1 : jumps (pre ++ .dc t len :: post) = jumps pre ++ .dc t len :: jumps post := by simp [jumps, List.filterMap_append]
  have j2 : jumps (pre ++ .ds t :: post) = jumps pre ++ .ds t :: jumps post := by simp [jumps, List.filterMap_append]
  rw [j1] at b1 e1
  rw [j2] at c1 d1
  rw [sole b1] at e1
  rw [sole c1] at d1
  simp only [fines, segnos, codas, firstBarLens] at e2 e3 e4 e5 d2 d3 d4 d5 b4 hs hf ⊢
  rw [ap _ _ rfl] at e2 e3 e4 e5 d2 d3 d4 d5 b4
  rw [hs] at e3 d3
  obtain ⟨n, hn⟩ : ∃ n, g.firstBarLen = some n := by
    rw [e5]
    cases hx : List.getLast? _ with
    | none => exact absurd (List.getLast?_eq_none_iff.1 hx) hf
    | some n => exact ⟨n, rfl⟩
  rw [isCoda_iff] at e4 d4
  have hfine : g'.fine = g.fine := by rw [e2, d2]
  have hcoda : g'.coda = g.coda := by rw [e4.2, d4.2]
  have k := e4.2
  clear e4 d4 e2 d2 e5 d5
  generalize List.filterMap _ (pre ++ post) = cs at k b4 ⊢
  obtain ⟨d, f, sg, kd, b, r', w⟩ := g
  obtain ⟨d', f', sg', kd', b', r'', w'⟩ := g'
  dsimp only at *
  subst hfine hcoda e1 d1 e3 d3 e6 d6 e7 d7 hn
  constructor
  · intro hlen
    match cs, hlen, b4 with
    | [], _, _ =>
      subst k
      simp only [build, dcSegno, dcCoda, dsSegno, dsCoda, codaOf, List.head?_cons]
      show (do
        let s' ← liftR (toIntervalSet ip s f' none)
        pure (some (⟨.dc t len, f', s, none, s'⟩ : GlobalRepeat), [RenderRegionWarning.segnoAndDcFound s t]) : RR _) =
        Except.map _ (do
        let s' ← liftR (toIntervalSet ip s f' none)
        pure (some (⟨.ds t, f', s, none, s'⟩ : GlobalRepeat), []) : RR _)
      cases toIntervalSet ip s f' none <;> rfl
    | [a, c], _, _ =>
      subst k
      simp only [build, dcSegno, dcCoda, dsSegno, dsCoda, codaOf, List.head?_cons]
      cases hk : checkCodaPos a c f' with
      | error e => rfl
      | ok u =>
        show (do
          let s' ← liftR (toIntervalSet ip s f' (some (a, c)))
          pure (some (⟨.dc t len, f', s, some (a, c), s'⟩ : GlobalRepeat), [RenderRegionWarning.segnoAndDcFound s t]) : RR _) =
          Except.map _ (do
          let s' ← liftR (toIntervalSet ip s f' (some (a, c)))
          pure (some (⟨.ds t, f', s, some (a, c), s'⟩ : GlobalRepeat), []) : RR _)
        cases toIntervalSet ip s f' (some (a, c)) <;> rfl
  · intro a ha
    subst ha k
    refine ⟨rfl, fun x w hb => ?_⟩
    change (do
        let s' ← liftR (toIntervalSet ip s f' none)
        pure (some (⟨.dc t len, f', s, none, s'⟩ : GlobalRepeat), [RenderRegionWarning.segnoAndDcFound s t, .orphanCodaFound a]) : RR _) = _ at hb
    cases hi : toIntervalSet ip s f' none with
    | error e => rw [hi] at hb; cases hb
    | ok S => rw [hi] at hb; cases hb; rfl

example : ∃ g g', runAll (.new ⟨4, .D4⟩) ([.segno 480, .firstBarLen 240] ++ .dc 9600 240 :: [.coda 960]) = .ok g ∧
    runAll (.new ⟨4, .D4⟩) ([.segno 480, .firstBarLen 240] ++ .ds 9600 :: [.coda 960]) = .ok g' := ⟨_, _, rfl, rfl⟩

end Klavier
