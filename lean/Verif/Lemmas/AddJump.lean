import Verif.Lemmas.Adding

/-! # Adding a jump to a score -/
set_option autoImplicit false
namespace Klavier
open Spec

/-- `f` changes of a bar line only Segno, D.C. and D.S., and puts a D.C. or D.S. only at `d`. -/
def PutsJump (d : Nat) (f : Bar → Bar) : Prop :=
  ∀ x, (f x).startTick = x.startTick ∧ (∀ k, k ≠ .Dc → k ≠ .Ds → k ≠ .Segno → (Has (f x) k ↔ Has x k)) ∧
    (x.startTick ≠ d → ∀ k, k = .Dc ∨ k = .Ds → Has (f x) k → Has x k)

namespace PutsJump

variable {d : Nat} {f : Bar → Bar} (h : PutsJump d f)
include h

theorem ending (x : Bar) : endingNo (f x) = endingNo x := by
  have e := (h x).2.1
  simp [endingNo, e]

theorem after_eq (x : Bar) : after (f x) = after x := by
  have e := (h x).2.1 .Start (by decide) (by decide) (by decide)
  simp only [after, e]

theorem free {x : Bar} (hx : x.startTick ≠ d) : (¬ Has x .Dc → ¬ Has (f x) .Dc) ∧ (¬ Has x .Ds → ¬ Has (f x) .Ds) :=
  ⟨fun k c => k ((h x).2.2 hx _ (.inl rfl) c), fun k c => k ((h x).2.2 hx _ (.inr rfl) c)⟩

theorem quiet {m : Mode} {x : Bar} (k : Quiet m x) (hx : m = .opened → x.startTick ≠ d) : Quiet m (f x) := by
  have e1 := (h x).2.1 .Start (by decide) (by decide) (by decide)
  have e2 := (h x).2.1 .End (by decide) (by decide) (by decide)
  cases m with
  | first => simpa only [Quiet, e1, e2, h.ending] using k
  | plain => simpa only [Quiet, e1, e2] using k
  | opened =>
    obtain ⟨k1, k2, k3, k4, k5⟩ := k
    exact ⟨mt e1.1 k1, mt e2.1 k2, (h.free (hx rfl)).1 k3, (h.free (hx rfl)).2 k4, (h.ending x).trans k5⟩

theorem opens {m : Mode} {x : Bar} (k : OpensEndings m x) (hx : m = .opened → x.startTick ≠ d) : OpensEndings m (f x) := by
  have e1 := (h x).2.1 .Start (by decide) (by decide) (by decide)
  have e2 := (h x).2.1 .End (by decide) (by decide) (by decide)
  cases m with
  | first => simpa only [OpensEndings, e1, e2, h.ending] using k
  | plain => simpa only [OpensEndings, e1, e2, h.ending] using k
  | opened =>
    obtain ⟨k1, k2, k3, k4, k5⟩ := k
    exact ⟨mt e1.1 k1, mt e2.1 k2, (h.free (hx rfl)).1 k3, (h.free (hx rfl)).2 k4, (h.ending x).trans k5⟩

theorem inEnding {n : Nat} {x : Bar} (k : InEnding n x) (hx : x.startTick ≠ d) : InEnding n (f x) :=
  ⟨mt ((h x).2.1 .End (by decide) (by decide) (by decide)).1 k.1, (h.free hx).1 k.2.1, (h.free hx).2 k.2.2.1, (h.ending x).trans k.2.2.2⟩

theorem endings {n : Nat} {bars : List Bar} {ts : List Nat} (k : Endings n bars ts) :
    (∀ x ∈ bars.tail, x.startTick ≠ d) → Endings n (bars.map f) ts := by
  have all : ∀ {n : Nat} {xs : List Bar}, (∀ y ∈ xs, InEnding n y) → (∀ y ∈ xs, y.startTick ≠ d) → ∀ y ∈ xs.map f, InEnding n y := by
    intro n xs h1 h2 y hy
    obtain ⟨z, hz, rfl⟩ := List.mem_map.1 hy
    exact h.inEnding (h1 z hz) (h2 z hz)
  induction k with
  | @last n x xs h1 =>
    intro hd
    rw [List.map_cons, ← (h x).1]
    exact .last (all h1 hd)
  | @more n x y xs ys ts h1 h2 h3 ih =>
    intro hd
    simp only [List.tail_cons, List.mem_append, List.mem_cons] at hd
    rw [List.map_cons, List.map_append, List.map_cons, ← (h x).1]
    exact .more (all h1 fun y hy => hd y (.inl hy)) (h.inEnding h2 (hd y (.inr (.inl rfl)))) (ih fun z hz => hd z (.inr (.inr hz)))

/-- A D.C. or D.S. outside of all repeats and endings, and a Segno outside of the endings left
out on a second pass, do not matter to what the score reads as. -/
theorem reads {sg sg' : Option Nat} {m : Mode} {a : Nat} {bars : List Bar} {ps : List Passage} (k : Reads sg m a bars ps) :
    (m = .first → a = 0) → BarsOk bars → (m ≠ .first → ∀ x ∈ bars, a < x.startTick) → (∀ p ∈ ps, p.Outside d) →
    (∀ a ts b, Passage.endings a ts b ∈ ps → SegnoOk sg' ts) → Reads sg' m a (bars.map f) ps := by
  have hafter : ∀ x : Bar, after x ≠ .first := by
    intro x
    unfold after
    split <;> decide
  have all : ∀ {m : Mode} {xs : List Bar}, (∀ y ∈ xs, Quiet m y) → (m = .opened → ∀ y ∈ xs, y.startTick ≠ d) → ∀ y ∈ xs.map f, Quiet m y := by
    intro m xs h1 h2 y hy
    obtain ⟨z, hz, rfl⟩ := List.mem_map.1 hy
    exact h.quiet (h1 z hz) (fun e => h2 e z hz)
  induction k with
  | last hm hq =>
    intro _ _ _ _ _
    exact .last hm (all hq fun e => absurd e hm)
  | @start m a inside rest x ps hm hq h1 h2 hr ih =>
    intro h0 hb ha ho hs
    have hp := List.pairwise_cons.1 (List.pairwise_append.1 hb.1).2.1
    rw [List.map_append, List.map_cons, ← (h x).1]
    refine .start hm (all hq fun e => absurd e hm) (((h x).2.1 .Start (by decide) (by decide) (by decide)).2 h1)
      (mt ((h x).2.1 .End (by decide) (by decide) (by decide)).1 h2) ?_
    rw [(h x).1]
    exact ih (fun e => by cases e) ⟨hp.2, fun y hy => hb.2 y (by simp [hy])⟩ (fun _ => hp.1) (fun p k => ho p (.tail _ k))
      (fun a ts b k => hs a ts b (.tail _ k))
  | @close m a inside rest x ps hm hq h1 hr ih =>
    intro h0 hb ha ho hs
    have hpa := List.pairwise_append.1 hb.1
    have hp := List.pairwise_cons.1 hpa.2.1
    have hd : d ≤ a ∨ x.startTick ≤ d := ho _ List.mem_cons_self
    rw [List.map_append, List.map_cons, ← (h x).1]
    refine .close hm (all hq fun e y hy => ?_) (((h x).2.1 .End (by decide) (by decide) (by decide)).2 h1) ?_
    · have := ha (by rw [e]; decide) y (by simp [hy])
      have := hpa.2.2 y hy x (by simp)
      omega
    · rw [h.after_eq, (h x).1]
      exact ih (fun e => absurd e (hafter x)) ⟨hp.2, fun y hy => hb.2 y (by simp [hy])⟩ (fun _ => hp.1) (fun p k => ho p (.tail _ k))
        (fun a ts b k => hs a ts b (.tail _ k))
  | @endings m a inside es rest v x ts ps hm hq h1 he hok h2 h3 hr ih =>
    intro h0 hb ha ho hs
    have hpa := List.pairwise_append.1 hb.1
    have hpv := List.pairwise_cons.1 hpa.2.1
    have hpe := List.pairwise_append.1 hpv.2
    have hp := List.pairwise_cons.1 hpe.2.1
    have hd : d ≤ a ∨ x.startTick ≤ d := ho _ List.mem_cons_self
    have hv := hpv.1 x (by simp)
    rw [List.map_append, List.map_cons, List.map_append, List.map_cons, ← (h x).1]
    refine .endings hm (all hq fun e y hy => ?_) (h.opens h1 fun e => ?_) ?_ (hs _ _ _ List.mem_cons_self)
      (mt ((h x).2.1 .End (by decide) (by decide) (by decide)).1 h2) ((h.ending x).trans h3) ?_
    · have := ha (by rw [e]; decide) y (by simp [hy])
      have := hpa.2.2 y hy x (by simp)
      omega
    · have := ha (by rw [e]; decide) v (by simp)
      omega
    · rw [← List.map_cons]
      refine h.endings he fun y hy => ?_
      have hva : a ≤ v.startTick := by
        by_cases e : m = .first
        · have := h0 e; omega
        · exact Nat.le_of_lt (ha e v (by simp))
      have := hpv.1 y (by simp only [List.tail_cons] at hy; simp [hy])
      have := hpe.2.2 y hy x (by simp)
      omega
    · rw [h.after_eq, (h x).1]
      exact ih (fun e => absurd e (hafter x)) ⟨hp.2, fun y hy => hb.2 y (by simp [hy])⟩ (fun _ => hp.1) (fun p k => ho p (.tail _ k))
        (fun a ts b k => hs a ts b (.tail _ k))

/-- In the first passage of the score a D.C. or D.S. is only refused within the endings. -/
theorem reads_first {sg sg' : Option Nat} {bars : List Bar} {ps : List Passage} (k : Reads sg .first 0 bars ps)
    (hb : BarsOk bars) (ho : ∀ p ∈ ps.tail, p.Outside d)
    (hh : ∀ a v ts b, ps.head? = some (.endings a (v :: ts) b) → d ≤ v ∨ b ≤ d)
    (hs : ∀ a ts b, Passage.endings a ts b ∈ ps → SegnoOk sg' ts) : Reads sg' .first 0 (bars.map f) ps := by
  have hafter : ∀ x : Bar, after x ≠ .first := by
    intro x
    unfold after
    split <;> decide
  have all : ∀ {xs : List Bar}, (∀ y ∈ xs, Quiet .first y) → ∀ y ∈ xs.map f, Quiet .first y := by
    intro xs h1 y hy
    obtain ⟨z, hz, rfl⟩ := List.mem_map.1 hy
    exact h.quiet (h1 z hz) (fun e => by cases e)
  cases k with
  | last hm hq => exact .last hm (all hq)
  | @start _ _ inside rest x ps hm hq h1 h2 hr =>
    have hp := List.pairwise_cons.1 (List.pairwise_append.1 hb.1).2.1
    rw [List.map_append, List.map_cons, ← (h x).1]
    refine .start hm (all hq) (((h x).2.1 .Start (by decide) (by decide) (by decide)).2 h1)
      (mt ((h x).2.1 .End (by decide) (by decide) (by decide)).1 h2) ?_
    rw [(h x).1]
    exact h.reads hr (fun e => by cases e) ⟨hp.2, fun y hy => hb.2 y (by simp [hy])⟩ (fun _ => hp.1) ho
      (fun a ts b k => hs a ts b (.tail _ k))
  | @close _ _ inside rest x ps hm hq h1 hr =>
    have hp := List.pairwise_cons.1 (List.pairwise_append.1 hb.1).2.1
    rw [List.map_append, List.map_cons, ← (h x).1]
    refine .close hm (all hq) (((h x).2.1 .End (by decide) (by decide) (by decide)).2 h1) ?_
    rw [h.after_eq, (h x).1]
    exact h.reads hr (fun e => absurd e (hafter x)) ⟨hp.2, fun y hy => hb.2 y (by simp [hy])⟩ (fun _ => hp.1) ho
      (fun a ts b k => hs a ts b (.tail _ k))
  | @endings _ _ inside es rest v x ts ps hm hq h1 he hok h2 h3 hr =>
    have hpv := List.pairwise_cons.1 (List.pairwise_append.1 hb.1).2.1
    have hpe := List.pairwise_append.1 hpv.2
    have hp := List.pairwise_cons.1 hpe.2.1
    rw [List.map_append, List.map_cons, List.map_append, List.map_cons, ← (h x).1]
    refine .endings hm (all hq) (h.opens h1 fun e => by cases e) ?_ (hs _ _ _ List.mem_cons_self)
      (mt ((h x).2.1 .End (by decide) (by decide) (by decide)).1 h2) ((h.ending x).trans h3) ?_
    · rw [← List.map_cons]
      refine h.endings he fun y hy => ?_
      have hd : d ≤ v.startTick ∨ x.startTick ≤ d := by
        cases he with
        | last => exact hh _ _ _ _ rfl
        | more => exact hh _ _ _ _ rfl
      have := hpv.1 y (by simp only [List.tail_cons] at hy; simp [hy])
      have := hpe.2.2 y hy x (by simp)
      omega
    · rw [h.after_eq, (h x).1]
      exact h.reads hr (fun e => absurd e (hafter x)) ⟨hp.2, fun y hy => hb.2 y (by simp [hy])⟩ (fun _ => hp.1) ho
        (fun a ts b k => hs a ts b (.tail _ k))

end PutsJump

/-- No bar line within the endings has a D.C. or D.S. -/
theorem Endings_free {k : Nat} {bars : List Bar} {ts : List Nat} (h : Endings k bars ts) :
    ∀ y ∈ bars.tail, ¬ Has y .Dc ∧ ¬ Has y .Ds := by
  induction h with
  | last h1 => exact fun y hy => ⟨(h1 y hy).2.1, (h1 y hy).2.2.1⟩
  | @more k x y xs ys ts h1 h2 h3 ih =>
    intro z hz
    rcases List.mem_append.1 hz with hz | hz
    · exact ⟨(h1 z hz).2.1, (h1 z hz).2.2.1⟩
    · rcases List.mem_cons.1 hz with rfl | hz
      · exact ⟨h2.2.1, h2.2.2.1⟩
      · exact ih z hz

/-- A D.C. or D.S. is not within the endings of the first passage. -/
theorem outside_head {sg : Option Nat} {bars : List Bar} {ps : List Passage} (k : Reads sg .first 0 bars ps) (hb : BarsOk bars)
    {d : Nat} (hd : ∃ y ∈ bars, (Has y .Dc ∨ Has y .Ds) ∧ y.startTick = d) {a v b : Nat} {ts : List Nat}
    (hh : ps.head? = some (.endings a (v :: ts) b)) : d ≤ v ∨ b ≤ d := by
  obtain ⟨y, hy, hj, rfl⟩ := hd
  cases k with
  | last hm hq => cases hh
  | start hm hq h1 h2 hr => cases hh
  | close hm hq h1 hr => cases hh
  | @endings _ _ inside es rest w x ts' ps hm hq h1 he hok h2 h3 hr =>
    have hpa := List.pairwise_append.1 hb.1
    have hpv := List.pairwise_cons.1 hpa.2.1
    have hp := List.pairwise_cons.1 (List.pairwise_append.1 hpv.2).2.1
    simp only [List.head?_cons, Option.some.injEq, Passage.endings.injEq] at hh
    obtain ⟨_, e, e'⟩ := hh
    have ew : v = w.startTick := by
      cases he with
      | last => cases e; rfl
      | more => cases e; rfl
    rw [ew, ← e']
    rcases List.mem_append.1 hy with hy | hy
    · exact .inl (Nat.le_of_lt (hpa.2.2 y hy w (by simp)))
    · rcases List.mem_cons.1 hy with rfl | hy
      · exact .inl (Nat.le_refl _)
      · rcases List.mem_append.1 hy with hy | hy
        · have := Endings_free he y hy
          exact absurd hj (by simp [this])
        · rcases List.mem_cons.1 hy with rfl | hy
          · exact .inr (Nat.le_refl _)
          · exact .inr (Nat.le_of_lt (hp.1 y hy))

theorem reads_segno {sg : Option Nat} {m : Mode} {a : Nat} {bars : List Bar} {ps : List Passage} (k : Reads sg m a bars ps) :
    ∀ a ts b, Passage.endings a ts b ∈ ps → SegnoOk sg ts := by
  induction k with
  | last => intro a ts b h; simp at h
  | start _ _ _ _ _ ih =>
    intro a ts b h
    rcases List.mem_cons.1 h with e | h
    · cases e
    · exact ih a ts b h
  | close _ _ _ _ ih =>
    intro a ts b h
    rcases List.mem_cons.1 h with e | h
    · cases e
    · exact ih a ts b h
  | endings _ _ _ _ hok _ _ _ ih =>
    intro a ts b h
    rcases List.mem_cons.1 h with e | h
    · cases e; exact hok
    · exact ih a ts b h

/-- What is played with all repeats, cut at a tick that is in the midst of no repeat. -/
theorem full_upTo {d a : Nat} {ps : List Passage} (h : Chain a ps) (ha : a < U32_MAX) (hd : d < U32_MAX) (ho : ∀ p ∈ ps, p.Outside d) :
    ∃ rest, ps.flatMap Passage.full = ps.flatMap (Passage.upTo d) ++ rest ∧ (∀ t ∈ ps.flatMap (Passage.upTo d), t < d) ∧ ∀ t ∈ rest, d ≤ t := by
  -- behind `d` there is nothing left to play before it
  have late : ∀ {a : Nat} {ps : List Passage}, Chain a ps → a < U32_MAX → d < a → ps.flatMap (Passage.upTo d) = [] ∧
      ∀ t ∈ ps.flatMap Passage.full, d ≤ t := by
    intro a ps h ha hda
    have hs := chain_start h ha
    have hm := Chain_mem h ha
    refine ⟨?_, ?_⟩
    · rw [List.flatMap_eq_nil_iff]
      intro p hp
      have h1 := hs p hp
      have h2 := passage_bounds (hm p hp).1
      unfold Passage.upTo
      rw [if_neg (by omega), span_empty (by omega)]
    · intro t ht
      obtain ⟨p, hp, ht⟩ := List.mem_flatMap.1 ht
      have h1 := hs p hp
      have := ((mem_full (hm p hp).1 t).1 ht).1
      omega
  induction ps generalizing a with
  | nil => exact h.elim
  | cons p ps ih =>
    have hm := Chain_mem h ha p List.mem_cons_self
    have hst : p.start = a := by
      cases ps with
      | nil => simp only [Chain] at h; rw [h]; rfl
      | cons q ps => exact h.1
    by_cases hp : p.stop ≤ d
    · cases ps with
      | nil =>
        simp only [Chain] at h
        subst h
        simp only [Passage.stop] at hp
        omega
      | cons q ps =>
        obtain ⟨_, _, h3, h4⟩ := h
        obtain ⟨rest, e1, e2, e3⟩ := ih h4 h3 (fun p k => ho p (.tail _ k))
        have hu : p.upTo d = p.full := if_pos hp
        refine ⟨rest, ?_, ?_, e3⟩
        · have hc : (p :: q :: ps).flatMap (Passage.upTo d) = p.upTo d ++ (q :: ps).flatMap (Passage.upTo d) := rfl
          rw [List.flatMap_cons, e1, hc, hu, List.append_assoc]
        · intro t ht
          rw [List.flatMap_cons, List.mem_append] at ht
          rcases ht with ht | ht
          · rw [hu] at ht
            have := ((mem_full hm.1 t).1 ht).2
            omega
          · exact e2 t ht
    · have hu : p.upTo d = span p.start d := if_neg hp
      have hrest : ps.flatMap (Passage.upTo d) = [] ∧ ∀ t ∈ ps.flatMap Passage.full, d ≤ t := by
        cases ps with
        | nil => exact ⟨rfl, by simp⟩
        | cons q ps => exact late h.2.2.2 h.2.2.1 (by omega)
      have hfull : ∃ r, p.full = p.upTo d ++ r ∧ ∀ t ∈ r, d ≤ t := by
        rw [hu]
        by_cases hdp : d ≤ p.start
        · refine ⟨p.full, by rw [span_empty hdp]; rfl, fun t ht => ?_⟩
          have := ((mem_full hm.1 t).1 ht).1
          omega
        · cases p with
          | plain x y =>
            simp only [Passage.start, Passage.stop] at hdp hp
            refine ⟨span d y, span_append (a := x) (m := d) (b := y) (by omega) (by omega), fun t ht => (mem_span.1 ht).1⟩
          | repeated x y =>
            rcases ho _ List.mem_cons_self with k | k
            · exact absurd k hdp
            · exact absurd k hp
          | endings x ts y =>
            rcases ho _ List.mem_cons_self with k | k
            · exact absurd k hdp
            · exact absurd k hp
      obtain ⟨r, e, hr⟩ := hfull
      refine ⟨r ++ ps.flatMap Passage.full, ?_, ?_, ?_⟩
      · rw [List.flatMap_cons, List.flatMap_cons (f := Passage.upTo d), hrest.1, e, List.append_nil, List.append_assoc]
      · intro t ht
        rw [List.flatMap_cons, hrest.1, List.append_nil, hu] at ht
        exact (mem_span.1 ht).2
      · intro t ht
        rcases List.mem_append.1 ht with ht | ht
        · exact hr t ht
        · exact hrest.2 t ht

end Klavier
