import Verif.Spec.Fewest
import Verif.Lemmas.Renders

/-! # Helper lemmas about the fewest chunks -/
set_option autoImplicit false
namespace Klavier
open Spec

/-- Something is played, and it does not run on into the next chunk. -/
def Tight : List Chunk → Prop
  | [] => True
  | [c] => c.startTick < c.endTick
  | c :: d :: cs => c.startTick < c.endTick ∧ c.endTick ≠ d.startTick ∧ Tight (d :: cs)

theorem Tight_tail {c : Chunk} {cs : List Chunk} (h : Tight (c :: cs)) : Tight cs := by
  cases cs with
  | nil => trivial
  | cons d cs => exact h.2.2

theorem Tight_head {c : Chunk} {cs : List Chunk} (h : Tight (c :: cs)) : c.startTick < c.endTick := by
  cases cs with
  | nil => exact h
  | cons d cs => exact h.1

theorem Tight_optimizeFrom (cs : List Chunk) : ∀ c : Chunk, c.startTick < c.endTick → (∀ d ∈ cs, d.startTick < d.endTick) →
    Tight (Chunk.optimizeFrom c cs) := by
  induction cs with
  | nil => intro c hc _; exact hc
  | cons d cs ih =>
    intro c hc h
    have hd := h d (by simp)
    have hr : ∀ e ∈ cs, e.startTick < e.endTick := fun e he => h e (by simp [he])
    rw [Chunk.optimizeFrom]
    by_cases e : c.endTick = d.startTick
    · rw [if_pos e]
      exact ih _ (by simp only; omega) hr
    · rw [if_neg e]
      obtain ⟨x, r, hx⟩ := optimizeFrom_head cs d
      have := ih d hd hr
      rw [hx] at this ⊢
      exact ⟨hc, e, this⟩

theorem span_cons {a b : Nat} (h : a < b) : span a b = a :: span (a + 1) b := by
  rw [span, span, show b - a = (b - (a + 1)) + 1 by omega, List.range'_succ]

private theorem played_ne {c : Chunk} {cs : List Chunk} (h : Tight (c :: cs)) :
    ∃ r, played (c :: cs) = c.startTick :: r := by
  rw [played_cons, span_cons (Tight_head h)]
  exact ⟨_, rfl⟩

/-- From a common start, the shorter of two chunks is followed by what follows in the longer. -/
private theorem same_end {a b b' : Nat} (h : a < b) {cs ds : List Chunk}
    (hc : Tight (⟨a, b⟩ :: cs)) (e : span a b ++ played cs = span a b' ++ played ds) : b' ≤ b := by
  by_cases q : b' ≤ b
  · exact q
  exfalso
  rw [span_append (a := a) (m := b) (b := b') (by omega) (by omega), List.append_assoc] at e
  have e := List.append_cancel_left e
  rw [span_cons (by omega : b < b')] at e
  cases cs with
  | nil => simp [played_nil] at e
  | cons d cs =>
    obtain ⟨r, hr⟩ := played_ne (Tight_tail hc)
    rw [hr] at e
    have := (List.cons.inj e).1
    exact hc.2.1 this.symm

theorem Tight_unique (cs : List Chunk) : ∀ ds : List Chunk, Tight cs → Tight ds → played cs = played ds → cs = ds := by
  induction cs with
  | nil =>
    intro ds _ hd e
    cases ds with
    | nil => rfl
    | cons d ds =>
      obtain ⟨r, hr⟩ := played_ne hd
      rw [hr] at e
      cases e
  | cons c cs ih =>
    intro ds hc hd e
    cases ds with
    | nil =>
      obtain ⟨r, hr⟩ := played_ne hc
      rw [hr] at e
      cases e
    | cons d ds =>
      obtain ⟨r, hr⟩ := played_ne hc
      obtain ⟨r', hr'⟩ := played_ne hd
      have hs : c.startTick = d.startTick := by
        rw [hr, hr'] at e
        exact (List.cons.inj e).1
      obtain ⟨a, b⟩ := c
      obtain ⟨a', b'⟩ := d
      have hs : a = a' := hs
      subst hs
      have h1 : a < b := Tight_head hc
      have h2 : a < b' := Tight_head hd
      rw [played_cons, played_cons] at e
      have e : span a b ++ played cs = span a b' ++ played ds := e
      have := same_end h1 hc e
      have := same_end h2 hd e.symm
      have hb : b = b' := by omega
      subst hb
      rw [ih ds (Tight_tail hc) (Tight_tail hd) (List.append_cancel_left e)]

/-- The chunks that play something. -/
def sounding (cs : List Chunk) : List Chunk := cs.filter (fun c => decide (c.startTick < c.endTick))

theorem played_sounding (cs : List Chunk) : played (sounding cs) = played cs := by
  induction cs with
  | nil => rfl
  | cons c cs ih =>
    rw [sounding, List.filter_cons]
    by_cases h : c.startTick < c.endTick
    · rw [if_pos (by simpa using h), played_cons, played_cons]
      exact congrArg _ ih
    · rw [if_neg (by simpa using h), played_cons, span_empty (by omega), List.nil_append]
      exact ih

theorem sounding_all {cs : List Chunk} : ∀ c ∈ sounding cs, c.startTick < c.endTick := by
  intro c hc
  simpa using (List.mem_filter.1 hc).2

theorem Tight_optimize {cs : List Chunk} (h : ∀ c ∈ cs, c.startTick < c.endTick) : Tight (Chunk.optimize cs) := by
  cases cs with
  | nil => trivial
  | cons c cs => exact Tight_optimizeFrom cs c (h c (by simp)) (fun d hd => h d (by simp [hd]))

theorem optimizeFrom_length (cs : List Chunk) : ∀ c : Chunk, (Chunk.optimizeFrom c cs).length ≤ cs.length + 1 ∧
    ((Chunk.optimizeFrom c cs).length = cs.length + 1 → Chunk.optimizeFrom c cs = c :: cs) := by
  induction cs with
  | nil => intro c; exact ⟨Nat.le_refl _, fun _ => rfl⟩
  | cons d cs ih =>
    intro c
    rw [Chunk.optimizeFrom]
    by_cases e : c.endTick = d.startTick
    · rw [if_pos e]
      have := (ih ⟨c.startTick, d.endTick⟩).1
      simp only [List.length_cons]
      exact ⟨by omega, fun h => by omega⟩
    · rw [if_neg e]
      have := ih d
      simp only [List.length_cons]
      exact ⟨by omega, fun h => by rw [this.2 (by omega)]⟩

theorem optimize_length (cs : List Chunk) : (Chunk.optimize cs).length ≤ cs.length ∧
    ((Chunk.optimize cs).length = cs.length → Chunk.optimize cs = cs) := by
  cases cs with
  | nil => exact ⟨Nat.le_refl _, fun _ => rfl⟩
  | cons c cs => exact optimizeFrom_length cs c

theorem Tight_played {cs es : List Chunk} (h : Tight cs) (e : played es = played cs) : cs = Chunk.optimize (sounding es) := by
  refine Tight_unique _ _ h (Tight_optimize sounding_all) ?_
  rw [← e, ← played_sounding es]
  generalize hs : sounding es = s
  have hall : ∀ c ∈ s, c.startTick < c.endTick := hs ▸ sounding_all
  cases s with
  | nil => rfl
  | cons c s =>
    rw [Chunk.optimize, optimizeFrom_played s c (Nat.le_of_lt (hall c (by simp)))
      (fun d hd => Nat.le_of_lt (hall d (by simp [hd]))), played_cons]

theorem Tight_shortest {cs es : List Chunk} (h : Tight cs) (e : played es = played cs) :
    cs.length ≤ es.length ∧ (es.length = cs.length → es = cs) := by
  have k := Tight_played h e
  have h1 := optimize_length (sounding es)
  have h2 : (sounding es).length ≤ es.length := List.length_filter_le _ _
  rw [← k] at h1
  refine ⟨by omega, fun q => ?_⟩
  have h4 : (sounding es).length = es.length := by omega
  have h3 : sounding es = es := List.Sublist.eq_of_length List.filter_sublist h4
  rw [h3] at h1
  exact (h1.2 q.symm).symm

/-! ## What is left of the empty chunks of a score -/

/-- An empty chunk is followed by one that starts where it does. -/
def Smooth : List Chunk → Prop
  | [] => True
  | [c] => c.startTick < c.endTick
  | c :: d :: cs => c.startTick ≤ c.endTick ∧ (c.startTick = c.endTick → d.startTick = c.startTick) ∧ Smooth (d :: cs)

theorem Smooth_optimizeFrom (cs : List Chunk) : ∀ c : Chunk, Smooth (c :: cs) →
    ∀ x ∈ Chunk.optimizeFrom c cs, x.startTick < x.endTick := by
  induction cs with
  | nil =>
    intro c h x hx
    simp only [Chunk.optimizeFrom, List.mem_singleton] at hx
    exact hx ▸ h
  | cons d cs ih =>
    intro c h x hx
    obtain ⟨h1, h2, h3⟩ := h
    rw [Chunk.optimizeFrom] at hx
    by_cases e : c.endTick = d.startTick
    · rw [if_pos e] at hx
      refine ih _ ?_ x hx
      cases cs with
      | nil =>
        have h3 : d.startTick < d.endTick := h3
        show c.startTick < d.endTick
        omega
      | cons f cs =>
        obtain ⟨k1, k2, k3⟩ := h3
        refine ⟨by simp only; omega, ?_, k3⟩
        simp only
        intro q
        have := k2 (by omega)
        omega
    · rw [if_neg e] at hx
      rcases List.mem_cons.1 hx with rfl | hx
      · have : x.startTick ≠ x.endTick := fun q => e (by have := h2 q; omega)
        omega
      · exact ih d h3 x hx

theorem Smooth_of_all {l m : List Chunk} (hl : ∀ c ∈ l, c.startTick < c.endTick) (hm : Smooth m) : Smooth (l ++ m) := by
  induction l with
  | nil => exact hm
  | cons c l ih =>
    have hc := hl c (by simp)
    have := ih (fun d hd => hl d (by simp [hd]))
    rw [List.cons_append]
    cases h : l ++ m with
    | nil => exact hc
    | cons d r =>
      rw [h] at this
      exact ⟨Nat.le_of_lt hc, fun q => by omega, this⟩

theorem Smooth_cons {c d : Chunk} {cs : List Chunk} (h1 : c.startTick = c.endTick) (h2 : d.startTick = c.startTick)
    (h : Smooth (d :: cs)) : Smooth (c :: d :: cs) := ⟨by omega, fun _ => h2, h⟩

private theorem variations_strict (v : Nat) (ts : List Nat) (b : Nat) (h1 : (v :: ts).Pairwise (· < ·))
    (h2 : ∀ t ∈ v :: ts, t < b) : ∀ r ∈ variationsFrom v ts b, r.start < r.stop := by
  induction ts generalizing v with
  | nil =>
    intro r hr
    simp only [variationsFrom, List.mem_singleton] at hr
    subst hr
    exact h2 v (by simp)
  | cons t ts ih =>
    intro r hr
    rcases List.mem_cons.1 hr with rfl | hr
    · exact (List.pairwise_cons.1 h1).1 t (by simp)
    · exact ih t (List.pairwise_cons.1 h1).2 (fun s hs => h2 s (by simp [hs])) r hr

private theorem fullVariations_strict {a v b : Nat} {ts : List Nat} (ho : (Passage.endings a (v :: ts) b).Ordered) (h : a < v) :
    ∀ c ∈ SimpleRegion.fullVariations ⟨a, v⟩ (variationsFrom v ts b), c.startTick < c.endTick := by
  obtain ⟨o1, o2, o3, o4⟩ := ho
  intro c hc
  simp only [SimpleRegion.fullVariations, SequenceRegion.toChunks, List.mem_flatMap, List.mem_append,
    List.mem_singleton] at hc
  obtain ⟨r, hr, rfl | rfl⟩ := hc
  · exact h
  · exact variations_strict v ts b o2 o3 r hr

private theorem fullVariations_head (a v b : Nat) (ts : List Nat) :
    ∃ r, SimpleRegion.fullVariations ⟨a, v⟩ (variationsFrom v ts b) = ⟨a, v⟩ :: r := by
  cases ts <;> exact ⟨_, rfl⟩

/-- The chunks of passages played in full, if no endings begin at once. -/
theorem full_smooth (ip : Bool) (ps : List Passage) : ∀ a cs, a < U32_MAX → Chain a ps →
    (∀ t ts b, Passage.endings 0 (0 :: t :: ts) b ∉ ps) →
    CompoundRegion.renderAll ip .nonDcDs (ps.map Passage.region) = .ok cs →
    Smooth cs ∧ ∃ c r, cs = c :: r ∧ c.startTick = a := by
  induction ps with
  | nil => intro a cs _ h; exact absurd h (by simp [Chain])
  | cons p ps ih =>
    intro a cs ha h hn hc
    have ho := (Chain_mem h ha p (by simp)).1
    cases ps with
    | nil =>
      simp only [Chain] at h
      subst h
      cases hc
      exact ⟨ha, _, _, rfl, rfl⟩
    | cons q ps =>
      obtain ⟨d1, d2, d3, d4⟩ := h
      rw [List.map_cons, CompoundRegion.renderAll, R_bind_eq_ok] at hc
      obtain ⟨x, h1, hc⟩ := hc
      rw [R_bind_eq_ok] at hc
      obtain ⟨y, h2, hc⟩ := hc
      cases hc
      obtain ⟨s, c, r, rfl, e⟩ := ih p.stop y d3 d4 (fun t ts b hm => hn t ts b (by simp [hm])) h2
      cases p with
      | plain u v =>
        cases h1
        have ho : u < v ∨ (u = 0 ∧ v = 0) := ho
        have e : c.startTick = v := e
        refine ⟨?_, _, _, rfl, d1⟩
        rcases ho with ho | ⟨rfl, rfl⟩
        · exact Smooth_of_all (l := [_]) (by simpa using ho) s
        · exact Smooth_cons rfl e s
      | repeated u v =>
        cases h1
        have ho : u < v ∨ (u = 0 ∧ v = 0) := ho
        have e : c.startTick = v := e
        refine ⟨?_, _, _, rfl, d1⟩
        rcases ho with ho | ⟨rfl, rfl⟩
        · exact Smooth_of_all (l := [_, _]) (by simpa using ho) s
        · exact Smooth_cons rfl rfl (Smooth_cons rfl e s)
      | endings u ts v =>
        cases ts with
        | nil => exact ho.elim
        | cons w ts =>
          cases h1
          have d1 : u = a := d1
          subst d1
          by_cases hw : u < w
          · refine ⟨Smooth_of_all (fullVariations_strict ho hw) s, ?_⟩
            obtain ⟨r', hr'⟩ := fullVariations_head u w v ts
            rw [hr']
            exact ⟨_, _, rfl, rfl⟩
          · obtain ⟨o1, _, o3, _⟩ := ho
            have : u = 0 ∧ w = 0 := by omega
            obtain ⟨rfl, rfl⟩ := this
            cases ts with
            | cons t ts => exact absurd List.mem_cons_self (hn t ts v)
            | nil =>
              refine ⟨?_, ⟨0, 0⟩, _, rfl, rfl⟩
              have : (0 : Nat) < v := o3 0 (by simp)
              exact Smooth_cons rfl rfl (Smooth_of_all (l := [_]) (by simpa using this) s)

private theorem iter0_strict {ip : Bool} {d : Nat} {p : Passage} {cs : List Chunk} (ho : p.Ordered) (hp : p.Positive)
    (h : p.region.renderChunks ip (.iter0 d) = .ok cs) : ∀ c ∈ cs, c.startTick < c.endTick := by
  cases p with
  | plain a b =>
    have ho : a < b ∨ (a = 0 ∧ b = 0) := ho
    have hp : 0 < b := hp
    simp only [Passage.region, SimpleRegion.renderChunks] at h
    split at h
    · cases h; simp only [List.mem_singleton, forall_eq]; omega
    split at h
    · cases h; simp only [List.mem_singleton, forall_eq]; omega
    · cases h; simp
  | repeated a b =>
    have ho : a < b ∨ (a = 0 ∧ b = 0) := ho
    have hp : 0 < b := hp
    simp only [Passage.region, SimpleRegion.renderChunks] at h
    split at h
    · cases h; simp only [SequenceRegion.toChunks, List.mem_append, List.mem_singleton, or_self, forall_eq]; omega
    split at h
    · cases h
    · cases h; simp
  | endings a ts b =>
    cases ts with
    | nil => exact ho.elim
    | cons v ts =>
      have hv : 0 < v := hp.2 v (by simp)
      simp only [Passage.region, SimpleRegion.renderChunks, variationsFrom_last] at h
      split at h
      · cases h; simp
      split at h
      · cases h
      · cases h
        have := ho.1
        exact fullVariations_strict ho (by omega)

private theorem sections_strict (s : IntervalSet) : ∀ cs, (∀ i ∈ s, i.1 ≤ i.2) → SimpleRegion.sectionChunks s = .ok cs →
    ∀ c ∈ cs, c.startTick < c.endTick := by
  induction s with
  | nil => intro cs _ h; cases h; simp
  | cons i s ih =>
    intro cs hs h
    obtain ⟨lo, hi⟩ := i
    rw [SimpleRegion.sectionChunks, R_bind_eq_ok] at h
    obtain ⟨e, h1, h⟩ := h
    rw [R_bind_eq_ok] at h
    obtain ⟨l, h2, h⟩ := h
    cases h
    have hle : lo ≤ hi := hs (lo, hi) (by simp)
    have he : e = hi + 1 := by
      simp only [addU32] at h1
      split at h1
      · cases h1; rfl
      · cases h1
    intro c hc
    rcases List.mem_cons.1 hc with rfl | hc
    · simp only; omega
    · exact ih l (fun i hi => hs i (by simp [hi])) h2 c hc

private theorem iter1_strict {ip : Bool} {g : GlobalRepeat} {p : Passage} {cs : List Chunk}
    (h : p.region.renderChunks ip (.iter1 g) = .ok cs) : ∀ c ∈ cs, c.startTick < c.endTick := by
  have hr : p.region.renderChunks ip (.iter1 g) = p.region.iter1Chunks ip g := by
    cases p with
    | plain a b => rfl
    | repeated a b => rfl
    | endings a ts b => cases ts <;> rfl
  rw [hr, SimpleRegion.iter1Chunks, R_bind_eq_ok] at h
  obtain ⟨s, _, h⟩ := h
  exact sections_strict _ cs (IntervalSet.inter_spec g.iter1 s).1.2 h

/-- With a jump no chunk is empty. -/
theorem jump_strict {bars : List Bar} (hb : BarsOk bars) {ip : Bool} {ps : List Passage} {g : GlobalRepeat} {sg : Option Nat}
    (hr : Reads sg .first 0 bars ps) {a b : List Chunk}
    (ha : CompoundRegion.renderAll ip (.iter0 g.dsDc.tick) (ps.map Passage.region) = .ok a)
    (hbb : CompoundRegion.renderAll ip (.iter1 g) (ps.map Passage.region) = .ok b) :
    (∀ p ∈ ps, p.Positive) ∧ ∀ c ∈ a ++ b, c.startTick < c.endTick := by
  have hch := Reads_chain hr (fun _ => rfl) hb (fun h => absurd rfl h)
  have ho := Chain_mem hch (by decide)
  obtain ⟨_, _, a3⟩ := renderAll_phase ha
  obtain ⟨_, b2, b3⟩ := renderAll_phase hbb
  have hpos : ∀ p ∈ ps, p.Positive := by
    intro p hp
    obtain ⟨l, hl⟩ := b2 p hp
    exact iter1_positive (ho p hp).1 hl
  refine ⟨hpos, fun c hc => ?_⟩
  rcases List.mem_append.1 hc with hc | hc
  · obtain ⟨p, hp, l, hl, hm⟩ := a3 c hc
    exact iter0_strict (ho p hp).1 (hpos p hp) hl c hm
  · obtain ⟨p, hp, l, hl, hm⟩ := b3 c hc
    exact iter1_strict hl c hm

/-- A chunk that meets neither neighbour stays. -/
theorem optimizeFrom_stays (x y z : Chunk) (r : List Chunk) (h1 : x.endTick ≠ y.startTick) (h2 : y.endTick ≠ z.startTick)
    (l : List Chunk) : ∀ c : Chunk, y ∈ Chunk.optimizeFrom c (l ++ x :: y :: z :: r) := by
  have key : ∀ c : Chunk, c.endTick = x.endTick → y ∈ Chunk.optimizeFrom c (y :: z :: r) := by
    intro c hc
    rw [Chunk.optimizeFrom, if_neg (by rw [hc]; exact h1), Chunk.optimizeFrom, if_neg h2]
    simp
  induction l with
  | nil =>
    intro c
    rw [List.nil_append, Chunk.optimizeFrom]
    split
    · exact key _ rfl
    · exact List.mem_cons_of_mem _ (key x rfl)
  | cons d l ih =>
    intro c
    rw [List.cons_append, Chunk.optimizeFrom]
    split
    · exact ih _
    · exact List.mem_cons_of_mem _ (ih _)

/-- Endings that begin at once leave an empty chunk. -/
theorem full_gap (ip : Bool) (ps : List Passage) (t : Nat) (ts : List Nat) (b : Nat) :
    ∀ cs, Passage.endings 0 (0 :: t :: ts) b ∈ ps → CompoundRegion.renderAll ip .nonDcDs (ps.map Passage.region) = .ok cs →
    ∃ l z r, cs = l ++ ⟨0, t⟩ :: ⟨0, 0⟩ :: z :: r ∧ z.startTick = t ∧ l ≠ [] := by
  induction ps with
  | nil => intro cs h; simp at h
  | cons p ps ih =>
    intro cs hm hc
    rw [List.map_cons, CompoundRegion.renderAll, R_bind_eq_ok] at hc
    obtain ⟨x, h1, hc⟩ := hc
    rw [R_bind_eq_ok] at hc
    obtain ⟨y, h2, hc⟩ := hc
    cases hc
    rcases List.mem_cons.1 hm with rfl | hm
    · cases h1
      cases ts with
      | nil => exact ⟨[⟨0, 0⟩], ⟨t, b⟩, y, rfl, rfl, by simp⟩
      | cons s ts => exact ⟨[⟨0, 0⟩], ⟨t, s⟩, _, rfl, rfl, by simp⟩
    · obtain ⟨l, z, r, rfl, h3, h4⟩ := ih y hm h2
      exact ⟨x ++ l, z, r, by simp, h3, by simp [h4]⟩

end Klavier
