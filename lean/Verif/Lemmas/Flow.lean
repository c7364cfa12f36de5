import Verif.Spec.Flow
import Verif.Lemmas.Jump
import Verif.Lemmas.Notate

/-! # How playing moves through the score -/
set_option autoImplicit false
namespace Klavier
open Spec

/-- The ticks `l` are played going from the place `a` to the place `b`. -/
inductive Walk (J : Nat → Nat → Prop) : Nat → Nat → List Nat → Prop where
  | nil (a : Nat) : Walk J a a []
  | tick {a b : Nat} {l : List Nat} : Walk J (a + 1) b l → Walk J a b (a :: l)
  | jump {a b c : Nat} {l : List Nat} : J a c → Walk J c b l → Walk J a b l

theorem Walk.append {J : Nat → Nat → Prop} {a b c : Nat} {l r : List Nat} (h : Walk J a b l) (k : Walk J b c r) :
    Walk J a c (l ++ r) := by
  induction h with
  | nil => exact k
  | tick _ ih => exact .tick (ih k)
  | jump j _ ih => exact .jump j (ih k)

theorem walk_span (J : Nat → Nat → Prop) {a b : Nat} (h : a ≤ b) : Walk J a b (span a b) := by
  obtain ⟨n, rfl⟩ := Nat.exists_eq_add_of_le h
  clear h
  induction n generalizing a with
  | zero => rw [show span a (a + 0) = [] by simp [span]]; exact .nil a
  | succ n ih =>
    have e : span a (a + (n + 1)) = a :: span (a + 1) (a + 1 + n) := by
      simp only [span]
      rw [show a + (n + 1) - a = n + 1 by omega, show a + 1 + n - (a + 1) = n by omega, List.range'_succ]
    rw [e]
    have := ih (a := a + 1)
    rw [show a + 1 + n = a + (n + 1) by omega] at this ⊢
    exact .tick this

/-- What a walk says about neighbours, the first and the last tick. -/
theorem walk_facts {L A : Nat → Prop} {a b : Nat} {l : List Nat} (h : Walk (fun x y => L x ∧ A y) a b l) :
    (∀ t, l.head? = some t → t = a ∨ (L a ∧ A t)) ∧ (∀ t, l.getLast? = some t → t + 1 = b ∨ L (t + 1)) ∧
      (∀ l1 t u l2, l = l1 ++ t :: u :: l2 → u = t + 1 ∨ (L (t + 1) ∧ A u)) := by
  induction h with
  | nil a => simp
  | @tick a b l h ih =>
    obtain ⟨i1, i2, i3⟩ := ih
    refine ⟨fun t ht => .inl (by simpa using ht.symm), ?_, ?_⟩
    · intro t ht
      cases l with
      | nil =>
        obtain rfl : a = t := by simpa using ht
        generalize hl : ([] : List Nat) = l at h
        clear i1 i2 i3 ht
        have : ∀ {x y : Nat} {l : List Nat}, Walk (fun x y => L x ∧ A y) x y l → l = [] → x = y ∨ L x := by
          intro x y l h e
          cases h with
          | nil => exact .inl rfl
          | tick => cases e
          | jump j _ => exact .inr j.1
        exact this h hl.symm
      | cons u l => exact i2 t (by simpa using ht)
    · intro l1 t u l2 e
      cases l1 with
      | nil =>
        obtain ⟨rfl, rfl⟩ := List.cons.inj e
        rcases i1 u rfl with k | k
        · exact .inl k
        · exact .inr k
      | cons v l1 => exact i3 l1 t u l2 (List.cons.inj e).2
  | jump j _ ih =>
    obtain ⟨i1, i2, i3⟩ := ih
    refine ⟨fun t ht => .inr ⟨j.1, ?_⟩, i2, i3⟩
    rcases i1 t ht with rfl | k
    · exact j.2
    · exact k.2

/-! ## The endings are at bar lines -/

theorem endings_lines {k : Nat} {bars : List Bar} {ts : List Nat} (h : Endings k bars ts) :
    (∀ x, bars.head? = some x → endingNo x ≠ none) → ∀ t ∈ ts, ∃ x ∈ bars, x.startTick = t ∧ endingNo x ≠ none := by
  induction h with
  | last hx =>
    intro h0 t ht
    obtain rfl := List.mem_singleton.1 ht
    exact ⟨_, List.mem_cons_self, rfl, h0 _ rfl⟩
  | @more k x y xs ys ts hx hy _ ih =>
    intro h0 t ht
    rcases List.mem_cons.1 ht with rfl | ht
    · exact ⟨_, List.mem_cons_self, rfl, h0 _ rfl⟩
    · obtain ⟨z, hz, e⟩ := ih (by rintro z hz; obtain rfl : y = z := by simpa using hz
                                  rw [hy.2.2.2]; simp) t ht
      exact ⟨z, List.mem_cons_of_mem _ (List.mem_append.2 (.inr hz)), e⟩

private theorem opens_number {m : Mode} {x : Bar} (h : OpensEndings m x) : endingNo x ≠ none := by
  have e : endingNo x = some 1 := by
    cases m
    · exact h.2.2
    · exact h.2.2
    · exact h.2.2.2.2
  rw [e]
  simp

/-- Every ending begins at a bar line with its number. -/
theorem reads_lines {sg : Option Nat} {m : Mode} {a : Nat} {bars : List Bar} {ps : List Passage} (h : Reads sg m a bars ps) :
    ∀ a ts b, Passage.endings a ts b ∈ ps → ∀ t ∈ ts, ∃ x ∈ bars, x.startTick = t ∧ endingNo x ≠ none := by
  induction h with
  | last => intro a ts b h; simp at h
  | start _ _ _ _ _ ih =>
    intro a ts b h t ht
    obtain ⟨x, hx, e⟩ := ih a ts b (by simpa using h) t ht
    exact ⟨x, by simp [hx], e⟩
  | close _ _ _ _ ih =>
    intro a ts b h t ht
    obtain ⟨x, hx, e⟩ := ih a ts b (by simpa using h) t ht
    exact ⟨x, by simp [hx], e⟩
  | @endings m a inside es rest v x ts ps _ _ ho he _ _ _ _ ih =>
    intro a' ts' b h t ht
    rcases List.mem_cons.1 h with e | h
    · cases e
      obtain ⟨z, hz, e⟩ := endings_lines he (by rintro z hz; obtain rfl : v = z := by simpa using hz
                                                exact opens_number ho) t ht
      rcases List.mem_cons.1 hz with rfl | hz
      · exact ⟨z, by simp, e⟩
      · exact ⟨z, by simp [hz], e⟩
    · obtain ⟨z, hz, e⟩ := ih a' ts' b h t ht
      exact ⟨z, by simp [hz], e⟩

/-! ## The first pass -/

private theorem walk_parts {J : Nat → Nat → Prop} {a v b : Nat} (hv : a ≤ v) : ∀ (ts : List Nat) (w : Nat),
    (w :: ts).Pairwise (· < ·) → (∀ t ∈ w :: ts, t < b) → (∀ t ∈ w :: ts, J v t ∧ J t a) →
    Walk J a b ((endingParts w ts b).flatMap (fun e => span a v ++ e)) := by
  intro ts
  induction ts with
  | nil =>
    intro w _ hb hj
    simp only [endingParts, List.flatMap_cons, List.flatMap_nil, List.append_nil]
    exact (walk_span J hv).append (.jump (hj w (by simp)).1 (walk_span J (Nat.le_of_lt (hb w (by simp)))))
  | cons u ts ih =>
    intro w hs hb hj
    simp only [endingParts, List.flatMap_cons]
    have hwu := (List.pairwise_cons.1 hs).1 u (by simp)
    refine Walk.append ((walk_span J hv).append (.jump (hj w (by simp)).1 (walk_span J (Nat.le_of_lt hwu)))) ?_
    exact .jump (hj u (by simp)).2 (ih u (List.pairwise_cons.1 hs).2 (fun t ht => hb t (by simp [ht]))
      (fun t ht => hj t (by simp [ht])))

private theorem after_plain {x : Bar} {all : List Bar} (hx : x ∈ all) (h : after x ≠ .plain) : Arrives all x.startTick := by
  refine .inr (.inl ⟨x, hx, rfl, .inl ?_⟩)
  refine Classical.byContradiction fun hn => h ?_
  simp only [after]
  rw [if_neg hn]

private theorem Chain_head {a : Nat} {p : Passage} {ps : List Passage} (h : Chain a (p :: ps)) (hne : ps ≠ []) :
    p.start = a ∧ p.Ordered ∧ p.stop < U32_MAX ∧ Chain p.stop ps := by
  cases ps with
  | nil => exact absurd rfl hne
  | cons q ps => exact h

theorem upTo_full {d : Nat} {p : Passage} (h : p.stop ≤ d) : p.upTo d = p.full := if_pos h

theorem upTo_part {d : Nat} {p : Passage} (h : ¬ p.stop ≤ d) : p.upTo d = span p.start d := if_neg h

/-- The first pass, up to the jump at `d` (or to the end of the score), is a walk through the
score that jumps from bar lines where playing may leave to places where it may arrive. -/
theorem reads_walk {sg : Option Nat} {m : Mode} {a : Nat} {bars all : List Bar} {ps : List Passage} {d : Nat}
    (h : Reads sg m a bars ps) (hsub : ∀ x ∈ bars, x ∈ all) (hm : m ≠ .plain → Arrives all a) (ha : a < U32_MAX) (hc : Chain a ps)
    (had : a ≤ d) (hd : d ≤ U32_MAX) :
    Walk (fun x y => Leaves all x ∧ Arrives all y) a d (ps.flatMap (Passage.upTo d)) := by
  induction h with
  | @last m a bars =>
    rw [List.flatMap_cons, List.flatMap_nil, List.append_nil]
    by_cases e : U32_MAX ≤ d
    · rw [upTo_full (p := .plain a U32_MAX) e]
      obtain rfl : d = U32_MAX := by omega
      exact walk_span _ had
    · rw [upTo_part (p := .plain a U32_MAX) e]
      exact walk_span _ had
  | @start m a inside rest x ps _ _ h1 _ hr ih =>
    have hne : ps ≠ [] := by cases hr <;> simp
    obtain ⟨_, c2, c3, c4⟩ := Chain_head hc hne
    have c2 : a < x.startTick ∨ (a = 0 ∧ x.startTick = 0) := c2
    have hx : x ∈ all := hsub x (by simp)
    rw [List.flatMap_cons]
    by_cases e : x.startTick ≤ d
    · rw [upTo_full (p := .plain a x.startTick) e]
      refine Walk.append (walk_span _ (by omega)) ?_
      exact ih (fun y hy => hsub y (by simp [hy])) (fun _ => .inr (.inl ⟨x, hx, rfl, .inl h1⟩)) c3 c4 e
       
    · rw [upTo_part (p := .plain a x.startTick) e, upTo_after c3 c4 (Nat.lt_of_not_le e), List.append_nil]
      exact walk_span _ had
  | @close m a inside rest x ps hmp _ h1 hr ih =>
    have hne : ps ≠ [] := by cases hr <;> simp
    obtain ⟨_, c2, c3, c4⟩ := Chain_head hc hne
    have c2 : a < x.startTick ∨ (a = 0 ∧ x.startTick = 0) := c2
    have hx : x ∈ all := hsub x (by simp)
    rw [List.flatMap_cons]
    by_cases e : x.startTick ≤ d
    · rw [upTo_full (p := .repeated a x.startTick) e]
      refine Walk.append (Walk.append (walk_span _ (by omega))
        (.jump ⟨⟨x, hx, rfl, .inl h1⟩, hm hmp⟩ (walk_span _ (by omega)))) ?_
      exact ih (fun y hy => hsub y (by simp [hy])) (fun hp => after_plain hx hp) c3 c4 e
    · rw [upTo_part (p := .repeated a x.startTick) e, upTo_after c3 c4 (Nat.lt_of_not_le e), List.append_nil]
      exact walk_span _ had
  | @endings m a inside es rest v x ts ps hmp hq ho he hs h1 h2 hr ih =>
    have hne : ps ≠ [] := by cases hr <;> simp
    obtain ⟨_, c2, c3, c4⟩ := Chain_head hc hne
    have hx : x ∈ all := hsub x (by simp)
    rw [List.flatMap_cons]
    by_cases e : x.startTick ≤ d
    · rw [upTo_full (p := .endings a ts x.startTick) e]
      refine Walk.append (b := x.startTick) ?_ ?_
      · cases ts with
        | nil => exact c2.elim
        | cons w ts =>
          obtain ⟨o1, o2, o3, o4⟩ := c2
          have line : ∀ t ∈ w :: ts, ∃ y ∈ all, y.startTick = t ∧ endingNo y ≠ none := by
            intro t ht
            obtain ⟨y, hy, e⟩ := endings_lines he (by rintro z hz; obtain rfl : v = z := by simpa using hz
                                                      exact opens_number ho) t ht
            refine ⟨y, hsub y ?_, e⟩
            rcases List.mem_cons.1 hy with rfl | hy
            · simp
            · simp [hy]
          have leave : ∀ t ∈ w :: ts, Leaves all t := by
            intro t ht
            obtain ⟨y, hy, e1, e2⟩ := line t ht
            exact ⟨y, hy, e1, .inr (.inl e2)⟩
          refine walk_parts (by omega) ts w o2 o3 ?_
          intro t ht
          obtain ⟨y, hy, e1, e2⟩ := line t ht
          exact ⟨⟨leave w (by simp), .inr (.inl ⟨y, hy, e1, .inr (.inl e2)⟩)⟩, leave t ht, hm hmp⟩
      · exact ih (fun y hy => hsub y (by simp [hy])) (fun hp => after_plain hx hp) c3 c4 e
    · rw [upTo_part (p := .endings a ts x.startTick) e, upTo_after c3 c4 (Nat.lt_of_not_le e), List.append_nil]
      exact walk_span _ had

/-! ## Once through -/

theorem passage_bounds {p : Passage} (h : p.Ordered) : p.start ≤ p.stop := by
  cases p with
  | plain a b => have : a < b ∨ (a = 0 ∧ b = 0) := h; simp only [Passage.start, Passage.stop]; omega
  | repeated a b => have : a < b ∨ (a = 0 ∧ b = 0) := h; simp only [Passage.start, Passage.stop]; omega
  | endings a ts b =>
    cases ts with
    | nil => exact h.elim
    | cons v ts =>
      have := h.2.2.1 v (by simp)
      have := h.1
      simp only [Passage.start, Passage.stop]
      omega

/-- What is left out is in the passages. -/
theorem leftOut_bounds {a : Nat} {ps : List Passage} (hc : Chain a ps) (ha : a < U32_MAX) {t : Nat} (h : LeftOut ps t) :
    a ≤ t ∧ t < U32_MAX := by
  induction ps generalizing a with
  | nil => exact absurd hc (by simp [Chain])
  | cons p ps ih =>
    obtain ⟨x, ts, b, first, last, h1, h2, h3, h4, h5⟩ := h
    rcases List.mem_cons.1 h1 with rfl | h1
    · cases ps with
      | nil => simp [Chain] at hc
      | cons q ps =>
        obtain ⟨c1, c2, c3, c4⟩ := hc
        cases ts with
        | nil => exact c2.elim
        | cons v ts =>
          obtain rfl : v = first := by simpa using h2
          have c1 : x = a := c1
          have c3 : b < U32_MAX := c3
          have := c2.1
          have := c2.2.2.1 last (List.mem_of_getLast? h3)
          omega
    · cases ps with
      | nil => simp at h1
      | cons q ps =>
        obtain ⟨c1, c2, c3, c4⟩ := hc
        have := ih c4 c3 ⟨x, ts, b, first, last, h1, h2, h3, h4, h5⟩
        have := passage_bounds c2
        omega

private theorem mem_once_one {p : Passage} (h : p.Ordered) (t : Nat) :
    t ∈ p.once ↔ p.start ≤ t ∧ t < p.stop ∧ ¬ LeftOut [p] t := by
  have noEnd : ∀ {q : Passage}, (∀ a ts b, q ≠ .endings a ts b) → ¬ LeftOut [q] t := by
    rintro q hq ⟨a, ts, b, _, _, h1, _⟩
    exact hq a ts b (List.mem_singleton.1 h1).symm
  cases p with
  | plain a b =>
    simp only [Passage.once, Passage.start, Passage.stop, mem_span]
    exact ⟨fun h => ⟨h.1, h.2, noEnd (by simp)⟩, fun h => ⟨h.1, h.2.1⟩⟩
  | repeated a b =>
    simp only [Passage.once, Passage.start, Passage.stop, mem_span]
    exact ⟨fun h => ⟨h.1, h.2, noEnd (by simp)⟩, fun h => ⟨h.1, h.2.1⟩⟩
  | endings a ts b =>
    cases ts with
    | nil => exact h.elim
    | cons v ts =>
      obtain ⟨o1, o2, o3, o4⟩ := h
      have hl : (v :: ts).getLast? = some ((v :: ts).getLastD v) := by
        rw [List.getLastD_eq_getLast?]
        cases e : (v :: ts).getLast? with
        | none => simp at e
        | some x => rfl
      have hlt := getLast_lt o3
      have hge := getLast_ge o2
      simp only [Passage.once, Passage.start, Passage.stop, List.mem_append, mem_span]
      constructor
      · intro k
        refine ⟨by omega, by omega, ?_⟩
        rintro ⟨a', ts', b', first, last, h1, h2, h3, h4, h5⟩
        cases List.mem_singleton.1 h1
        rw [hl] at h3
        obtain rfl := Option.some.inj h2
        obtain rfl := Option.some.inj h3
        omega
      · rintro ⟨k1, k2, k3⟩
        refine Classical.byContradiction fun hn => k3 ⟨a, v :: ts, b, v, _, by simp, rfl, hl, ?_, ?_⟩ <;> omega

/-- Once through the passages, everything is played but the endings that are left out. -/
theorem mem_once {a : Nat} {ps : List Passage} (hc : Chain a ps) (ha : a < U32_MAX) (t : Nat) :
    t ∈ ps.flatMap Passage.once ↔ a ≤ t ∧ t < U32_MAX ∧ ¬ LeftOut ps t := by
  induction ps generalizing a with
  | nil => exact absurd hc (by simp [Chain])
  | cons p ps ih =>
    cases ps with
    | nil =>
      simp only [Chain] at hc
      subst hc
      simpa [Passage.start, Passage.stop] using mem_once_one (p := .plain a U32_MAX) (.inl ha) t
    | cons q ps =>
      obtain ⟨c1, c2, c3, c4⟩ := hc
      have key := ih c4 c3
      have one := mem_once_one c2 t
      have hle := passage_bounds c2
      have split : LeftOut (p :: q :: ps) t ↔ LeftOut [p] t ∨ LeftOut (q :: ps) t := by
        constructor
        · rintro ⟨a, ts, b, first, last, h1, h2⟩
          rcases List.mem_cons.1 h1 with h1 | h1
          · exact .inl ⟨a, ts, b, first, last, by simp [h1], h2⟩
          · exact .inr ⟨a, ts, b, first, last, h1, h2⟩
        · rintro (⟨a, ts, b, first, last, h1, h2⟩ | ⟨a, ts, b, first, last, h1, h2⟩)
          · exact ⟨a, ts, b, first, last, by rw [List.mem_singleton.1 h1]; simp, h2⟩
          · exact ⟨a, ts, b, first, last, List.mem_cons_of_mem _ h1, h2⟩
      have inP : LeftOut [p] t → p.start ≤ t ∧ t < p.stop := by
        rintro ⟨x, ts, b, first, last, h1, h2, h3, h4, h5⟩
        obtain rfl := List.mem_singleton.1 h1
        cases ts with
        | nil => exact c2.elim
        | cons v ts =>
          obtain rfl : v = first := by simpa using h2
          have := c2.1
          have := c2.2.2.1 last (List.mem_of_getLast? h3)
          simp only [Passage.start, Passage.stop]
          omega
      have inR : LeftOut (q :: ps) t → p.stop ≤ t ∧ t < U32_MAX := leftOut_bounds c4 c3
      rw [List.flatMap_cons, List.mem_append, one, key, split]
      by_cases hp : LeftOut [p] t
      · have := inP hp
        simp only [hp, not_true_eq_false, and_false, true_or, false_or, iff_false]
        omega
      · by_cases hr : LeftOut (q :: ps) t
        · have := inR hr
          simp only [hr, hp, not_true_eq_false, and_false, or_true, not_false_eq_true, and_true, iff_false, or_false]
          omega
        · simp only [hr, hp, not_false_eq_true, and_true, or_false]
          omega

/-- Where, once through, playing goes on elsewhere, an ending begins; and likewise where it
goes on from elsewhere. -/
theorem once_edges {sg : Option Nat} {bars : List Bar} {ps : List Passage} (hr : Reads sg .first 0 bars ps) (hc : Chain 0 ps) (t : Nat) :
    (t ∈ ps.flatMap Passage.once → t + 1 ∉ ps.flatMap Passage.once → t + 1 < U32_MAX →
      ∃ x ∈ bars, x.startTick = t + 1 ∧ endingNo x ≠ none) ∧
    (t + 1 ∈ ps.flatMap Passage.once → t ∉ ps.flatMap Passage.once → ∃ x ∈ bars, x.startTick = t + 1 ∧ endingNo x ≠ none) := by
  have m1 := mem_once hc (by decide) t
  have m2 := mem_once hc (by decide) (t + 1)
  constructor
  · intro h1 h2 h3
    have k1 := (m1.1 h1).2.2
    have k2 : LeftOut ps (t + 1) := Classical.byContradiction fun hn => h2 (m2.2 ⟨by omega, h3, hn⟩)
    obtain ⟨a, ts, b, first, last, e1, e2, e3, e4, e5⟩ := k2
    have : first = t + 1 := by
      refine Classical.byContradiction fun hn => k1 ⟨a, ts, b, first, last, e1, e2, e3, ?_, ?_⟩ <;> omega
    exact reads_lines hr a ts b e1 (t + 1) (by rw [← this]; exact List.mem_of_head? e2)
  · intro h1 h2
    have k1 := m2.1 h1
    have k2 : LeftOut ps t := Classical.byContradiction fun hn => h2 (m1.2 ⟨by omega, by omega, hn⟩)
    obtain ⟨a, ts, b, first, last, e1, e2, e3, e4, e5⟩ := k2
    have : last = t + 1 := by
      refine Classical.byContradiction fun hn => k1.2.2 ⟨a, ts, b, first, last, e1, e2, e3, ?_, ?_⟩ <;> omega
    exact reads_lines hr a ts b e1 (t + 1) (by rw [← this]; exact List.mem_of_getLast? e3)

/-! ## The second pass -/

theorem arrives_target {tune : Rhythm} {bars : List Bar} {d target : Nat} (h : Jump tune bars d target) : Arrives bars target := by
  rcases h with ⟨_, h⟩ | ⟨first, h1, h2, rfl⟩
  · obtain ⟨x, hx, k1, k2⟩ := mem_marks.1 (by rw [h]; simp : target ∈ marks bars .Segno)
    exact .inr (.inl ⟨x, hx, k2, .inr (.inr (.inr k1))⟩)
  · unfold dcTarget
    cases hs : marks bars .Segno with
    | cons s ss =>
      obtain ⟨x, hx, k1, k2⟩ := mem_marks.1 (by rw [hs]; simp : s ∈ marks bars .Segno)
      exact .inr (.inl ⟨x, hx, k2, .inr (.inr (.inr k1))⟩)
    | nil =>
      simp only [List.headD_nil, dcReturn]
      by_cases e : first = (openingRhythm tune bars).tickLen ∨ 0 < d ∧ 2 * first = (openingRhythm tune bars).tickLen
      · rw [if_pos e]; exact .inl rfl
      · rw [if_neg e]; exact .inr (.inr ⟨by rw [h1]; simp, hs, h2⟩)

theorem leaves_jump {tune : Rhythm} {bars : List Bar} {d target : Nat} (h : Jump tune bars d target) : Leaves bars d := by
  rcases Jump_mem h with h | h <;> obtain ⟨x, hx, k1, k2⟩ := mem_marks.1 h
  · exact ⟨x, hx, k2, .inr (.inr (.inr (.inl k1)))⟩
  · exact ⟨x, hx, k2, .inr (.inr (.inr (.inr k1)))⟩

private theorem second_out {bars : List Bar} {target t : Nat} (h : inSecondPass target bars t) (hn : ¬ inSecondPass target bars (t + 1)) :
    (t + 1 = endTick bars ∧ ∀ l r, marks bars .Coda = [l, r] → r ≤ t) ∨ Leaves bars (t + 1) := by
  unfold inSecondPass at h hn
  split at h
  · next leave resume e =>
    rw [e] at hn
    simp only at hn
    by_cases k : t + 1 = leave
    · obtain ⟨x, hx, k1, k2⟩ := mem_marks.1 (by rw [e]; simp : leave ∈ marks bars .Coda)
      exact .inr ⟨x, hx, k2.trans k.symm, .inr (.inr (.inl k1))⟩
    · refine .inl ⟨by omega, ?_⟩
      intro l r e'
      rw [e] at e'
      cases e'
      omega
  · next ne =>
    refine .inl ⟨?_, fun l r e => absurd e (ne l r)⟩
    split at hn
    · next l r e => exact absurd e (ne l r)
    · omega

private theorem second_in {bars : List Bar} {tune : Rhythm} {d target t : Nat} (hj : Jump tune bars d target)
    (h : inSecondPass target bars (t + 1)) (hn : ¬ inSecondPass target bars t) : Arrives bars (t + 1) := by
  have at_target : t + 1 = target → Arrives bars (t + 1) := fun e => e ▸ arrives_target hj
  unfold inSecondPass at h hn
  split at h
  · next leave resume e =>
    rw [e] at hn
    simp only at hn
    by_cases k : t + 1 = target
    · exact at_target k
    · obtain ⟨x, hx, k1, k2⟩ := mem_marks.1 (by rw [e]; simp : resume ∈ marks bars .Coda)
      exact .inr (.inl ⟨x, hx, by omega, .inr (.inr (.inl k1))⟩)
  · next ne =>
    split at hn
    · next l r e => exact absurd e (ne l r)
    · exact at_target (by omega)

private theorem sorted_neighbours {l l1 l2 : List Nat} {t u : Nat} (hs : l.Pairwise (· < ·)) (e : l = l1 ++ t :: u :: l2) :
    t < u ∧ ∀ x ∈ l, x ≤ t ∨ u ≤ x := by
  subst e
  obtain ⟨_, s2, s3⟩ := List.pairwise_append.1 hs
  obtain ⟨s4, s5⟩ := List.pairwise_cons.1 s2
  refine ⟨s4 u (by simp), ?_⟩
  intro x hx
  rcases List.mem_append.1 hx with hx | hx
  · exact .inl (Nat.le_of_lt (s3 x hx t (by simp)))
  · rcases List.mem_cons.1 hx with rfl | hx
    · exact .inl (Nat.le_refl _)
    · rcases List.mem_cons.1 hx with rfl | hx
      · exact .inr (Nat.le_refl _)
      · exact .inr (Nat.le_of_lt ((List.pairwise_cons.1 s5).1 x hx))

private theorem sorted_head {l : List Nat} {t : Nat} (hs : l.Pairwise (· < ·)) (e : l.head? = some t) : ∀ x ∈ l, t ≤ x := by
  cases l with
  | nil => simp at e
  | cons a l =>
    obtain rfl : a = t := by simpa using e
    intro x hx
    rcases List.mem_cons.1 hx with rfl | hx
    · exact Nat.le_refl _
    · exact Nat.le_of_lt ((List.pairwise_cons.1 hs).1 x hx)

private theorem sorted_last {l : List Nat} {t : Nat} (hs : l.Pairwise (· < ·)) (e : l.getLast? = some t) : ∀ x ∈ l, x ≤ t := by
  obtain ⟨r, rfl⟩ := List.getLast?_eq_some_iff.1 e
  intro x hx
  rcases List.mem_append.1 hx with hx | hx
  · exact Nat.le_of_lt ((List.pairwise_append.1 hs).2.2 x hx t (by simp))
  · exact Nat.le_of_eq (List.mem_singleton.1 hx)

/-- How the second pass moves. -/
theorem second_facts {sg : Option Nat} {tune : Rhythm} {bars : List Bar} {ps : List Passage} {d target : Nat} (hb : BarsOk bars)
    (hr : Reads sg .first 0 bars ps) (hj : Jump tune bars d target) :
    let l := (ps.flatMap Passage.once).filter (fun t => decide (inSecondPass target bars t))
    (∀ t, l.head? = some t → Arrives bars t) ∧ (∀ t, l.getLast? = some t → Stops bars (t + 1)) ∧
      (∀ l1 t u l2, l = l1 ++ t :: u :: l2 → u = t + 1 ∨ (Leaves bars (t + 1) ∧ Arrives bars u)) := by
  intro l
  have hc := Reads_chain hr (fun _ => rfl) hb (fun h => absurd rfl h)
  have hs : l.Pairwise (· < ·) := List.Pairwise.filter _ (once_all_sorted ps 0 (by decide) hc).1
  have mem : ∀ t, t ∈ l ↔ t ∈ ps.flatMap Passage.once ∧ inSecondPass target bars t := by
    intro t
    simp only [l, List.mem_filter, decide_eq_true_eq]
  have lt : ∀ t ∈ l, t < U32_MAX := fun t ht => ((mem_once hc (by decide) t).1 ((mem t).1 ht).1).2.1
  have come : ∀ u ∈ l, (∀ v, u = v + 1 → v ∉ l) → Arrives bars u := by
    intro u hu hv
    cases u with
    | zero => exact .inl rfl
    | succ v =>
      have hv := hv v rfl
      rw [mem] at hu hv
      by_cases k : v ∈ ps.flatMap Passage.once
      · exact second_in hj hu.2 (fun hn => hv ⟨k, hn⟩)
      · obtain ⟨x, hx, e1, e2⟩ := (once_edges hr hc v).2 hu.1 k
        exact .inr (.inl ⟨x, hx, e1, .inr (.inl e2)⟩)
  have go : ∀ t ∈ l, t + 1 ∉ l → t + 1 < U32_MAX →
      (t + 1 = endTick bars ∧ ∀ l r, marks bars .Coda = [l, r] → r ≤ t) ∨ Leaves bars (t + 1) := by
    intro t ht hn hlt
    rw [mem] at ht hn
    by_cases k : t + 1 ∈ ps.flatMap Passage.once
    · exact second_out ht.2 (fun h => hn ⟨k, h⟩)
    · obtain ⟨x, hx, e1, e2⟩ := (once_edges hr hc t).1 ht.1 k hlt
      exact .inr ⟨x, hx, e1, .inr (.inl e2)⟩
  refine ⟨?_, ?_, ?_⟩
  · intro t ht
    refine come t (List.mem_of_head? ht) ?_
    intro v e hv
    have := sorted_head hs ht v hv
    omega
  · intro t ht
    have hm := List.mem_of_getLast? ht
    have := lt t hm
    by_cases k : t + 1 = U32_MAX
    · exact .inl k
    · rcases go t hm (fun h => by have := sorted_last hs ht _ h; omega) (by omega) with ⟨e, _⟩ | h
      · unfold endTick at e
        cases hf : marks bars .Fine with
        | nil => rw [hf] at e; exact .inl e
        | cons f fs =>
          rw [hf] at e
          obtain ⟨x, hx, k1, k2⟩ := mem_marks.1 (by rw [hf]; simp : f ∈ marks bars .Fine)
          exact .inr (.inl ⟨x, hx, k2.trans e.symm, k1⟩)
      · exact .inr (.inr h)
  · intro l1 t u l2 e
    obtain ⟨s1, s2⟩ := sorted_neighbours hs e
    have ht : t ∈ l := by rw [e]; simp
    have hu : u ∈ l := by rw [e]; simp
    have hul := lt u hu
    by_cases k : u = t + 1
    · exact .inl k
    · refine .inr ⟨?_, come u hu ?_⟩
      · rcases go t ht (fun h => by have := s2 _ h; omega) (by omega) with ⟨e1, e2⟩ | h
        · exfalso
          have hp := ((mem u).1 hu).2
          unfold inSecondPass at hp
          split at hp
          · next leave resume ec =>
            have := e2 leave resume ec
            have hsort := GlobalRepeatBuilder.marks_sorted hb.1 .Coda
            rw [ec] at hsort
            have := (List.pairwise_cons.1 hsort).1 resume (by simp)
            omega
          · omega
        · exact h
      · intro v e hv
        have := s2 v hv
        omega

/-! ## What is heard -/

private theorem mem_parts (b t : Nat) : ∀ (ts : List Nat) (w : Nat), (w :: ts).Pairwise (· < ·) → (∀ x ∈ w :: ts, x < b) →
    ((∃ e ∈ endingParts w ts b, t ∈ e) ↔ w ≤ t ∧ t < b) := by
  intro ts
  induction ts with
  | nil => intro w _ _; simp [endingParts, mem_span]
  | cons u ts ih =>
    intro w hs hb
    have hwu := (List.pairwise_cons.1 hs).1 u (by simp)
    have hub := hb u (by simp)
    have key := ih u (List.pairwise_cons.1 hs).2 (fun x hx => hb x (by simp [hx]))
    simp only [endingParts, List.mem_cons, exists_eq_or_imp, key, mem_span]
    omega

theorem mem_full {p : Passage} (h : p.Ordered) (t : Nat) : t ∈ p.full ↔ p.start ≤ t ∧ t < p.stop := by
  cases p with
  | plain a b => simp [Passage.full, Passage.start, Passage.stop, mem_span]
  | repeated a b => simp [Passage.full, Passage.start, Passage.stop, mem_span]
  | endings a ts b =>
    cases ts with
    | nil => exact h.elim
    | cons v ts =>
      obtain ⟨o1, o2, o3, o4⟩ := h
      have key := mem_parts b t ts v o2 o3
      have hvb := o3 v (by simp)
      simp only [Passage.full, Passage.start, Passage.stop, List.mem_flatMap, List.mem_append, mem_span]
      constructor
      · rintro ⟨e, he, h | h⟩
        · omega
        · have := key.1 ⟨e, he, h⟩
          omega
      · intro h
        by_cases k : t < v
        · obtain ⟨e, he, _⟩ := (mem_parts b v ts v o2 o3).2 ⟨Nat.le_refl _, hvb⟩
          exact ⟨e, he, .inl ⟨h.1, k⟩⟩
        · obtain ⟨e, he, k⟩ := key.2 ⟨by omega, h.2⟩
          exact ⟨e, he, .inr k⟩

/-- On the first pass everything before the jump is played. -/
theorem mem_upTo {a d : Nat} {ps : List Passage} (hc : Chain a ps) (ha : a < U32_MAX) (hd : d ≤ U32_MAX) (t : Nat) :
    t ∈ ps.flatMap (Passage.upTo d) ↔ a ≤ t ∧ t < d := by
  have one : ∀ {p : Passage}, p.Ordered → (t ∈ p.upTo d ↔ p.start ≤ t ∧ t < p.stop ∧ t < d) := by
    intro p h
    by_cases e : p.stop ≤ d
    · rw [upTo_full e, mem_full h]
      omega
    · rw [upTo_part e, mem_span]
      omega
  induction ps generalizing a with
  | nil => exact absurd hc (by simp [Chain])
  | cons p ps ih =>
    cases ps with
    | nil =>
      simp only [Chain] at hc
      subst hc
      have := one (p := .plain a U32_MAX) (.inl ha)
      simp only [Passage.start, Passage.stop] at this
      simp only [List.flatMap_cons, List.flatMap_nil, List.append_nil, this]
      omega
    | cons q ps =>
      obtain ⟨c1, c2, c3, c4⟩ := hc
      have key : t ∈ (q :: ps).flatMap (Passage.upTo d) ↔ p.stop ≤ t ∧ t < d := ih c4 c3
      rw [List.flatMap_cons, List.mem_append, one c2, key]
      have := passage_bounds c2
      omega

theorem upTo_end {a : Nat} {ps : List Passage} (hc : Chain a ps) (ha : a < U32_MAX) :
    ps.flatMap (Passage.upTo U32_MAX) = ps.flatMap Passage.full := by
  have h := Chain_mem hc ha
  clear hc
  induction ps with
  | nil => rfl
  | cons p ps ih =>
    rw [List.flatMap_cons, List.flatMap_cons, upTo_full (h p (by simp)).2, ih (fun q hq => h q (by simp [hq]))]

end Klavier
