import Verif.Lemmas.Tuple

/-! # C37, C38: tuplets -/
set_option autoImplicit false
namespace Klavier
open Spec Tuple

private theorem group_ok_dots {l : List Note} {cur : Option Elem} {es : List Elem} (h : group l cur = .ok es) :
    ∀ n ∈ l, n.duration.dots < 32 := by
  induction l generalizing cur es with
  | nil => simp
  | cons n ns ih =>
    simp only [group, R_bind_eq_ok] at h
    obtain ⟨u, hu, ⟨d, c⟩, -, rest, hr, -⟩ := h
    intro m hm
    rcases List.mem_cons.1 hm with rfl | hm
    · exact (numeratorUnit_ok hu).1
    · exact ih hr m hm

theorem min_dots {es : List Elem} (h : ∀ e ∈ es, ElemOk e)
    (hd : ∀ n ∈ es.flatMap (·.notes), n.duration.dots < 32) :
    ∀ e ∈ es, e.minDuration.dots < 32 ∧ e.minDuration.denominator = 2 := by
  intro e he
  obtain ⟨w, hw, hm⟩ := (h e he).from_note
  exact ⟨by rw [hm]; exact hd w (List.mem_flatMap.2 ⟨e, he, hw⟩), (h e he).den⟩

private theorem inOrder_mem {notes l : List Note} (h : InOrder notes l) (n : Note) : n ∈ l ↔ n ∈ notes := by
  have := h.chords n.baseStartTick
  have h1 : n ∈ l ↔ n ∈ chordAt l n.baseStartTick := by simp [chordAt]
  have h2 : n ∈ notes ↔ n ∈ chordAt notes n.baseStartTick := by simp [chordAt]
  rw [h1, h2, this]

/-- Every group is at least one common unit long. -/
private theorem sum_ge {es : List Elem} {g : Nat} (h : ∀ e ∈ es, g ≤ units e.minDuration) :
    es.length * g ≤ (es.map (fun e => units e.minDuration)).sum := by
  induction es with
  | nil => simp
  | cons e es ih =>
    have h1 := h e (by simp)
    have h2 := ih (fun x hx => h x (by simp [hx]))
    simp only [List.length_cons, List.map_cons, List.sum_cons, Nat.add_mul, Nat.one_mul]
    omega

private theorem elems_dvd {notes l : List Note} {es : List Elem} {g : Nat} (hl : InOrder notes l) (hg : CommonUnit notes g)
    (hes : ∀ e ∈ es, ElemOk e) (hf : es.flatMap (·.notes) = l) : ∀ e ∈ es, g ∣ units e.minDuration := by
  intro e he
  obtain ⟨w, hw, hm⟩ := (hes e he).from_note
  rw [hm, units_den]
  exact hg.dvd w ((inOrder_mem hl w).1 (by rw [← hf]; exact List.mem_flatMap.2 ⟨e, he, hw⟩))

/-- C37: whenever a tuplet is made, the result is the selection in start order
with only start ticks and denominators changed, in start order, beginning at the
earliest start and sharing one legal denominator; a selection that all starts
together may be returned as it is. -/
theorem C37_keeps_partial (notes out : List Note) (hne : notes ≠ []) (h : tuplize notes = .ok out) :
    (out = notes ∧ ∀ n ∈ notes, ∀ m ∈ notes, n.baseStartTick = m.baseStartTick) ∨
    ∃ l d, InOrder notes l ∧ 2 ≤ d ∧ d ≤ 255 ∧ out.length = l.length ∧
      (∀ (i : Nat) (n m : Note), l[i]? = some n → out[i]? = some m → Retimed d n m) ∧
      out.Pairwise (fun a b => a.baseStartTick ≤ b.baseStartTick) ∧
      (∃ n ∈ notes, (∀ m ∈ notes, n.baseStartTick ≤ m.baseStartTick) ∧
        (∀ m ∈ out.head?, m.baseStartTick = n.baseStartTick) ∧ ∀ m ∈ out, n.baseStartTick ≤ m.baseStartTick) := by
  have hord := sort_inOrder notes
  have hperm := sort_perm notes
  simp only [tuplize] at h
  split at h
  · next h0 =>
    rw [h0] at hperm
    exact absurd (List.nil_perm.1 hperm) hne
  · next first more h0 =>
    rw [h0] at hord hperm
    simp only [R_bind_eq_ok] at h
    obtain ⟨es, hes, mu, hmu, h⟩ := h
    have hd := group_ok_dots hes
    obtain ⟨es', e1, e2, e3, e4, -⟩ := group_spec (first :: more) hd hord.sorted none (by simp)
    rw [hes] at e1
    cases e1
    have e3' : es.flatMap (·.notes) = first :: more := by simpa using e3
    rw [gcdUnits_spec _ hd] at hmu
    simp only [reduceCtorEq, if_false, Except.ok.injEq] at hmu
    subst hmu
    have hg : CommonUnit notes ((first :: more).foldr (fun n g => (units n.duration).gcd g) 0) :=
      commonUnit_perm hperm (foldr_gcd_common _)
    generalize hgg : (first :: more).foldr (fun n g => (units n.duration).gcd g) 0 = g at h hg
    simp only [R_bind_eq_ok] at h
    obtain ⟨⟨tt, tu⟩, ht, h⟩ := h
    obtain ⟨-, htu⟩ := totalTickUnit_ok (min_dots e2 (by rw [e3']; exact hd)) ht
    simp only at h
    have hgpos : 0 < g := by
      rcases Nat.eq_zero_or_pos g with h' | h'
      · subst h'
        have := hg.dvd first (hperm.mem_iff.1 (by simp))
        have := units_pos first.duration
        omega
      · exact h'
    rw [if_neg (by omega)] at h
    by_cases hden : tu / g < 2
    · rw [if_pos hden] at h
      cases h
      left
      refine ⟨rfl, ?_⟩
      have hlen : es.length < 2 := by
        have h1 := sum_ge (es := es) (g := g) (fun e he => Nat.le_of_dvd (units_pos _) (elems_dvd hord hg e2 e3' e he))
        rw [Nat.div_lt_iff_lt_mul hgpos] at hden
        have : es.length * g < 2 * g := by omega
        exact Nat.lt_of_mul_lt_mul_right this
      have key : ∀ n ∈ notes, ∃ e ∈ es, n.baseStartTick = e.startTick := by
        intro n hn
        have := hperm.mem_iff.2 hn
        rw [← e3'] at this
        obtain ⟨e, he, hn⟩ := List.mem_flatMap.1 this
        exact ⟨e, he, (e2 e he).start n hn⟩
      intro n hn m hm
      obtain ⟨a, ha, h1⟩ := key n hn
      obtain ⟨b, hb, h2⟩ := key m hm
      match es, hlen, ha, hb with
      | [x], _, ha, hb =>
        rw [List.mem_singleton] at ha hb
        rw [h1, h2, ha, hb]
    · rw [if_neg hden] at h
      right
      simp only [R_bind_eq_ok] at h
      obtain ⟨T, -, d, hd', h⟩ := h
      have hd2 : 2 ≤ d ∧ d ≤ 255 := by
        simp only [Denominator.fromValue, unwrapO] at hd'
        split at hd'
        · next heq =>
          split at heq
          · cases heq
          · cases heq
            cases hd'
            next h1 =>
              have : asU8 (tu / g : Nat) ≤ 255 := by simp only [asU8]; omega
              omega
        · cases hd'
      rw [e3'] at h
      have hout := place_ok h
      refine ⟨first :: more, d, hord, hd2.1, hd2.2, ?_, ?_, ?_, ?_⟩
      · rw [hout, placed_length]
      · intro i n m hn hm
        rw [hout, placed_get _ _ _ _ _ _ _ _ hn] at hm
        cases hm
        rfl
      · rw [hout]; exact placed_sorted _ _ _ _ _ _
      · refine ⟨first, hperm.mem_iff.1 (by simp), ?_, ?_, ?_⟩
        · intro m hm
          have := hperm.mem_iff.2 hm
          rcases List.mem_cons.1 this with rfl | this
          · exact Nat.le_refl _
          · exact List.rel_of_pairwise_cons hord.sorted this
        · rw [hout]
          simp [placed]
        · rw [hout]
          have := placed_ge first.baseStartTick T tu d (first :: more) 0
          simpa using this

example : (tuplize [exampleNote, { exampleNote with pitch := ⟨.D, .Oct3, .Null, 62, 36⟩, baseStartTick := 340, tie := true }]).map
    (fun l => l.map (fun n => (n.baseStartTick, n.duration.denominator, n.pitch.value, n.tie))) =
    .ok [(100, 2, 60, false), (340, 2, 62, true)] := by decide +kernel

/-- C37 and C38, the exact outcome for up to 1000 notes with at most 31 dots that
do not start at the very end of time.  `g` is the common unit, the tuplet has
`total/g` members; below 2 nothing happens; a number of members whose low byte is
0 or 1 panics; otherwise note number `i` in start order comes at `i`'s share of the
time of two members, where every note counts, also those sounding together. -/
theorem C37_exact (notes : List Note) (hne : notes ≠ []) (ts : List Nat) (hts : Starts notes ts) (g : Nat)
    (hg : CommonUnit notes g) (hd : ∀ n ∈ notes, n.duration.dots < 32) (hlen : notes.length ≤ 1000)
    (hst : ∀ n ∈ notes, n.baseStartTick ≤ U32_MAX - 2048000) :
    let total := (ts.map (chordUnits notes)).sum
    let ticks := (ts.map (chordTicks notes)).sum
    let members := total / g
    (members < 2 → tuplize notes = .ok notes) ∧
    (2 ≤ members → members % 256 < 2 → tuplize notes = .error .unwrap) ∧
    (2 ≤ members → 2 ≤ members % 256 → ∃ l out first, InOrder notes l ∧ tuplize notes = .ok out ∧
      out.length = l.length ∧ first ∈ notes ∧ (∀ m ∈ notes, first.baseStartTick ≤ m.baseStartTick) ∧
      ∀ (i : Nat) (n : Note), l[i]? = some n → out[i]? = some { n with
        baseStartTick := first.baseStartTick + ticks / members * 2 * ((l.take i).map (fun n => units n.duration)).sum / total
        duration := { n.duration with denominator := members % 256 } }) := by
  intro total ticks members
  have hord := sort_inOrder notes
  have hperm := sort_perm notes
  cases h0 : sort notes with
  | nil =>
    rw [h0] at hperm
    exact absurd (List.nil_perm.1 hperm) hne
  | cons first more =>
  rw [h0] at hord hperm
  have hdl : ∀ n ∈ first :: more, n.duration.dots < 32 := fun n hn => hd n (hperm.mem_iff.1 hn)
  obtain ⟨es, e1, e2, e3, e4, -⟩ := group_spec (first :: more) hdl hord.sorted none (by simp)
  have e3' : es.flatMap (·.notes) = first :: more := by simpa using e3
  obtain ⟨s1, s2⟩ := sums_eq hord e2 e3' e4 hts
  have hgg : (first :: more).foldr (fun n g => (units n.duration).gcd g) 0 = g :=
    commonUnit_unique (commonUnit_perm hperm (foldr_gcd_common _)) hg
  have hgpos : 0 < g := by
    rcases Nat.eq_zero_or_pos g with h' | h'
    · subst h'
      have := hg.dvd first (hperm.mem_iff.1 (by simp))
      have := units_pos first.duration
      omega
    · exact h'
  have hlenes : es.length ≤ 1000 := by
    have h1 : es.length ≤ (es.flatMap (·.notes)).length := by
      clear e1 e3 e3' s1 s2 e4
      induction es with
      | nil => simp
      | cons e es ih =>
        have := ih (fun x hx => e2 x (by simp [hx]))
        have := List.length_pos_iff.2 (e2 e (by simp)).ne
        simp only [List.flatMap_cons, List.length_append, List.length_cons]
        omega
    rw [e3', hperm.length_eq] at h1
    omega
  have hsum : ∀ (f : Elem → Nat) (c : Nat), (∀ e, f e ≤ c) → (es.map f).sum ≤ es.length * c := by
    intro f c hf
    clear e1 e3 e3' s1 s2 e4 e2 hlenes
    induction es with
    | nil => simp
    | cons e es ih =>
      have := hf e
      simp only [List.map_cons, List.sum_cons, List.length_cons, Nat.add_mul]
      omega
  have hu1 := hsum (fun e => units e.minDuration) 512 (fun e => units_le _)
  have ht1 := hsum (fun e => plainTicks e.minDuration) 2048
    (fun e => Nat.le_trans (plainTicks_le _) (by have := units_le e.minDuration; omega))
  have ht4 : ticks ≤ 4 * total := by
    simp only [ticks, total]
    rw [← s1, ← s2]
    clear e1 e3 e3' s1 s2 e4 e2 hlenes hsum hu1 ht1
    induction es with
    | nil => simp
    | cons e es ih =>
      have := plainTicks_le e.minDuration
      simp only [List.map_cons, List.sum_cons]
      omega
  rw [s1] at hu1
  rw [s2] at ht1
  change total ≤ _ at hu1
  change ticks ≤ _ at ht1
  have htot : totalTickUnit es (0, 0) = .ok (ticks, total) := by
    rw [totalTickUnit_spec es (min_dots e2 (by rw [e3']; exact hdl)) 0 0 ?_ ?_, s1, s2, Nat.zero_add, Nat.zero_add]
    · rw [s2, Nat.zero_add]; change ticks ≤ _; simp only [U32_MAX]; omega
    · rw [s1, Nat.zero_add]; change total ≤ _; simp only [U32_MAX]; omega
  have hgdvd : g ∣ total := by
    simp only [total]
    rw [← s1]
    have gen : ∀ es : List Elem, (∀ e ∈ es, g ∣ units e.minDuration) → g ∣ (es.map (fun e => units e.minDuration)).sum := by
      intro es this
      induction es with
      | nil => simp
      | cons e es ih =>
        simp only [List.map_cons, List.sum_cons]
        exact Nat.dvd_add (this e (by simp)) (ih (fun x hx => this x (by simp [hx])))
    exact gen es (elems_dvd hord hg e2 e3')
  have htm : total = members * g := (Nat.div_mul_cancel hgdvd).symm
  have heq : tuplize notes =
      if members < 2 then .ok notes else (do
        let T ← mulU32 (ticks / members) 2
        let d ← unwrapO (Denominator.fromValue (asU8 members))
        place first.baseStartTick T total d (first :: more) 0) := by
    simp only [tuplize, h0, e1, R_bind_ok, gcdUnits_spec _ hdl, reduceCtorEq, if_false, hgg, htot,
      if_neg (show ¬ g = 0 by omega), e3', R_pure]
    rfl
  have hg512 : g ≤ 512 := Nat.le_trans (Nat.le_of_dvd (units_pos _) (hg.dvd first (hperm.mem_iff.1 (by simp)))) (units_le _)
  refine ⟨fun h => by rw [heq, if_pos h], ?_, ?_⟩
  · intro h2 h256
    have hq : ticks / members ≤ 4 * g := by
      apply Nat.div_le_of_le_mul
      calc ticks ≤ 4 * total := ht4
        _ = members * (4 * g) := by rw [htm, Nat.mul_left_comm]
    rw [heq, if_neg (by omega)]
    simp only [mulU32, if_pos (show ticks / members * 2 ≤ U32_MAX by simp only [U32_MAX]; omega), R_bind_ok]
    have : asU8 members = members % 256 := by simp only [asU8]; omega
    simp only [this, Denominator.fromValue, if_pos h256, unwrapO, R_bind_error]
  · intro h2 h256
    have hq : ticks / members ≤ 4 * g := by
      apply Nat.div_le_of_le_mul
      calc ticks ≤ 4 * total := ht4
        _ = members * (4 * g) := by rw [htm, Nat.mul_left_comm]
    have hsl : ((first :: more).map (fun n => units n.duration)).sum ≤ 512000 := by
      have hl : (first :: more).length ≤ 1000 := by rw [hperm.length_eq]; omega
      have : ∀ l : List Note, (l.map (fun n => units n.duration)).sum ≤ l.length * 512 := by
        intro l
        induction l with
        | nil => simp
        | cons n l ih =>
          have := units_le n.duration
          simp only [List.map_cons, List.sum_cons, List.length_cons, Nat.add_mul]
          omega
      have := this (first :: more)
      omega
    have hasu : asU8 members = members % 256 := by simp only [asU8]; omega
    have hS0 : 0 + ((first :: more).map (fun n => units n.duration)).sum = ((first :: more).map (fun n => units n.duration)).sum :=
      Nat.zero_add _
    have hplace : place first.baseStartTick (ticks / members * 2) total (members % 256) (first :: more) 0 =
        .ok (placed first.baseStartTick (ticks / members * 2) total (members % 256) (first :: more) 0) := by
      apply place_spec _ _ _ _ _ _ hdl
      · rw [htm]; exact Nat.mul_pos (by omega) hgpos
      · rw [hS0]
        have h1 : ticks / members * 2 ≤ 4096 := by omega
        have := Nat.mul_le_mul h1 hsl
        simp only [U32_MAX]
        omega
      · rw [hS0]; simp only [U32_MAX]; omega
      · rw [hS0]
        have hf := hst first (hperm.mem_iff.1 (by simp))
        have h1 : ticks / members * 2 ≤ 4 * total := by
          rw [htm]
          have : 2 * g ≤ members * g := Nat.mul_le_mul_right _ h2
          omega
        have h2 : ticks / members * 2 * ((first :: more).map (fun n => units n.duration)).sum / total ≤ 2048000 := by
          apply Nat.div_le_of_le_mul
          calc _ ≤ (4 * total) * 512000 := Nat.mul_le_mul h1 hsl
            _ = total * 2048000 := by omega
        simp only [U32_MAX] at hf ⊢
        omega
    refine ⟨first :: more, placed first.baseStartTick (ticks / members * 2) total (members % 256) (first :: more) 0,
      first, hord, ?_, placed_length _ _ _ _ _ _, hperm.mem_iff.1 (by simp), ?_, ?_⟩
    · rw [heq, if_neg (by omega)]
      simp only [mulU32, if_pos (show ticks / members * 2 ≤ U32_MAX by simp only [U32_MAX]; omega), R_bind_ok, hasu,
        Denominator.fromValue, if_neg (show ¬ members % 256 < 2 by omega), unwrapO, hplace]
    · intro m hm
      rcases List.mem_cons.1 (hperm.mem_iff.2 hm) with rfl | this
      · exact Nat.le_refl _
      · exact List.rel_of_pairwise_cons hord.sorted this
    · intro i n hn
      rw [placed_get _ _ _ _ _ _ _ _ hn, Nat.zero_add]

/-- C37 and C38, the exact outcome for every selection.  A note with 32 dots or more
panics, and so does a selection whose length in ticks or units exceeds 32 bits; apart from
that, fewer than two members leave it alone, a number of members whose low byte is 0 or
1 panics, and otherwise note number `i` in start order comes at `i`'s share of the time of
two members, or all panics if the share of the last note or the units of all notes exceed
32 bits. -/
theorem C37_all (notes : List Note) (hne : notes ≠ []) (ts : List Nat) (hts : Starts notes ts) (g : Nat)
    (hg : CommonUnit notes g) :
    let total := (ts.map (chordUnits notes)).sum
    let ticks := (ts.map (chordTicks notes)).sum
    let members := total / g
    ((∃ n ∈ notes, 32 ≤ n.duration.dots) → tuplize notes = .error .overflow) ∧
    ((∀ n ∈ notes, n.duration.dots < 32) →
      (4294967295 < ticks ∨ 4294967295 < total → tuplize notes = .error .overflow) ∧
      (ticks ≤ 4294967295 → total ≤ 4294967295 →
        (members < 2 → tuplize notes = .ok notes) ∧
        (2 ≤ members → members % 256 < 2 → tuplize notes = .error .unwrap) ∧
        (2 ≤ members → 2 ≤ members % 256 → ∃ l first, InOrder notes l ∧ first ∈ notes ∧
          (∀ m ∈ notes, first.baseStartTick ≤ m.baseStartTick) ∧
          let share := fun i => ticks / members * 2 * ((l.take i).map (fun n => units n.duration)).sum
          let fits := share (l.length - 1) ≤ 4294967295 ∧ first.baseStartTick + share (l.length - 1) / total ≤ 4294967295 ∧
            (l.map (fun n => units n.duration)).sum ≤ 4294967295
          (fits → ∃ out, tuplize notes = .ok out ∧ out.length = l.length ∧
            ∀ (i : Nat) (n : Note), l[i]? = some n → out[i]? = some { n with
              baseStartTick := first.baseStartTick + share i / total
              duration := { n.duration with denominator := members % 256 } }) ∧
          (¬ fits → tuplize notes = .error .overflow)))) := by
  intro total ticks members
  have hord := sort_inOrder notes
  have hperm := sort_perm notes
  cases h0 : sort notes with
  | nil =>
    rw [h0] at hperm
    exact absurd (List.nil_perm.1 hperm) hne
  | cons first more =>
  rw [h0] at hord hperm
  constructor
  · rintro ⟨n, hn, h32⟩
    simp only [tuplize, h0]
    cases hgr : group (first :: more) none with
    | ok es =>
      have := group_ok_dots hgr n (hperm.mem_iff.2 hn)
      omega
    | error p => rw [group_err _ _ (by simp) p hgr]; rfl
  intro hd
  have hdl : ∀ n ∈ first :: more, n.duration.dots < 32 := fun n hn => hd n (hperm.mem_iff.1 hn)
  obtain ⟨es, e1, e2, e3, e4, -⟩ := group_spec (first :: more) hdl hord.sorted none (by simp)
  have e3' : es.flatMap (·.notes) = first :: more := by simpa using e3
  obtain ⟨s1, s2⟩ := sums_eq hord e2 e3' e4 hts
  have hgg : (first :: more).foldr (fun n g => (units n.duration).gcd g) 0 = g :=
    commonUnit_unique (commonUnit_perm hperm (foldr_gcd_common _)) hg
  have hgpos : 0 < g := by
    rcases Nat.eq_zero_or_pos g with h' | h'
    · subst h'
      have := hg.dvd first (hperm.mem_iff.1 (by simp))
      have := units_pos first.duration
      omega
    · exact h'
  have hmd := min_dots e2 (by rw [e3']; exact hdl)
  constructor
  · intro hover
    have ho := totalTickUnit_over es hmd 0 0 (by simp only [U32_MAX]; omega) (by simp only [U32_MAX]; omega)
      (by rw [s1, s2, Nat.zero_add, Nat.zero_add]; exact hover)
    simp only [tuplize, h0, e1, R_bind_ok, gcdUnits_spec _ hdl, reduceCtorEq, if_false, ho]
    rfl
  intro ht1 hu1
  have htot : totalTickUnit es (0, 0) = .ok (ticks, total) := by
    rw [totalTickUnit_spec es hmd 0 0 ?_ ?_, s1, s2, Nat.zero_add, Nat.zero_add]
    · rw [s2, Nat.zero_add]; exact ht1
    · rw [s1, Nat.zero_add]; exact hu1
  have heq : tuplize notes =
      if members < 2 then .ok notes else (do
        let T ← mulU32 (ticks / members) 2
        let d ← unwrapO (Denominator.fromValue (asU8 members))
        place first.baseStartTick T total d (first :: more) 0) := by
    simp only [tuplize, h0, e1, R_bind_ok, gcdUnits_spec _ hdl, reduceCtorEq, if_false, hgg, htot,
      if_neg (show ¬ g = 0 by omega), e3', R_pure]
    rfl
  have hT : 2 ≤ members → ticks / members * 2 ≤ U32_MAX := by
    intro h2
    have h1 : ticks / members ≤ ticks / 2 := Nat.div_le_div_left h2 (by omega)
    simp only [U32_MAX]
    omega
  have hasu : asU8 members = members % 256 := by simp only [asU8]; omega
  refine ⟨fun h => by rw [heq, if_pos h], ?_, ?_⟩
  · intro h2 h256
    rw [heq, if_neg (by omega)]
    simp only [mulU32, if_pos (hT h2), R_bind_ok, hasu, Denominator.fromValue, if_pos h256, unwrapO, R_bind_error]
  · intro h2 h256
    have hpos : 0 < total := by
      rcases Nat.eq_zero_or_pos total with h | h
      · simp only [members, h, Nat.zero_div] at h2; omega
      · exact h
    obtain ⟨p1, p2⟩ := place_exact first.baseStartTick (ticks / members * 2) total (members % 256) (first :: more) 0 (by simp) hdl hpos
    rw [Nat.zero_add, Nat.zero_add] at p1 p2
    have heq2 : tuplize notes = place first.baseStartTick (ticks / members * 2) total (members % 256) (first :: more) 0 := by
      rw [heq, if_neg (by omega)]
      simp only [mulU32, if_pos (hT h2), R_bind_ok, hasu, Denominator.fromValue, if_neg (show ¬ members % 256 < 2 by omega), unwrapO]
    refine ⟨first :: more, first, hord, hperm.mem_iff.1 (by simp), ?_, ?_, ?_⟩
    · intro m hm
      rcases List.mem_cons.1 (hperm.mem_iff.2 hm) with rfl | this
      · exact Nat.le_refl _
      · exact List.rel_of_pairwise_cons hord.sorted this
    · intro hf
      refine ⟨_, heq2.trans (p1 hf), placed_length _ _ _ _ _ _, fun i n hn => ?_⟩
      rw [placed_get _ _ _ _ _ _ _ _ hn, Nat.zero_add]
    · intro hf
      exact heq2.trans (p2 hf)

/-- Two quarters, the last tick: the second comes 240 ticks later, which is too late. -/
example : tuplize [{ exampleNote with baseStartTick := 4294967000 }, { exampleNote with baseStartTick := 4294967295 }] = .ok
    [{ exampleNote with baseStartTick := 4294967000 }, { exampleNote with baseStartTick := 4294967240 }] ∧
    tuplize [{ exampleNote with baseStartTick := 4294967100 }, { exampleNote with baseStartTick := 4294967295 }] = .error .overflow ∧
    tuplize [{ exampleNote with duration := ⟨.Quarter, 2, 32⟩ }] = .error .overflow := by decide +kernel

/-- Tuplets of equal notes, one after the other: `n` of them get the time of two. -/
theorem C37_equal (notes : List Note) (v : NoteValue) (dots : Nat) (hdots : dots < 32)
    (hsame : ∀ n ∈ notes, n.duration.numerator = v ∧ n.duration.dots = dots)
    (hdist : (notes.map (·.baseStartTick)).Nodup) (h2 : 2 ≤ notes.length) (h255 : notes.length ≤ 255)
    (hst : ∀ n ∈ notes, n.baseStartTick ≤ U32_MAX - 2048000) :
    ∃ l out first, InOrder notes l ∧ tuplize notes = .ok out ∧ out.length = l.length ∧ first ∈ notes ∧
      (∀ m ∈ notes, first.baseStartTick ≤ m.baseStartTick) ∧
      ∀ (i : Nat) (n : Note), l[i]? = some n → out[i]? = some { n with
        baseStartTick := first.baseStartTick + plainTicks ⟨v, 2, dots⟩ * 2 * i / notes.length
        duration := { n.duration with denominator := notes.length } } := by
  have hU : ∀ n ∈ notes, units n.duration = units ⟨v, 2, dots⟩ ∧ plainTicks n.duration = plainTicks ⟨v, 2, dots⟩ := by
    intro n hn
    obtain ⟨h1, h2⟩ := hsame n hn
    simp only [units, plainTicks, h1, h2, and_self]
  have hpos := units_pos ⟨v, 2, dots⟩
  generalize hu : units ⟨v, 2, dots⟩ = U at *
  generalize hl : plainTicks ⟨v, 2, dots⟩ = L at *
  have hne : notes ≠ [] := by intro h; rw [h] at h2; simp at h2
  obtain ⟨n0, hn0⟩ := List.exists_mem_of_ne_nil _ hne
  have hts : Starts notes (notes.map (·.baseStartTick)) := ⟨hdist, fun t => by simp⟩
  have hg : CommonUnit notes U := ⟨fun n hn => by rw [(hU n hn).1]; exact Nat.dvd_refl _, fun k hk => by
    have := hk n0 hn0
    rwa [(hU n0 hn0).1] at this⟩
  have hconst : ∀ (f : Nat → Nat) (c : Nat) (l : List Nat), (∀ t ∈ l, f t = c) → (l.map f).sum = l.length * c := by
    intro f c l h
    induction l with
    | nil => simp
    | cons t l ih =>
      rw [List.map_cons, List.sum_cons, h t (by simp), ih (fun x hx => h x (by simp [hx])), List.length_cons,
        Nat.add_mul, Nat.one_mul, Nat.add_comm]
  have hmin : ∀ (f : Note → Nat) (c : Nat), (∀ n ∈ notes, f n = c) → ∀ t ∈ notes.map (·.baseStartTick),
      ((chordAt notes t).map f).min?.getD 0 = c := by
    intro f c hf t ht
    obtain ⟨n, hn, rfl⟩ := List.mem_map.1 ht
    have hmem : n ∈ chordAt notes n.baseStartTick := by simp [chordAt, hn]
    apply min?_getD_eq
    · exact List.mem_map.2 ⟨n, hmem, hf n hn⟩
    · intro b hb
      obtain ⟨m, hm, rfl⟩ := List.mem_map.1 hb
      rw [hf m ((List.mem_filter.1 hm).1)]
      exact Nat.le_refl _
  have htotal : ((notes.map (·.baseStartTick)).map (chordUnits notes)).sum = notes.length * U := by
    rw [hconst (chordUnits notes) U _ (hmin _ U (fun n hn => (hU n hn).1)), List.length_map]
  have hticks : ((notes.map (·.baseStartTick)).map (chordTicks notes)).sum = notes.length * L := by
    rw [hconst (chordTicks notes) L _ (hmin _ L (fun n hn => (hU n hn).2)), List.length_map]
  obtain ⟨-, -, h3⟩ := C37_exact notes hne _ hts U hg (fun n hn => by rw [(hsame n hn).2]; exact hdots) (by omega) hst
  simp only [htotal, hticks, Nat.mul_div_cancel _ hpos] at h3
  have hm : notes.length % 256 = notes.length := Nat.mod_eq_of_lt (by omega)
  rw [hm] at h3
  obtain ⟨l, out, first, o1, o2, o3, o4, o5, o6⟩ := h3 h2 h2
  refine ⟨l, out, first, o1, o2, o3, o4, o5, ?_⟩
  intro i n hn
  rw [o6 i n hn, Nat.mul_div_cancel_left _ (by omega)]
  have hsum : ((l.take i).map (fun n => units n.duration)).sum = i * U := by
    have hc : ∀ l : List Note, (∀ n ∈ l, units n.duration = U) → (l.map (fun n => units n.duration)).sum = l.length * U := by
      intro l h
      induction l with
      | nil => simp
      | cons t l ih =>
        rw [List.map_cons, List.sum_cons, h t (by simp), ih (fun x hx => h x (by simp [hx])), List.length_cons,
          Nat.add_mul, Nat.one_mul, Nat.add_comm]
    rw [hc _ (fun m hm => (hU m ((inOrder_mem o1 m).1 (List.mem_of_mem_take hm))).1), List.length_take]
    obtain ⟨hlt, -⟩ := List.getElem?_eq_some_iff.1 hn
    rw [Nat.min_eq_left (by omega)]
  rw [hsum, ← Nat.mul_assoc, Nat.mul_div_mul_right _ _ hpos]

/-- A quarter note starting at `t`. -/
private def quarter (t : Nat) : Note := { exampleNote with baseStartTick := t }

private theorem quarter_valid (t : Nat) : ValidLength (quarter t) :=
  ⟨⟨Nat.le_refl 2, by change 2 ≤ 255; omega, Nat.zero_le 7⟩, by change RateTrimmer.ONE.sum.value ≤ 2000; decide⟩

/-- Three quarters given out of order become a triplet in the time of two. -/
example : (tuplize [quarter 240, quarter 0, quarter 480]).map (fun l => l.map (fun n => (n.baseStartTick, n.duration.denominator)))
    = .ok [(0, 3), (160, 3), (320, 3)] := by decide +kernel

/-- C37 fails for 256 equal notes: the number of members is truncated to 8 bits
and the program panics. -/
theorem C37_many_false : ∃ notes : List Note, (∀ n ∈ notes, ValidLength n) ∧ notes.length = 256 ∧
    (notes.map (·.baseStartTick)).Nodup ∧ tuplize notes = .error .unwrap := by
  refine ⟨(List.range 256).map (fun i => quarter (240 * i)), ?_, by simp, ?_, by decide +kernel⟩
  · intro n hn
    obtain ⟨i, -, rfl⟩ := List.mem_map.1 hn
    exact quarter_valid _
  · rw [List.map_map]
    refine List.Pairwise.map _ (R := fun a b => a < b) ?_ List.pairwise_lt_range
    intro a b hab
    simp only [Function.comp, quarter]
    omega

/-- C37: with 258 equal notes the denominator stored is 2, the notes being 258 to
the time of two. -/
theorem C37_truncated_false : ∃ notes out : List Note, (∀ n ∈ notes, ValidLength n) ∧ tuplize notes = .ok out ∧
    notes.length = 258 ∧ ∀ n ∈ out, n.duration.denominator = 2 ∧ n.baseStartTick < 480 := by
  refine ⟨(List.range 258).map (fun i => quarter (240 * i)), (List.range 258).map (fun i => quarter (480 * i / 258)), ?_,
    by decide +kernel, by simp, ?_⟩
  · intro n hn
    obtain ⟨i, -, rfl⟩ := List.mem_map.1 hn
    exact quarter_valid _
  · intro n hn
    obtain ⟨i, hi, rfl⟩ := List.mem_map.1 hn
    rw [List.mem_range] at hi
    refine ⟨rfl, ?_⟩
    simp only [quarter]
    omega

/-- C38 is false: of two notes starting together at 0 one is moved to 160. -/
theorem C38_chord_false : ∃ notes out : List Note, (∀ n ∈ notes, ValidLength n) ∧ tuplize notes = .ok out ∧
    notes.map (·.baseStartTick) = [0, 0, 240, 480] ∧ out.map (·.baseStartTick) = [0, 160, 320, 480] := by
  refine ⟨[quarter 0, quarter 0, quarter 240, quarter 480],
    [0, 160, 320, 480].map (fun t => { quarter t with duration := ⟨.Quarter, 3, 0⟩ }), ?_, by decide +kernel, rfl, rfl⟩
  intro n hn
  have : n.duration = ⟨.Quarter, 2, 0⟩ ∧ n.durationTrimmer = .ONE := by
    simp only [List.mem_cons, List.not_mem_nil, or_false] at hn
    rcases hn with rfl | rfl | rfl | rfl <;> exact ⟨rfl, rfl⟩
  exact ⟨by rw [this.1]; exact ⟨by decide, by decide, by decide⟩, by rw [this.2]; decide⟩

/-- C38 for a selection that is a single chord of notes whose shortest length is
their common unit: it is left alone.  (Missing: chords among other notes, for
which C37_exact gives the starts; they are torn apart.) -/
theorem C38_single_partial (notes : List Note) (hne : notes ≠ []) (t g : Nat)
    (hone : ∀ n ∈ notes, n.baseStartTick = t) (hg : CommonUnit notes g) (hmin : ∃ n ∈ notes, units n.duration = g)
    (hd : ∀ n ∈ notes, n.duration.dots < 32) : tuplize notes = .ok notes := by
  obtain ⟨n0, hn0, hgu⟩ := hmin
  have hts : Starts notes [t] := ⟨by simp, fun x => by
    rw [List.mem_singleton]
    constructor
    · rintro rfl; exact ⟨n0, hn0, hone n0 hn0⟩
    · rintro ⟨n, hn, rfl⟩; exact hone n hn⟩
  have hgpos : 0 < g := by rw [← hgu]; exact units_pos _
  have hcu : chordUnits notes t = g := by
    apply min?_getD_eq
    · exact List.mem_map.2 ⟨n0, by simp [chordAt, hn0, hone n0 hn0], hgu⟩
    · intro b hb
      obtain ⟨m, hm, rfl⟩ := List.mem_map.1 hb
      exact Nat.le_of_dvd (units_pos _) (hg.dvd m ((List.mem_filter.1 hm).1))
  have hu := units_le n0.duration
  have hct : chordTicks notes t ≤ plainTicks n0.duration := by
    have hmem : plainTicks n0.duration ∈ (chordAt notes t).map (fun n => plainTicks n.duration) :=
      List.mem_map.2 ⟨n0, by simp [chordAt, hn0, hone n0 hn0], rfl⟩
    simp only [chordTicks]
    cases hm : ((chordAt notes t).map (fun n => plainTicks n.duration)).min? with
    | none => exact Nat.zero_le _
    | some k => exact (List.min?_eq_some_iff.1 hm).2 _ hmem
  have hpl := plainTicks_le n0.duration
  refine (((C37_all notes hne [t] hts g hg).2 hd).2 ?_ ?_).1 ?_ <;>
    simp only [List.map_cons, List.map_nil, List.sum_cons, List.sum_nil]
  · omega
  · omega
  simp only [hcu, Nat.add_zero, Nat.div_self hgpos]
  omega

example : tuplize [quarter 240, quarter 240] = .ok [quarter 240, quarter 240] :=
  C38_single_partial _ (by simp) 240 64 (by simp [quarter]) ⟨by
    intro n hn
    simp only [List.mem_cons, List.not_mem_nil, or_false] at hn
    rcases hn with rfl | rfl <;> decide, fun k hk => hk (quarter 240) (by simp)⟩ ⟨quarter 240, by simp, by decide⟩
    (by simp only [List.mem_cons, List.not_mem_nil, or_false]; rintro n (rfl | rfl) <;> decide)

/-- Three quarters have the common unit of a quarter, and the tuplet has three members. -/
example : ∃ l out first, InOrder [quarter 0, quarter 240, quarter 480] l ∧ tuplize [quarter 0, quarter 240, quarter 480] = .ok out ∧
    out.length = l.length ∧ first ∈ [quarter 0, quarter 240, quarter 480] := by
  obtain ⟨l, out, first, h1, h2, h3, h4, -⟩ := (C37_exact [quarter 0, quarter 240, quarter 480] (by simp) [0, 240, 480]
    ⟨by decide, fun t => by simp [quarter, eq_comm]⟩ 64 ⟨by
      intro n hn
      simp only [List.mem_cons, List.not_mem_nil, or_false] at hn
      rcases hn with rfl | rfl | rfl <;> decide, fun k hk => hk (quarter 0) (by simp)⟩
    (by simp only [List.mem_cons, List.not_mem_nil, or_false]; rintro n (rfl | rfl | rfl) <;> decide) (by decide)
    (by simp only [List.mem_cons, List.not_mem_nil, or_false]; rintro n (rfl | rfl | rfl) <;> decide)).2.2 (by decide +kernel)
    (by decide +kernel)
  exact ⟨l, out, first, h1, h2, h3, h4⟩

/-- C38 fails wherever a tuplet is made: unless the shares are below one tick, any
two neighbours in start order end up at different ticks, whether or not they
started together. -/
theorem C38_apart (notes : List Note) (hne : notes ≠ []) (ts : List Nat) (hts : Starts notes ts) (g : Nat)
    (hg : CommonUnit notes g) (out : List Note) (hout : tuplize notes = .ok out)
    (h2 : 2 ≤ (ts.map (chordUnits notes)).sum / g)
    (hshare : ∀ n ∈ notes, (ts.map (chordUnits notes)).sum ≤
      (ts.map (chordTicks notes)).sum / ((ts.map (chordUnits notes)).sum / g) * 2 * units n.duration) :
    out.Pairwise (fun a b => a.baseStartTick < b.baseStartTick) := by
  obtain ⟨hbad, hgood⟩ := C37_all notes hne ts hts g hg
  by_cases hd : ∃ n ∈ notes, 32 ≤ n.duration.dots
  · rw [hbad hd] at hout; cases hout
  obtain ⟨hbad, hgood⟩ := hgood (fun n hn => Nat.lt_of_not_le (fun h => hd ⟨n, hn, h⟩))
  by_cases hb : 4294967295 < (ts.map (chordTicks notes)).sum ∨ 4294967295 < (ts.map (chordUnits notes)).sum
  · rw [hbad hb] at hout; cases hout
  obtain ⟨-, hp, hok⟩ := hgood (by omega) (by omega)
  by_cases h256 : (ts.map (chordUnits notes)).sum / g % 256 < 2
  · rw [hp h2 h256] at hout; cases hout
  obtain ⟨l, first, o1, o4, -, hfit, hno⟩ := hok h2 (by omega)
  have hfits := Classical.not_not.1 (fun h => by rw [hno h] at hout; cases hout)
  obtain ⟨out', o2, o3, o6⟩ := hfit hfits
  clear hfit hno hfits hok hgood
  rw [hout] at o2
  cases o2
  have htpos : 0 < (ts.map (chordUnits notes)).sum := by
    rcases Nat.eq_zero_or_pos (ts.map (chordUnits notes)).sum with h | h
    · rw [h, Nat.zero_div] at h2; omega
    · exact h
  generalize hT : (ts.map (chordTicks notes)).sum / ((ts.map (chordUnits notes)).sum / g) * 2 = T at *
  generalize htot : (ts.map (chordUnits notes)).sum = total at *
  rw [List.pairwise_iff_getElem]
  intro i j hi hj hij
  have gi := o6 i l[i] (by rw [List.getElem?_eq_getElem])
  have gj := o6 j l[j] (by rw [List.getElem?_eq_getElem])
  rw [List.getElem?_eq_getElem hi, Option.some.injEq] at gi
  rw [List.getElem?_eq_getElem hj, Option.some.injEq] at gj
  rw [gi, gj]
  simp only
  have hle : (((l.take i).map (fun n => units n.duration)).sum + units l[i].duration) ≤
      ((l.take j).map (fun n => units n.duration)).sum := by
    have e1 : l.take j = l.take (i + 1) ++ (l.take j).drop (i + 1) := by
      have := (List.take_append_drop (i + 1) (l.take j)).symm
      rwa [List.take_take, Nat.min_eq_left (by omega)] at this
    rw [e1, List.map_append, List.sum_append_nat, List.take_add_one, List.getElem?_eq_getElem (by omega),
      Option.toList_some, List.map_append, List.sum_append_nat]
    simp only [List.map_cons, List.map_nil, List.sum_cons, List.sum_nil]
    omega
  have hs := hshare l[i] ((inOrder_mem o1 _).1 (List.getElem_mem _))
  have h1 : T * ((l.take i).map (fun n => units n.duration)).sum + total ≤
      T * ((l.take j).map (fun n => units n.duration)).sum := by
    calc _ ≤ T * ((l.take i).map (fun n => units n.duration)).sum + T * units l[i].duration := by omega
      _ = T * (((l.take i).map (fun n => units n.duration)).sum + units l[i].duration) := by rw [Nat.mul_add]
      _ ≤ _ := Nat.mul_le_mul_left _ hle
  have h3 := Nat.div_le_div_right (c := total) h1
  rw [Nat.add_div_right _ htpos] at h3
  omega

private theorem inOrder_perm {notes l : List Note} (h : InOrder notes l) : l.Perm notes := by
  rw [List.perm_iff_count]
  intro n
  have key : ∀ m : List Note, (chordAt m n.baseStartTick).count n = m.count n := by
    intro m
    simp only [chordAt]
    rw [List.count_filter (by simp)]
  rw [← key l, h.chords, key]

/-- C38, exactly: where a tuplet is made with shares of at least one tick, the notes that
start together all stay together only if there are none, that is, if no two notes start
together. -/
theorem C38_together_iff (notes : List Note) (hne : notes ≠ []) (ts : List Nat) (hts : Starts notes ts) (g : Nat)
    (hg : CommonUnit notes g) (out : List Note) (hout : tuplize notes = .ok out)
    (h2 : 2 ≤ (ts.map (chordUnits notes)).sum / g)
    (hshare : ∀ n ∈ notes, (ts.map (chordUnits notes)).sum ≤
      (ts.map (chordTicks notes)).sum / ((ts.map (chordUnits notes)).sum / g) * 2 * units n.duration) :
    ∃ l d, InOrder notes l ∧ out.length = l.length ∧
      (∀ (i : Nat) (n m : Note), l[i]? = some n → out[i]? = some m → Retimed d n m) ∧
      ((∀ (i j : Nat) (a b a' b' : Note), l[i]? = some a → l[j]? = some b → out[i]? = some a' → out[j]? = some b' →
        a.baseStartTick = b.baseStartTick → a'.baseStartTick = b'.baseStartTick) ↔
        (notes.map (·.baseStartTick)).Nodup) := by
  have hap := C38_apart notes hne ts hts g hg out hout h2 hshare
  rcases C37_keeps_partial notes out hne hout with ⟨rfl, hs⟩ | ⟨l, d, ho, -, -, hlen, hre, -⟩
  · match out, hne, hap, hs with
    | [n], _, _, _ =>
      refine ⟨[n], n.duration.denominator, ⟨by simp, fun _ => rfl⟩, rfl, ?_, ?_⟩
      · intro i a b ha hb
        cases ha.symm.trans hb
        obtain rfl : a = n := by
          have := List.mem_of_getElem? ha
          simpa using this
        rfl
      · simp only [List.map_cons, List.map_nil, List.nodup_cons, List.not_mem_nil, not_false_eq_true, List.nodup_nil, and_self, iff_true]
        intro i j a b a' b' ha hb ha' hb' e
        cases ha.symm.trans ha'
        cases hb.symm.trans hb'
        exact e
    | n :: m :: rest, _, hap, hs =>
      have h1 := List.rel_of_pairwise_cons hap (List.mem_cons_self : m ∈ m :: rest)
      have h3 := hs n (by simp) m (by simp)
      omega
  · refine ⟨l, d, ho, hlen, hre, ?_⟩
    rw [← ((inOrder_perm ho).map (·.baseStartTick)).nodup_iff]
    constructor
    · intro h
      rw [List.Nodup, List.pairwise_map, List.pairwise_iff_getElem]
      intro i j hi hj hij e
      have h3 := h i j l[i] l[j] (out[i]'(by omega)) (out[j]'(by omega)) (List.getElem?_eq_getElem _) (List.getElem?_eq_getElem _)
        (List.getElem?_eq_getElem _) (List.getElem?_eq_getElem _) e
      have h4 := List.pairwise_iff_getElem.1 hap i j (by omega) (by omega) hij
      omega
    · intro h i j a b a' b' ha hb ha' hb' e
      have hij : i = j := by
        obtain ⟨hi, rfl⟩ := List.getElem?_eq_some_iff.1 ha
        obtain ⟨hj, rfl⟩ := List.getElem?_eq_some_iff.1 hb
        rw [List.Nodup, List.pairwise_map, List.pairwise_iff_getElem] at h
        rcases Nat.lt_trichotomy i j with hlt | rfl | hlt
        · exact absurd e (h i j hi hj hlt)
        · rfl
        · exact absurd e.symm (h j i hj hi hlt)
      subst hij
      rw [Option.some.inj (ha'.symm.trans hb')]

/-- The selection of `C38_chord_false` meets the hypotheses of `C38_apart` and
`C38_together_iff`. -/
example (out : List Note) (h : tuplize [quarter 0, quarter 0, quarter 240, quarter 480] = .ok out) :
    ∃ l, InOrder [quarter 0, quarter 0, quarter 240, quarter 480] l ∧
      ¬ ∀ (i j : Nat) (a b a' b' : Note), l[i]? = some a → l[j]? = some b → out[i]? = some a' → out[j]? = some b' →
        a.baseStartTick = b.baseStartTick → a'.baseStartTick = b'.baseStartTick := by
  obtain ⟨l, d, h1, -, -, h2⟩ := C38_together_iff _ (by simp) [0, 240, 480] ⟨by decide, fun t => by simp [quarter, eq_comm]⟩ 64
    ⟨by
      intro n hn
      simp only [List.mem_cons, List.not_mem_nil, or_false] at hn
      rcases hn with rfl | rfl | rfl | rfl <;> decide, fun k hk => hk (quarter 0) (by simp)⟩ out h (by decide +kernel) (by decide +kernel)
  exact ⟨l, h1, fun x => absurd (h2.1 x) (by decide)⟩

/-- They are as follows. -/
example : Starts [quarter 0, quarter 0, quarter 240, quarter 480] [0, 240, 480] ∧
    CommonUnit [quarter 0, quarter 0, quarter 240, quarter 480] 64 ∧
    ([0, 240, 480].map (chordUnits [quarter 0, quarter 0, quarter 240, quarter 480])).sum = 192 := by
  refine ⟨⟨by decide, fun t => by simp [quarter, eq_comm]⟩, ⟨?_, ?_⟩, by decide +kernel⟩
  · intro n hn
    simp only [List.mem_cons, List.not_mem_nil, or_false] at hn
    rcases hn with rfl | rfl | rfl | rfl <;> decide
  · intro k hk
    exact hk (quarter 0) (by simp)

end Klavier
