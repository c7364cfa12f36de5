import Verif.Lemmas.Release
import Verif.Props.Tuple

/-! # C76: tuplets in the program built without overflow checks -/
set_option autoImplicit false
namespace Klavier
open Spec Tuple

/-- C76: what making a tuplet gives for every selection with less than 32 dots: the
outcome of C37, with the time and units of all notes, and each share and start, taken
modulo 2^32. -/
theorem C76_tuple_partial (notes : List Note) (hne : notes ≠ []) (ts : List Nat) (hts : Starts notes ts) (g : Nat)
    (hg : CommonUnit notes g) (hd : ∀ n ∈ notes, n.duration.dots < 32) :
    let total := (ts.map (chordUnits notes)).sum % 2 ^ 32
    let ticks := (ts.map (chordTicks notes)).sum % 2 ^ 32
    let members := total / g
    (members < 2 → Release.tuplize notes = .ok notes) ∧
    (2 ≤ members → members % 256 < 2 → Release.tuplize notes = .error .unwrap) ∧
    (2 ≤ members → 2 ≤ members % 256 → ∃ l first, InOrder notes l ∧ first ∈ notes ∧
      (∀ m ∈ notes, first.baseStartTick ≤ m.baseStartTick) ∧
      let share := fun i => ticks / members * 2 * ((l.take i).map (fun n => units n.duration)).sum % 2 ^ 32
      ∃ out, Release.tuplize notes = .ok out ∧ out.length = l.length ∧
        ∀ (i : Nat) (n : Note), l[i]? = some n → out[i]? = some { n with
          baseStartTick := (first.baseStartTick + share i / total) % 2 ^ 32
          duration := { n.duration with denominator := members % 256 } }) := by
  intro total ticks members
  have h32 : (2 : Nat) ^ 32 = 4294967296 := rfl
  have hord := sort_inOrder notes
  have hperm := sort_perm notes
  cases h0 : sort notes with
  | nil =>
    rw [h0] at hperm
    exact absurd (List.nil_perm.1 hperm) hne
  | cons first more =>
  rw [h0] at hord hperm
  have hdl : ∀ n ∈ first :: more, n.duration.dots < 32 := fun n hn => hd n (hperm.mem_iff.1 hn)
  obtain ⟨es, e1, e2, e3, e4, -⟩ := group_spec (first :: more) hdl hord.sorted none (by simp)
  have e1' : Release.group (first :: more) none = .ok es := by
    rw [Release.agrees_group _ _ (by rw [e1]; exact fun h => by cases h), e1]
  have e3' : es.flatMap (·.notes) = first :: more := by simpa using e3
  obtain ⟨s1, s2⟩ := sums_eq hord e2 e3' e4 hts
  have hgg : (first :: more).foldr (fun n g => (units n.duration).gcd g) 0 = g :=
    commonUnit_unique (commonUnit_perm hperm (foldr_gcd_common _)) hg
  have hgpos : 0 < g := by
    rcases Nat.eq_zero_or_pos g with h' | h'
    · subst h'
      have := hg.dvd first (hperm.mem_iff.1 (by simp))
      have := units_pos first.duration
      omega
    · exact h'
  have hgcd : Release.gcdUnits (first :: more) = some g := by
    have := gcdUnits_spec _ hdl
    rw [hgg, if_neg (by simp)] at this
    rcases Release.step_gcdUnits (first :: more) with h | h
    · rw [h] at this; cases this
    · rw [h] at this; exact Except.ok.inj this
  have hunit : ∀ d : Duration, d.dots < 32 → Release.numeratorUnit d = units d := by
    intro d h
    rcases Release.step_numeratorUnit d with h' | h'
    · rw [numeratorUnit_eq d h] at h'; cases h'
    · rw [numeratorUnit_eq d h] at h'; exact (Except.ok.inj h').symm
  have htot' : ∀ (es : List Elem), (∀ e ∈ es, e.minDuration.dots < 32 ∧ e.minDuration.denominator = 2) → ∀ a b,
      Release.totalTickUnit es (a % 4294967296, b % 4294967296) =
        .ok ((a + (es.map (fun e => plainTicks e.minDuration)).sum) % 4294967296,
          (b + (es.map (fun e => units e.minDuration)).sum) % 4294967296) := by
    intro es
    induction es with
    | nil => intro _ a b; rfl
    | cons e es ih =>
      intro hes a b
      obtain ⟨h1, h2⟩ := hes e (by simp)
      have hl : Release.tickLength e.minDuration = .ok (plainTicks e.minDuration) := by
        rw [Release.agrees_tickLength _ (by rw [tickLength_plain _ h1 h2]; exact fun h => by cases h), tickLength_plain _ h1 h2]
      simp only [Release.totalTickUnit, hl, R_bind_ok, hunit _ h1, Release.add32]
      rw [Nat.mod_add_mod, Nat.mod_add_mod, ih (fun x hx => hes x (by simp [hx]))]
      simp only [List.map_cons, List.sum_cons, Nat.add_assoc]
  have hmd := min_dots e2 (by rw [e3']; exact hdl)
  have htot : Release.totalTickUnit es (0, 0) = .ok (ticks, total) := by
    have := htot' es hmd 0 0
    rw [s1, s2, Nat.zero_add, Nat.zero_add] at this
    exact this
  have hlt : ticks < 4294967296 := Nat.mod_lt _ (by decide)
  have heq : Release.tuplize notes =
      if members < 2 then .ok notes else (do
        let d ← unwrapO (Denominator.fromValue (asU8 members))
        Release.place first.baseStartTick (Release.mul32 (ticks / members) 2) total d (first :: more) 0) := by
    simp only [Release.tuplize, h0, e1', R_bind_ok, hgcd, htot,
      if_neg (show ¬ g = 0 by omega), e3', R_pure]
    rfl
  have hT : 2 ≤ members → Release.mul32 (ticks / members) 2 = ticks / members * 2 := by
    intro h2
    have h1 : ticks / members ≤ ticks / 2 := Nat.div_le_div_left h2 (by omega)
    exact Nat.mod_eq_of_lt (by omega)
  have hasu : asU8 members = members % 256 := by simp only [asU8]; omega
  refine ⟨fun h => by rw [heq, if_pos h], ?_, ?_⟩
  · intro h2 h256
    rw [heq, if_neg (by omega)]
    simp only [hasu, Denominator.fromValue, if_pos h256, unwrapO, R_bind_error]
  · intro h2 h256
    have hpos : total ≠ 0 := by
      intro h
      simp only [members, h, Nat.zero_div] at h2; omega
    have hplace : ∀ (T : Nat) (l : List Note), (∀ n ∈ l, n.duration.dots < 32) → ∀ S, ∃ out,
        Release.place first.baseStartTick T total (members % 256) l (S % 4294967296) = .ok out ∧ out.length = l.length ∧
        ∀ (i : Nat) (n : Note), l[i]? = some n → out[i]? = some { n with
          baseStartTick := (first.baseStartTick +
            T * (S + ((l.take i).map (fun n => units n.duration)).sum) % 4294967296 / total) % 4294967296
          duration := { n.duration with denominator := members % 256 } } := by
      intro T l
      induction l with
      | nil => intro _ S; exact ⟨[], rfl, rfl, fun i n h => by simp at h⟩
      | cons n l ih =>
        intro hl S
        obtain ⟨out, o1, o2, o3⟩ := ih (fun m hm => hl m (by simp [hm])) (S + units n.duration)
        have hun : Release.numeratorUnit (n.duration.withDenominator (members % 256)) = units n.duration :=
          hunit (n.duration.withDenominator (members % 256)) (hl n (by simp))
        refine ⟨{ n with
            baseStartTick := (first.baseStartTick + T * S % 4294967296 / total) % 4294967296
            duration := { n.duration with denominator := members % 256 } } :: out, ?_, ?_, ?_⟩
        · simp only [Release.place, if_neg hpos, hun, Release.add32]
          rw [Nat.mod_add_mod, o1]
          simp only [R_bind_ok, R_pure, Release.mul32, Nat.mul_mod_mod, Duration.withDenominator]
        · simp [o2]
        · intro i m hi
          cases i with
          | zero =>
            simp only [List.getElem?_cons_zero, Option.some.injEq] at hi
            subst hi
            simp
          | succ i =>
            simp only [List.getElem?_cons_succ] at hi ⊢
            rw [o3 i m hi]
            simp only [List.take_succ_cons, List.map_cons, List.sum_cons, Nat.add_assoc]
    obtain ⟨out, o1, o2, o3⟩ := hplace (ticks / members * 2) (first :: more) hdl 0
    rw [Nat.zero_mod] at o1
    refine ⟨first :: more, first, hord, hperm.mem_iff.1 (by simp), ?_, out, ?_, o2, ?_⟩
    · intro m hm
      rcases List.mem_cons.1 (hperm.mem_iff.2 hm) with rfl | this
      · exact Nat.le_refl _
      · exact List.rel_of_pairwise_cons hord.sorted this
    · rw [heq, if_neg (by omega), hT h2]
      simp only [hasu, Denominator.fromValue, if_neg (show ¬ members % 256 < 2 by omega), unwrapO, R_bind_ok]
      exact o1
    · intro i n hn
      rw [o3 i n hn, Nat.zero_add]

/-- Two quarters at the last ticks: the checked build stops, here the second comes first. -/
example : tuplize [{ exampleNote with baseStartTick := 4294967100 }, { exampleNote with baseStartTick := 4294967295 }] = .error .overflow ∧
    Release.tuplize [{ exampleNote with baseStartTick := 4294967100 }, { exampleNote with baseStartTick := 4294967295 }] = .ok
      [{ exampleNote with baseStartTick := 4294967100 }, { exampleNote with baseStartTick := 44 }] := by decide +kernel

/-- C76: so a tuplet can be torn apart. -/
theorem C76_tuple_false : ∃ a b out : Note, a.baseStartTick ≤ U32_MAX ∧ b.baseStartTick ≤ U32_MAX ∧
    a.baseStartTick < b.baseStartTick ∧ ValidLength a ∧ ValidLength b ∧
    (∃ out', Release.tuplize [a, b] = .ok [out', out] ∧ out'.baseStartTick = 4294967100) ∧ out.baseStartTick = 44 :=
  ⟨{ exampleNote with baseStartTick := 4294967100 }, { exampleNote with baseStartTick := 4294967295 },
    { exampleNote with baseStartTick := 44 }, by decide, by decide, by decide,
    ⟨⟨by decide, by decide, by decide⟩, by decide⟩, ⟨⟨by decide, by decide, by decide⟩, by decide⟩,
    ⟨{ exampleNote with baseStartTick := 4294967100 }, by decide +kernel, rfl⟩, rfl⟩

end Klavier
