import Verif.Lemmas.Pasted
import Verif.Model.Bincode
import Verif.Spec.Bincode

/-! # Writing and reading files -/
set_option autoImplicit false
namespace Klavier
open Spec

namespace Bin

theorem length_le (k n : Nat) : (le k n).length = k := by
  induction k generalizing n with
  | zero => rfl
  | succ k ih => simp [le, ih]

theorem ofLe_le {k n : Nat} (h : n < 256 ^ k) : ofLe (le k n) = n := by
  induction k generalizing n with
  | zero => simp [le, ofLe] at h ⊢; omega
  | succ k ih =>
    simp only [le, ofLe]
    rw [ih (by rw [Nat.pow_succ] at h; omega)]
    omega

theorem le_bytes (k n : Nat) : IsBytes (le k n) := by
  induction k generalizing n with
  | zero => intro b hb; cases hb
  | succ k ih =>
    intro b hb
    rcases List.mem_cons.1 hb with rfl | hb
    · omega
    · exact ih _ b hb

theorem ofLe_lt {s : Bytes} (h : IsBytes s) : ofLe s < 256 ^ s.length := by
  induction s with
  | nil => simp [ofLe]
  | cons b s ih =>
    have h1 := h b (by simp)
    have h2 := ih (fun c hc => h c (by simp [hc]))
    simp only [ofLe, List.length_cons, Nat.pow_succ]
    omega

end Bin

/-- `bs` is read as `a`, whatever follows, and no shorter part of it is accepted. -/
structure Codes {α : Type} (r : Rd α) (bs : Bytes) (a : α) : Prop where
  full : ∀ s, r (bs ++ s) = .ok (a, s)
  short : ∀ pre suf, pre ++ suf = bs → suf ≠ [] → r pre = .error .invalid

namespace Codes

theorem pure {α : Type} (a : α) : Codes (Pure.pure a : Rd α) [] a where
  full _ := rfl
  short pre suf h1 h2 := by
    rw [List.append_eq_nil_iff] at h1
    exact absurd h1.2 h2

theorem bind {α β : Type} {r : Rd α} {f : α → Rd β} {b c : Bytes} {x : α} {y : β} (h : Codes r b x)
    (hf : Codes (f x) c y) : Codes (r >>= f) (b ++ c) y where
  full s := by
    change (match r (b ++ c ++ s) with | .ok (a, t) => f a t | .error e => .error e) = _
    rw [List.append_assoc, h.full]
    exact hf.full s
  short pre suf h1 h2 := by
    change (match r pre with | .ok (a, t) => f a t | .error e => .error e) = _
    rcases List.append_eq_append_iff.1 h1 with ⟨d, h3, h4⟩ | ⟨d, h3, h4⟩
    · by_cases hd : d = []
      · subst hd
        have e : pre = b := by simpa using h3.symm
        have := h.full []
        rw [List.append_nil] at this
        rw [e, this]
        exact hf.short [] c rfl (by rw [show c = suf by simpa using h4.symm]; exact h2)
      · rw [h.short pre d h3.symm hd]
    · rw [h3, h.full]
      exact hf.short d suf h4.symm h2

theorem last {α β : Type} {r : Rd α} {f : α → β} {b : Bytes} {x : α} {y : β} (h : Codes r b x) (hy : f x = y) :
    Codes (r >>= fun a => Pure.pure (f a)) b y := by
  have := h.bind (f := fun a => Pure.pure (f a)) (Codes.pure (f x))
  rw [List.append_nil, hy] at this
  exact this

theorem lifted {α β : Type} {r : Rd α} {f : α → R β} {b : Bytes} {x : α} {y : β} (h : Codes r b x) (hy : f x = .ok y) :
    Codes (r >>= fun a => Rd.lift (f a)) b y := by
  have h2 : Codes (Rd.lift (f x)) [] y := by
    rw [hy]
    exact ⟨fun _ => rfl, fun pre suf h1 h2 => absurd (List.append_eq_nil_iff.1 h1).2 h2⟩
  have := h.bind (f := fun a => Rd.lift (f a)) h2
  rw [List.append_nil] at this
  exact this

theorem uint {k n : Nat} (h : n < 256 ^ k) : Codes (Rd.uint k) (Bin.le k n) n where
  full s := by
    have hl := Bin.length_le k n
    unfold Rd.uint
    rw [if_neg (by simp [hl])]
    rw [List.take_left' hl, List.drop_left' hl, Bin.ofLe_le h]
  short pre suf h1 h2 := by
    unfold Rd.uint
    rw [if_pos]
    have := congrArg List.length h1
    rw [List.length_append, Bin.length_le] at this
    have := List.length_pos_iff.2 h2
    omega

theorem sint {k : Nat} {i : Int} (hk : 0 < k) (h : -(256 ^ k / 2 : Nat) ≤ i ∧ i < (256 ^ k / 2 : Nat)) :
    Codes (Rd.sint k) (Bin.leInt k i) i := by
  have he : 256 ^ k % 2 = 0 := by
    obtain ⟨j, rfl⟩ : ∃ j, k = j + 1 := ⟨k - 1, by omega⟩
    rw [Nat.pow_succ]; omega
  have hp : 0 < 256 ^ k := Nat.pow_pos (by decide)
  unfold Rd.sint Bin.leInt
  generalize hM : 256 ^ k = M at *
  have h0 : (0 : Int) ≤ i % (M : Nat) := Int.emod_nonneg _ (by omega)
  have h1 : i % (M : Nat) < (M : Nat) := Int.emod_lt_of_pos _ (by omega)
  refine (uint (k := k) (n := (i % (M : Nat)).toNat) (by rw [hM]; omega)).last ?_
  by_cases hi : 0 ≤ i
  · have : i % (M : Nat) = i := Int.emod_eq_of_lt hi (by omega)
    rw [this]
    rw [if_pos (by omega)]
    omega
  · have : i % (M : Nat) = i + (M : Nat) := by
      rw [← Int.add_emod_right]
      exact Int.emod_eq_of_lt (by omega) (by omega)
    rw [this]
    rw [if_neg (by omega)]
    omega

theorem bool (b : Bool) : Codes Rd.bool (Bin.bool b) b := by
  have h : Codes (Rd.uint 1) (Bin.bool b) (if b then 1 else 0) := by
    cases b
    · exact uint (k := 1) (n := 0) (by decide)
    · exact uint (k := 1) (n := 1) (by decide)
  have := h.bind (f := fun n => if n = 0 then Pure.pure false else if n = 1 then Pure.pure true else Rd.fail)
    (c := []) (y := b) (by cases b <;> exact Codes.pure _)
  rw [List.append_nil] at this
  exact this

theorem option {α : Type} {rd : Rd α} {bin : α → Bytes} {o : Option α} (h : ∀ a, o = some a → Codes rd (bin a) a) :
    Codes (Rd.option rd) (Bin.option bin o) o := by
  cases o with
  | none =>
    have := (uint (k := 1) (n := 0) (by decide)).bind
      (f := fun n => if n = 0 then Pure.pure none else if n = 1 then (do let a ← rd; Pure.pure (some a)) else Rd.fail)
      (c := []) (y := (none : Option α)) (Codes.pure _)
    exact this
  | some a =>
    have := (uint (k := 1) (n := 1) (by decide)).bind
      (f := fun n => if n = 0 then Pure.pure none else if n = 1 then (do let a ← rd; Pure.pure (some a)) else Rd.fail)
      (c := bin a) (y := some a) ((h a rfl).last rfl)
    exact this

theorem elems {α : Type} {rd : Rd α} {bin : α → Bytes} {l : List α} (h : ∀ a ∈ l, Codes rd (bin a) a) :
    Codes (Rd.elems rd l.length) (l.map bin).flatten l := by
  induction l with
  | nil => exact Codes.pure _
  | cons a l ih => exact (h a (by simp)).bind ((ih (fun b hb => h b (by simp [hb]))).last rfl)

theorem vec {α : Type} {rd : Rd α} {bin : α → Bytes} {l : List α} (hl : l.length < 2 ^ 64)
    (h : ∀ a ∈ l, Codes rd (bin a) a) : Codes (Rd.vec rd) (Bin.vec bin l) l :=
  (uint (k := 8) (n := l.length) (by simpa using hl)).bind (elems h)

theorem four {α : Type} {rd : Rd α} {A B C D : Bytes} {a b c d : α} (h1 : Codes rd A a) (h2 : Codes rd B b)
    (h3 : Codes rd C c) (h4 : Codes rd D d) : Codes (Rd.four rd) (A ++ B ++ C ++ D) (a, b, c, d) := by
  simp only [List.append_assoc]
  exact h1.bind (h2.bind (h3.bind (h4.last rfl)))

theorem variant {α : Type} [DecidableEq α] {all : List α} {a : α} (h : a ∈ all) (hl : all.length ≤ 256) :
    Codes (Rd.variant all) (Bin.variant all a) a := by
  have hi : all.idxOf a < all.length := List.idxOf_lt_length_iff.2 h
  have := (uint (k := 4) (n := all.idxOf a) (by omega)).bind
    (f := fun n => match all[n]? with | some a => Pure.pure a | none => Rd.fail) (c := []) (y := a) (by
      rw [List.getElem?_eq_getElem hi, List.getElem_idxOf hi]
      exact Codes.pure a)
  rw [List.append_nil] at this
  exact this

end Codes

/-! ## The data types -/

theorem Pitch.codes {p : Pitch} (h : Pitch.valueOf p.solfa p.octave p.sharpFlat = .ok p) : Codes Pitch.rd p.bin p := by
  unfold Pitch.bin
  simp only [List.append_assoc]
  refine (Codes.variant (by cases p.solfa <;> decide) (by decide)).bind
    ((Codes.variant (by cases p.octave <;> decide) (by decide)).bind
    ((Codes.variant (by cases p.sharpFlat <;> decide) (by decide)).lifted ?_))
  simp [Pitch.new, h]

theorem Duration.codes {d : Duration} (h : 2 ≤ d.denominator ∧ d.denominator ≤ 255) (hd : d.dots ≤ 255) :
    Codes Duration.rd d.bin d := by
  unfold Duration.bin
  simp only [List.append_assoc]
  refine (Codes.variant (by cases d.numerator <;> decide) (by decide)).bind
    ((Codes.uint (by omega)).bind ((Codes.uint (by omega)).last ?_))
  have : Denominator.ofSerialized d.denominator = d.denominator := by
    simp [Denominator.ofSerialized, Denominator.fromValue]
    rw [if_neg (by omega)]; rfl
  rw [this]

theorem Trimmer.fromArray_safe {t : Trimmer} (h : SafeTrimmer t) : Trimmer.fromArray t.v0 t.v1 t.v2 t.v3 = .ok t := by
  have h1 := Trimmer.de_enc h
  simp only [Trimmer.de, De.bind_eq_ok] at h1
  obtain ⟨ms, h2, ⟨a, b, c, d⟩, h3, h4⟩ := h1
  have h5 := De.lift_ok h4
  have h6 : Trimmer.fromArray a b c d = .ok t := h5
  have : a = t.v0 ∧ b = t.v1 ∧ c = t.v2 ∧ d = t.v3 := by
    simp only [Trimmer.fromArray, R_bind_eq_ok] at h6
    obtain ⟨_, _, _, _, _, _, h7⟩ := h6
    cases h7
    exact ⟨rfl, rfl, rfl, rfl⟩
  obtain ⟨rfl, rfl, rfl, rfl⟩ := this
  exact h6

theorem Trimmer.codes {t : Trimmer} (h : SafeTrimmer t) : Codes Trimmer.rd t.bin t :=
  (Codes.four (Codes.sint (by decide) (by have := h.v0; omega)) (Codes.sint (by decide) (by have := h.v1; omega))
    (Codes.sint (by decide) (by have := h.v2; omega)) (Codes.sint (by decide) (by have := h.v3; omega))).lifted
    (Trimmer.fromArray_safe h)

theorem Percent.codes {p : Percent} (h : p.value ≤ 65535) : Codes Percent.rd p.bin p :=
  (Codes.uint (by omega)).last rfl

theorem RateTrimmer.codes {t : RateTrimmer} (h : SafeRate t) : Codes RateTrimmer.rd t.bin t :=
  (Codes.four (Percent.codes h.v0) (Percent.codes h.v1) (Percent.codes h.v2) (Percent.codes h.v3)).last h.sum.symm

theorem Velocity.codes {v : Velocity} (h : v.value ≤ 127) : Codes Velocity.rd v.bin v := by
  refine (Codes.uint (by omega)).last ?_
  unfold Velocity.new
  rw [if_neg (by simp; omega)]

theorem Note.codes {n : Note} (h : SafeNote n) : Codes Note.rd n.bin n := by
  unfold Note.bin
  simp only [List.append_assoc]
  exact (Codes.uint (by have := h.tick; omega)).bind ((Pitch.codes h.pitch).bind
    ((Duration.codes h.denominator h.dots).bind ((Codes.bool _).bind ((Codes.bool _).bind
    ((Velocity.codes h.velocity).bind ((Trimmer.codes h.start).bind ((RateTrimmer.codes h.length).bind
    ((Trimmer.codes h.loudness).bind ((Codes.uint (Nat.lt_of_le_of_lt h.channel (by decide))).last rfl)))))))))

theorem Rhythm.codes {r : Rhythm} (h : SafeRhythm r) : Codes Rhythm.rd r.bin r :=
  (Codes.uint (by have : r.numerator ≤ 255 := h; omega)).bind
    ((Codes.variant (by cases r.denominator <;> decide) (by decide)).last rfl)

theorem Key.codes {k : Key} (h : SafeKey k) : Codes Key.rd k.bin k :=
  (Codes.sint (by decide) (by obtain ⟨h1, h2⟩ := h; omega)).last rfl

theorem Grid.codes {g : Grid} (h : g.value ≤ 4294967295) : Codes Grid.rd g.bin g := (Codes.uint (by omega)).last rfl

theorem RepeatSet.codes (s : RepeatSet) : Codes RepeatSet.rd s.bin s :=
  (Codes.uint (by have := s.bits_lt; omega)).last s.ofBits_bits

theorem Bar.codes {b : Bar} (h : SafeBar b) : Codes Bar.rd b.bin b := by
  unfold Bar.bin
  simp only [List.append_assoc]
  exact (Codes.uint (by have := h.tick; omega)).bind ((Codes.option (fun r hr => Rhythm.codes (h.rhythm r hr))).bind
    ((Codes.option (fun k hk => Key.codes (h.key k hk))).bind ((RepeatSet.codes _).last rfl)))

theorem Tempo.codes {t : Tempo} (h : SafeTempo t) : Codes Tempo.rd t.bin t := by
  have := h.value
  refine (Codes.uint (by have := h.tick; omega)).bind ((Codes.uint (by omega)).last ?_)
  unfold TempoValue.ofSerialized
  rw [if_neg (by omega), if_neg (by omega)]

theorem CtrlChg.codes {c : CtrlChg} (h : SafeCtrl c) : Codes CtrlChg.rd c.bin c := by
  unfold CtrlChg.bin
  simp only [List.append_assoc]
  exact (Codes.uint (by have := h.tick; omega)).bind ((Velocity.codes h.velocity).bind
    ((Codes.uint (Nat.lt_of_le_of_lt h.channel (by decide))).last rfl))

theorem Models.codes {m : Models} (h : SavableModels m) : Codes Models.rd m.bin m := by
  unfold Models.bin
  simp only [List.append_assoc]
  exact (Codes.vec h.manyNotes (fun a ha => Note.codes (h.notes a ha))).bind
    ((Codes.vec h.manyBars (fun a ha => Bar.codes (h.bars a ha))).bind
    ((Codes.vec h.manyTempos (fun a ha => Tempo.codes (h.tempos a ha))).bind
    ((Codes.vec h.manyDumpers (fun a ha => CtrlChg.codes (h.dumpers a ha))).bind
    ((Codes.vec h.manySofts (fun a ha => CtrlChg.codes (h.softs a ha))).last rfl))))

theorem ExportedProject.codes {x : ExportedProject} (h : SavableDocument x) : Codes ExportedProject.rd x.bin x := by
  unfold ExportedProject.bin
  simp only [List.append_assoc]
  exact (Rhythm.codes h.rhythm).bind ((Key.codes h.key).bind ((Grid.codes h.grid).bind ((Models.codes h.models).last rfl)))

theorem Metadata.codes (m : Metadata) : Codes Metadata.rd m.bin m :=
  (Codes.option (fun b _ => Codes.bool b)).bind ((Codes.bool _).last rfl)

theorem ProjectCmd.codes {c : ProjectCmd} (h : SavableCmd c) : Codes ProjectCmd.rd c.bin c := by
  cases c with
  | setRhythm a b =>
    simp only [ProjectCmd.bin, List.append_assoc]
    exact (Codes.uint (by decide)).bind ((Rhythm.codes h.1).bind ((Rhythm.codes h.2).last rfl))
  | setKey a b =>
    simp only [ProjectCmd.bin, List.append_assoc]
    exact (Codes.uint (by decide)).bind ((Key.codes h.1).bind ((Key.codes h.2).last rfl))
  | setGrid a b =>
    simp only [ProjectCmd.bin, List.append_assoc]
    exact (Codes.uint (by decide)).bind ((Grid.codes h.1).bind ((Grid.codes h.2).last rfl))
  | modelChanged a r m =>
    simp only [ProjectCmd.bin, List.append_assoc]
    exact (Codes.uint (by decide)).bind ((Models.codes h.1).bind ((Models.codes h.2).bind ((Metadata.codes m).last rfl)))

/-! ## What is read fits its types -/

/-- Whatever is read satisfies `P`. -/
def Yields {α : Type} (r : Rd α) (P : α → Prop) : Prop :=
  ∀ s a t, IsBytes s → r s = .ok (a, t) → P a ∧ IsBytes t

namespace Yields

theorem pure {α : Type} {P : α → Prop} {a : α} (h : P a) : Yields (Pure.pure a) P := by
  intro s b t hs e
  cases e
  exact ⟨h, hs⟩

theorem fail {α : Type} {P : α → Prop} : Yields Rd.fail P := by
  intro s b t hs e
  cases e

theorem bind {α β : Type} {r : Rd α} {f : α → Rd β} {P : α → Prop} {Q : β → Prop} (h : Yields r P)
    (hf : ∀ a, P a → Yields (f a) Q) : Yields (r >>= f) Q := by
  intro s b t hs e
  change (match r s with | .ok (a, t) => f a t | .error e => .error e) = _ at e
  split at e
  · next a u h1 =>
    obtain ⟨h2, h3⟩ := h s a u hs h1
    exact hf a h2 u b t h3 e
  · cases e

theorem lift {α : Type} {P : α → Prop} {r : R α} (h : ∀ a, r = .ok a → P a) : Yields (Rd.lift r) P := by
  intro s b t hs e
  unfold Rd.lift at e
  split at e
  · cases e; exact ⟨h _ rfl, hs⟩
  · cases e

theorem uint (k : Nat) : Yields (Rd.uint k) (fun n => n < 256 ^ k) := by
  intro s n t hs e
  unfold Rd.uint at e
  split at e
  · cases e
  · next hk =>
    cases e
    constructor
    · have h := Bin.ofLe_lt (s := s.take k) (fun b hb => hs b (List.mem_of_mem_take hb))
      rw [List.length_take, Nat.min_eq_left (by omega)] at h
      exact h
    · exact fun b hb => hs b (List.mem_of_mem_drop hb)

theorem sint {k : Nat} (hk : 0 < k) :
    Yields (Rd.sint k) (fun i => -(256 ^ k / 2 : Nat) ≤ i ∧ i < (256 ^ k / 2 : Nat)) := by
  refine (uint k).bind (fun n hn => pure ?_)
  have he : 256 ^ k % 2 = 0 := by
    obtain ⟨j, rfl⟩ : ∃ j, k = j + 1 := ⟨k - 1, by omega⟩
    rw [Nat.pow_succ]; omega
  generalize 256 ^ k = M at *
  split <;> omega

theorem any {α : Type} {r : Rd α} {P : α → Prop} (h : Yields r P) : Yields r (fun _ => True) :=
  fun s a t hs e => ⟨trivial, (h s a t hs e).2⟩

theorem bool : Yields Rd.bool (fun _ => True) := by
  refine (uint 1).bind (fun n _ => ?_)
  split
  · exact pure trivial
  · split
    · exact pure trivial
    · exact fail

theorem option {α : Type} {rd : Rd α} {P : α → Prop} (h : Yields rd P) :
    Yields (Rd.option rd) (fun o => ∀ a, o = some a → P a) := by
  refine (uint 1).bind (fun n _ => ?_)
  split
  · exact pure (by intro a e; cases e)
  · split
    · exact h.bind (fun a ha => pure (by intro b e; cases e; exact ha))
    · exact fail

theorem elems {α : Type} {rd : Rd α} {P : α → Prop} (h : Yields rd P) (n : Nat) :
    Yields (Rd.elems rd n) (fun l => l.length = n ∧ ∀ a ∈ l, P a) := by
  induction n with
  | zero => exact pure ⟨rfl, by simp⟩
  | succ n ih =>
    refine h.bind (fun a ha => ih.bind (fun l hl => pure ⟨by simp [hl.1], ?_⟩))
    intro b hb
    rcases List.mem_cons.1 hb with rfl | hb
    · exact ha
    · exact hl.2 b hb

theorem vec {α : Type} {rd : Rd α} {P : α → Prop} (h : Yields rd P) :
    Yields (Rd.vec rd) (fun l => l.length < 2 ^ 64 ∧ ∀ a ∈ l, P a) := by
  refine (uint 8).bind (fun n hn => ?_)
  intro s l t hs e
  obtain ⟨h1, h2⟩ := elems h n s l t hs e
  exact ⟨⟨by rw [h1.1]; exact hn, h1.2⟩, h2⟩

theorem four {α : Type} {rd : Rd α} {P : α → Prop} (h : Yields rd P) :
    Yields (Rd.four rd) (fun v => P v.1 ∧ P v.2.1 ∧ P v.2.2.1 ∧ P v.2.2.2) :=
  h.bind (fun _ h1 => h.bind (fun _ h2 => h.bind (fun _ h3 => h.bind (fun _ h4 => pure ⟨h1, h2, h3, h4⟩))))

theorem variant {α : Type} (all : List α) : Yields (Rd.variant all) (fun _ => True) := by
  refine (uint 4).bind (fun n _ => ?_)
  split
  · exact pure trivial
  · exact fail

end Yields

theorem Pitch.yields : Yields Pitch.rd (fun p => Pitch.valueOf p.solfa p.octave p.sharpFlat = .ok p) :=
  (Yields.variant _).bind (fun _ _ => (Yields.variant _).bind (fun _ _ => (Yields.variant _).bind (fun _ _ =>
    Yields.lift (fun _ h => Pitch.new_ok h))))

theorem Duration.yields :
    Yields Duration.rd (fun d => (2 ≤ d.denominator ∧ d.denominator ≤ 255) ∧ d.dots ≤ 255) := by
  refine (Yields.variant _).bind (fun _ _ => (Yields.uint 1).bind (fun d hd => (Yields.uint 1).bind (fun k hk =>
    Yields.pure ⟨?_, by simp only; omega⟩)))
  simp only [Denominator.ofSerialized, Denominator.fromValue]
  split
  · simp
  · simp; omega

theorem Trimmer.yields : Yields Trimmer.rd SafeTrimmer :=
  (Yields.four (Yields.sint (k := 2) (by decide))).bind (fun v hv => Yields.lift (fun t ht => by
    obtain ⟨h1, h2, h3, h4⟩ := hv
    exact Trimmer.fromArray_ok ht (by omega) (by omega) (by omega) (by omega)))

theorem Percent.yields : Yields Percent.rd (fun p => p.value ≤ 65535) :=
  (Yields.uint 2).bind (fun n hn => Yields.pure (by simp only; omega))

theorem RateTrimmer.yields : Yields RateTrimmer.rd SafeRate :=
  (Yields.four Percent.yields).bind (fun _ hv => Yields.pure ⟨hv.1, hv.2.1, hv.2.2.1, hv.2.2.2, rfl⟩)

theorem Velocity.yields : Yields Velocity.rd (fun v => v.value ≤ 127) := by
  refine (Yields.uint 1).bind (fun n hn => Yields.pure ?_)
  unfold Velocity.new
  split
  · decide
  · simp only; omega

theorem Note.yields : Yields Note.rd SafeNote :=
  (Yields.uint 4).bind (fun _ h1 => Pitch.yields.bind (fun _ h2 => Duration.yields.bind (fun _ h3 =>
    Yields.bool.bind (fun _ _ => Yields.bool.bind (fun _ _ => Velocity.yields.bind (fun _ h4 =>
    Trimmer.yields.bind (fun _ h5 => RateTrimmer.yields.bind (fun _ h6 => Trimmer.yields.bind (fun _ h7 =>
    (Yields.uint 1).bind (fun _ h8 => Yields.pure
      ⟨by simp only; omega, h2, h3.1, h3.2, h4, h5, h6, h7, Nat.le_of_lt_succ h8⟩))))))))))

theorem Rhythm.yields : Yields Rhythm.rd SafeRhythm :=
  (Yields.uint 1).bind (fun _ h => (Yields.variant _).bind (fun _ _ => Yields.pure (Nat.le_of_lt_succ h)))

theorem Key.yields : Yields Key.rd SafeKey :=
  (Yields.sint (k := 1) (by decide)).bind (fun _ h => Yields.pure ⟨by simp only; omega, by simp only; omega⟩)

theorem Grid.yields : Yields Grid.rd (fun g => g.value ≤ 4294967295) :=
  (Yields.uint 4).bind (fun _ h => Yields.pure (by simp only; omega))

theorem RepeatSet.yields : Yields RepeatSet.rd (fun _ => True) :=
  (Yields.uint 2).bind (fun _ _ => Yields.pure trivial)

theorem Bar.yields : Yields Bar.rd SafeBar :=
  (Yields.uint 4).bind (fun _ h1 => (Yields.option Rhythm.yields).bind (fun _ h2 => (Yields.option Key.yields).bind
    (fun _ h3 => RepeatSet.yields.bind (fun _ _ => Yields.pure ⟨by simp only; omega, h2, h3⟩))))

theorem Tempo.yields : Yields Tempo.rd SafeTempo := by
  refine (Yields.uint 4).bind (fun _ h1 => (Yields.uint 2).bind (fun v _ => Yields.pure ⟨by simp only; omega, ?_⟩))
  unfold TempoValue.ofSerialized
  split
  · simp only; omega
  · split
    · simp only; omega
    · simp only; omega

theorem CtrlChg.yields : Yields CtrlChg.rd SafeCtrl :=
  (Yields.uint 4).bind (fun _ h1 => Velocity.yields.bind (fun _ h2 => (Yields.uint 1).bind (fun _ h3 =>
    Yields.pure ⟨by simp only; omega, h2, Nat.le_of_lt_succ h3⟩)))

theorem Models.yields : Yields Models.rd SavableModels :=
  (Yields.vec Note.yields).bind (fun _ h1 => (Yields.vec Bar.yields).bind (fun _ h2 => (Yields.vec Tempo.yields).bind
    (fun _ h3 => (Yields.vec CtrlChg.yields).bind (fun _ h4 => (Yields.vec CtrlChg.yields).bind (fun _ h5 =>
    Yields.pure ⟨⟨h1.2, h2.2, h3.2, h4.2, h5.2⟩, h1.1, h2.1, h3.1, h4.1, h5.1⟩)))))

theorem ExportedProject.yields : Yields ExportedProject.rd SavableDocument :=
  Rhythm.yields.bind (fun _ h1 => Key.yields.bind (fun _ h2 => Grid.yields.bind (fun _ h3 => Models.yields.bind
    (fun _ h4 => Yields.pure ⟨h1, h2, h3, h4⟩))))

theorem Metadata.yields : Yields Metadata.rd (fun _ => True) :=
  (Yields.option Yields.bool).bind (fun _ _ => Yields.bool.bind (fun _ _ => Yields.pure trivial))

theorem ProjectCmd.yields : Yields ProjectCmd.rd SavableCmd := by
  refine (Yields.uint 4).bind (fun n _ => ?_)
  unfold ProjectCmd.rdVariant
  split
  · exact Rhythm.yields.bind (fun _ h1 => Rhythm.yields.bind (fun _ h2 => Yields.pure ⟨h1, h2⟩))
  split
  · exact Key.yields.bind (fun _ h1 => Key.yields.bind (fun _ h2 => Yields.pure ⟨h1, h2⟩))
  split
  · exact Grid.yields.bind (fun _ h1 => Grid.yields.bind (fun _ h2 => Yields.pure ⟨h1, h2⟩))
  split
  · exact Models.yields.bind (fun _ h1 => Models.yields.bind (fun _ h2 => Metadata.yields.bind (fun _ _ =>
      Yields.pure ⟨h1, h2⟩)))
  · exact Yields.fail

/-! ## What is written are bytes -/

theorem bytes_append {s t : Bytes} (hs : IsBytes s) (ht : IsBytes t) : IsBytes (s ++ t) := by
  intro b hb
  rcases List.mem_append.1 hb with hb | hb
  · exact hs b hb
  · exact ht b hb

theorem bytes_bool (b : Bool) : IsBytes (Bin.bool b) := by
  cases b <;> (intro x hx; simp [Bin.bool] at hx; omega)

theorem bytes_option {α : Type} {bin : α → Bytes} (o : Option α) (h : ∀ a, IsBytes (bin a)) : IsBytes (Bin.option bin o) := by
  cases o with
  | none => intro x hx; simp [Bin.option] at hx; omega
  | some a =>
    intro x hx
    rcases List.mem_cons.1 hx with rfl | hx
    · omega
    · exact h a x hx

theorem bytes_vec {α : Type} {bin : α → Bytes} (l : List α) (h : ∀ a, IsBytes (bin a)) : IsBytes (Bin.vec bin l) := by
  refine bytes_append (Bin.le_bytes _ _) ?_
  intro x hx
  obtain ⟨s, hs, hx⟩ := List.mem_flatten.1 hx
  obtain ⟨a, _, rfl⟩ := List.mem_map.1 hs
  exact h a x hx

theorem bytes_leInt (k : Nat) (i : Int) : IsBytes (Bin.leInt k i) := Bin.le_bytes _ _
theorem bytes_variant {α : Type} [DecidableEq α] (all : List α) (a : α) : IsBytes (Bin.variant all a) := Bin.le_bytes _ _

theorem Note.bytes (n : Note) : IsBytes n.bin := by
  simp only [Note.bin, Pitch.bin, Duration.bin, Trimmer.bin, RateTrimmer.bin, Percent.bin, Velocity.bin]
  repeat' first
    | apply bytes_append | apply Bin.le_bytes | apply bytes_bool | apply bytes_leInt | apply bytes_variant

theorem Rhythm.bytes (r : Rhythm) : IsBytes r.bin := bytes_append (Bin.le_bytes _ _) (bytes_variant _ _)
theorem Key.bytes (k : Key) : IsBytes k.bin := bytes_leInt _ _

theorem Bar.bytes (b : Bar) : IsBytes b.bin :=
  bytes_append (bytes_append (bytes_append (Bin.le_bytes _ _) (bytes_option _ Rhythm.bytes)) (bytes_option _ Key.bytes))
    (Bin.le_bytes _ _)

theorem Tempo.bytes (b : Tempo) : IsBytes b.bin := bytes_append (Bin.le_bytes _ _) (Bin.le_bytes _ _)

theorem CtrlChg.bytes (c : CtrlChg) : IsBytes c.bin :=
  bytes_append (bytes_append (Bin.le_bytes _ _) (Bin.le_bytes _ _)) (Bin.le_bytes _ _)

theorem Models.bytes (m : Models) : IsBytes m.bin :=
  bytes_append (bytes_append (bytes_append (bytes_append (bytes_vec _ Note.bytes) (bytes_vec _ Bar.bytes))
    (bytes_vec _ Tempo.bytes)) (bytes_vec _ CtrlChg.bytes)) (bytes_vec _ CtrlChg.bytes)

theorem ExportedProject.bytes (x : ExportedProject) : IsBytes x.bin :=
  bytes_append (bytes_append (bytes_append (Rhythm.bytes _) (Key.bytes _)) (Bin.le_bytes _ _)) (Models.bytes _)

theorem Metadata.bytes (m : Metadata) : IsBytes m.bin := bytes_append (bytes_option _ bytes_bool) (bytes_bool _)

theorem ProjectCmd.bytes (c : ProjectCmd) : IsBytes c.bin := by
  cases c
  · exact bytes_append (bytes_append (Bin.le_bytes _ _) (Rhythm.bytes _)) (Rhythm.bytes _)
  · exact bytes_append (bytes_append (Bin.le_bytes _ _) (Key.bytes _)) (Key.bytes _)
  · exact bytes_append (bytes_append (Bin.le_bytes _ _) (Bin.le_bytes _ _)) (Bin.le_bytes _ _)
  · exact bytes_append (bytes_append (bytes_append (Bin.le_bytes _ _) (Models.bytes _)) (Models.bytes _)) (Metadata.bytes _)

end Klavier
