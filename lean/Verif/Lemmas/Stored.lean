import Verif.Spec.Stored
import Verif.Lemmas.Bincode
import Verif.Lemmas.Paste

/-! # Writing is one-to-one -/
set_option autoImplicit false
namespace Klavier
open Spec

/-! ## Bytes -/

/-- Whatever follows, two codes that agree mean the same and end together. -/
def Delim (b c : Bytes) (P : Prop) : Prop := ∀ r s, b ++ r = c ++ s → P ∧ r = s

namespace Delim

theorem app {b c b' c' : Bytes} {P Q : Prop} (h : Delim b c P) (h' : Delim b' c' Q) : Delim (b ++ b') (c ++ c') (P ∧ Q) := by
  intro r s e
  rw [List.append_assoc, List.append_assoc] at e
  obtain ⟨p, e⟩ := h _ _ e
  obtain ⟨q, e⟩ := h' _ _ e
  exact ⟨⟨p, q⟩, e⟩

theorem mono {b c : Bytes} {P Q : Prop} (h : Delim b c P) (hq : P → Q) : Delim b c Q :=
  fun r s e => ⟨hq (h r s e).1, (h r s e).2⟩

theorem le {k n m : Nat} (hn : n < 256 ^ k) (hm : m < 256 ^ k) : Delim (Bin.le k n) (Bin.le k m) (n = m) := by
  intro r s e
  obtain ⟨h, e⟩ := List.append_inj e (by rw [Bin.length_le, Bin.length_le])
  exact ⟨by rw [← Bin.ofLe_le hn, ← Bin.ofLe_le hm, h], e⟩

theorem leInt {k : Nat} {i j : Int} (hi : -(256 ^ k / 2 : Nat) ≤ i ∧ i < (256 ^ k / 2 : Nat))
    (hj : -(256 ^ k / 2 : Nat) ≤ j ∧ j < (256 ^ k / 2 : Nat)) : Delim (Bin.leInt k i) (Bin.leInt k j) (i = j) := by
  have hp : (0 : Int) < (256 ^ k : Nat) := by have := Nat.pow_pos (n := k) (show 0 < 256 by decide); omega
  have a := Int.emod_nonneg i (Int.ne_of_gt hp)
  have b := Int.emod_lt_of_pos i hp
  have a' := Int.emod_nonneg j (Int.ne_of_gt hp)
  have b' := Int.emod_lt_of_pos j hp
  refine (le (k := k) (n := (i % (256 ^ k : Nat)).toNat) (m := (j % (256 ^ k : Nat)).toNat) (by omega) (by omega)).mono fun h => ?_
  have e : i % (256 ^ k : Nat) = j % (256 ^ k : Nat) := by omega
  have hd := Int.emod_emod_of_dvd (i - j) (Int.dvd_refl ((256 ^ k : Nat) : Int))
  have h0 : (i - j) % ((256 ^ k : Nat) : Int) = 0 := Int.emod_eq_emod_iff_emod_sub_eq_zero.1 e
  obtain ⟨q, hq⟩ := Int.dvd_of_emod_eq_zero h0
  have hlt : -((256 ^ k : Nat) : Int) < i - j ∧ i - j < ((256 ^ k : Nat) : Int) := by omega
  rw [hq] at hlt
  have q0 : q = 0 := by
    rcases Int.lt_trichotomy q 0 with h | h | h
    · have := Int.mul_le_mul_of_nonneg_left (show q ≤ -1 by omega) (Int.le_of_lt hp)
      omega
    · exact h
    · have := Int.mul_le_mul_of_nonneg_left (show 1 ≤ q by omega) (Int.le_of_lt hp)
      omega
  rw [q0] at hq; omega

theorem bool (a b : Bool) : Delim (Bin.bool a) (Bin.bool b) (a = b) := by
  intro r s e
  cases a <;> cases b <;> simp_all [Bin.bool]

theorem option {α : Type} {bin : α → Bytes} {o o' : Option α}
    (h : ∀ a b, o = some a → o' = some b → Delim (bin a) (bin b) (a = b)) : Delim (Bin.option bin o) (Bin.option bin o') (o = o') := by
  intro r s e
  match o, o' with
  | none, none => simpa [Bin.option] using e
  | none, some b => simp [Bin.option] at e
  | some a, none => simp [Bin.option] at e
  | some a, some b =>
    rw [Bin.option, Bin.option, List.cons_append, List.cons_append] at e
    obtain ⟨p, e⟩ := h a b rfl rfl _ _ (List.cons.inj e).2
    exact ⟨by rw [p], e⟩

theorem elems {α β : Type} {bin : α → Bytes} {f : α → β} : ∀ {l l' : List α}, l.length = l'.length →
    (∀ a ∈ l, ∀ b ∈ l', Delim (bin a) (bin b) (f a = f b)) → Delim (l.map bin).flatten (l'.map bin).flatten (l.map f = l'.map f)
  | [], [], _, _ => fun r s e => ⟨rfl, e⟩
  | [], _ :: _, h, _ => by simp at h
  | _ :: _, [], h, _ => by simp at h
  | a :: l, b :: l', h, hd => by
    have := (hd a (by simp) b (by simp)).app (elems (bin := bin) (f := f) (l := l) (l' := l') (by simpa using h)
      (fun x hx y hy => hd x (by simp [hx]) y (by simp [hy])))
    simp only [List.map_cons, List.flatten_cons]
    exact this.mono fun ⟨p, q⟩ => by rw [p, q]

theorem vec {α β : Type} {bin : α → Bytes} {f : α → β} {l l' : List α} (hl : l.length < 2 ^ 64) (hl' : l'.length < 2 ^ 64)
    (h : ∀ a ∈ l, ∀ b ∈ l', Delim (bin a) (bin b) (f a = f b)) : Delim (Bin.vec bin l) (Bin.vec bin l') (l.map f = l'.map f) := by
  intro r s e
  unfold Bin.vec at e
  rw [List.append_assoc, List.append_assoc] at e
  obtain ⟨n, e⟩ := le (k := 8) (by simpa using hl) (by simpa using hl') _ _ e
  exact elems n h _ _ e

theorem variant {α : Type} [DecidableEq α] {all : List α} {a b : α} (ha : a ∈ all) (hb : b ∈ all) (hl : all.length ≤ 256) :
    Delim (Bin.variant all a) (Bin.variant all b) (a = b) := by
  have h1 : all.idxOf a < all.length := List.idxOf_lt_length_iff.2 ha
  have h2 : all.idxOf b < all.length := List.idxOf_lt_length_iff.2 hb
  refine (le (k := 4) (n := all.idxOf a) (m := all.idxOf b) (by omega) (by omega)).mono fun h => ?_
  have e1 := List.getElem_idxOf h1
  have e2 := List.getElem_idxOf h2
  rw [← e1, ← e2]
  simp only [h]

end Delim

theorem pitch_ext {p q : Pitch} (hp : ValidPitch p) (hq : ValidPitch q) (h : p.solfa = q.solfa) (h' : p.octave = q.octave)
    (h'' : p.sharpFlat = q.sharpFlat) : p = q := by
  have a := hp.value
  have b := hq.value
  have c := hp.staff
  have d := hq.staff
  obtain ⟨s, o, x, v, w⟩ := p
  obtain ⟨s', o', x', v', w'⟩ := q
  simp only at a b c d h h' h''
  subst h h' h''
  have e1 : v = v' := by omega
  have e2 : w = w' := by rw [c, d]
  rw [e1, e2]

theorem Pitch.delim {p q : Pitch} (hp : ValidPitch p) (hq : ValidPitch q) : Delim p.bin q.bin (p = q) := by
  unfold Pitch.bin
  refine (((Delim.variant ?_ ?_ (by decide)).app (Delim.variant ?_ ?_ (by decide))).app (Delim.variant ?_ ?_ (by decide))).mono
    fun ⟨⟨a, b⟩, c⟩ => pitch_ext hp hq a b c
  · cases p.solfa <;> decide
  · cases q.solfa <;> decide
  · cases p.octave <;> decide
  · cases q.octave <;> decide
  · cases p.sharpFlat <;> decide
  · cases q.sharpFlat <;> decide

theorem Duration.delim {d e : Duration} (h1 : d.denominator ≤ 255) (h2 : d.dots ≤ 255) (h3 : e.denominator ≤ 255) (h4 : e.dots ≤ 255) :
    Delim d.bin e.bin (d = e) := by
  unfold Duration.bin
  refine (((Delim.variant ?_ ?_ (by decide)).app (Delim.le (by omega) (by omega))).app (Delim.le (by omega) (by omega))).mono
    fun ⟨⟨a, b⟩, c⟩ => ?_
  · cases d.numerator <;> decide
  · cases e.numerator <;> decide
  · cases d; cases e; simp_all

theorem Trimmer.delim {t u : Trimmer} (ht : TypedTrimmer t) (hu : TypedTrimmer u) (h1 : t.sum = t.v0 + t.v1 + t.v2 + t.v3)
    (h2 : u.sum = u.v0 + u.v1 + u.v2 + u.v3) : Delim t.bin u.bin (t = u) := by
  obtain ⟨a, b, c, d⟩ := ht
  obtain ⟨a', b', c', d'⟩ := hu
  unfold Trimmer.bin
  refine ((((Delim.leInt ?_ ?_).app (Delim.leInt ?_ ?_)).app (Delim.leInt ?_ ?_)).app (Delim.leInt ?_ ?_)).mono ?_
  · exact ⟨by simpa using a.1, by simp; omega⟩
  · exact ⟨by simpa using a'.1, by simp; omega⟩
  · exact ⟨by simpa using b.1, by simp; omega⟩
  · exact ⟨by simpa using b'.1, by simp; omega⟩
  · exact ⟨by simpa using c.1, by simp; omega⟩
  · exact ⟨by simpa using c'.1, by simp; omega⟩
  · exact ⟨by simpa using d.1, by simp; omega⟩
  · exact ⟨by simpa using d'.1, by simp; omega⟩
  · intro ⟨⟨⟨e0, e1⟩, e2⟩, e3⟩
    cases t; cases u; simp_all

theorem Percent.delim {p q : Percent} (hp : p.value ≤ 65535) (hq : q.value ≤ 65535) : Delim p.bin q.bin (p = q) :=
  (Delim.le (by omega) (by omega)).mono fun e => by cases p; cases q; simp_all

theorem RateTrimmer.delim {t u : RateTrimmer} (ht : TypedRate t) (hu : TypedRate u) :
    Delim t.bin u.bin ({ t with sum := ⟨0⟩ } = ({ u with sum := ⟨0⟩ } : RateTrimmer)) := by
  obtain ⟨a, b, c, d⟩ := ht
  obtain ⟨a', b', c', d'⟩ := hu
  unfold RateTrimmer.bin
  refine ((((Percent.delim a a').app (Percent.delim b b')).app (Percent.delim c c')).app (Percent.delim d d')).mono ?_
  intro ⟨⟨⟨e0, e1⟩, e2⟩, e3⟩
  simp_all

theorem Note.delim {n m : Note} (hn : MadeNote n) (hm : MadeNote m) : Delim n.bin m.bin (unrated n = unrated m) := by
  obtain ⟨a1, a2, a3, a4, a5, a6, a7, a8⟩ := hn.typed
  obtain ⟨b1, b2, b3, b4, b5, b6, b7, b8⟩ := hm.typed
  unfold Note.bin Velocity.bin
  refine ((((((((((Delim.le (by omega) (by omega)).app (Pitch.delim hn.pitch hm.pitch)).app (Duration.delim a2 a3 b2 b3)).app
    (Delim.bool _ _)).app (Delim.bool _ _)).app (Delim.le (by omega) (by omega))).app
    (Trimmer.delim a5 b5 hn.start hm.start)).app (RateTrimmer.delim a6 b6)).app (Trimmer.delim a7 b7 hn.loudness hm.loudness)).app
    (Delim.le (Nat.lt_of_le_of_lt a8 (by decide)) (Nat.lt_of_le_of_lt b8 (by decide)))).mono ?_
  intro ⟨⟨⟨⟨⟨⟨⟨⟨⟨e0, e1⟩, e2⟩, e3⟩, e4⟩, e5⟩, e6⟩, e7⟩, e8⟩, e9⟩
  obtain ⟨_, _, _, _, _, ⟨v⟩, _, _, _, _⟩ := n
  obtain ⟨_, _, _, _, _, ⟨w⟩, _, _, _, _⟩ := m
  simp_all [unrated]

theorem Rhythm.delim {r s : Rhythm} (hr : SafeRhythm r) (hs : SafeRhythm s) : Delim r.bin s.bin (r = s) := by
  unfold SafeRhythm at hr hs
  unfold Rhythm.bin
  refine ((Delim.le (by omega) (by omega)).app (Delim.variant ?_ ?_ (by decide))).mono fun ⟨a, b⟩ => ?_
  · cases r.denominator <;> decide
  · cases s.denominator <;> decide
  · cases r; cases s; simp_all

theorem Key.delim {k l : Key} (hk : SafeKey k) (hl : SafeKey l) : Delim k.bin l.bin (k = l) := by
  obtain ⟨a, b⟩ := hk
  obtain ⟨c, d⟩ := hl
  refine (Delim.leInt ⟨by simpa using a, by simp; omega⟩ ⟨by simpa using c, by simp; omega⟩).mono fun e => ?_
  cases k; cases l; simp_all

theorem Grid.delim {g h : Grid} (hg : g.value ≤ 4294967295) (hh : h.value ≤ 4294967295) : Delim g.bin h.bin (g = h) :=
  (Delim.le (by omega) (by omega)).mono fun e => by cases g; cases h; simp_all

theorem RepeatSet.delim (s t : RepeatSet) : Delim s.bin t.bin (s = t) := by
  have := RepeatSet.bits_lt s
  have := RepeatSet.bits_lt t
  refine (Delim.le (by omega) (by omega)).mono fun e => ?_
  rw [← RepeatSet.ofBits_bits s, ← RepeatSet.ofBits_bits t, e]

theorem Bar.delim {b c : Bar} (hb : TypedBar b) (hc : TypedBar c) : Delim b.bin c.bin (b = c) := by
  obtain ⟨a1, a2, a3⟩ := hb
  obtain ⟨b1, b2, b3⟩ := hc
  unfold Bar.bin
  refine ((((Delim.le (by omega) (by omega)).app (Delim.option fun r s hr hs => Rhythm.delim (a2 r hr) (b2 s hs))).app
    (Delim.option fun k l hk hl => Key.delim (a3 k hk) (b3 l hl))).app (RepeatSet.delim _ _)).mono ?_
  intro ⟨⟨⟨e0, e1⟩, e2⟩, e3⟩
  cases b; cases c; simp_all

theorem Tempo.delim {b c : Tempo} (hb : TypedTempo b) (hc : TypedTempo c) : Delim b.bin c.bin (b = c) := by
  obtain ⟨a1, a2⟩ := hb
  obtain ⟨b1, b2⟩ := hc
  unfold Tempo.bin
  refine ((Delim.le (by omega) (by omega)).app (Delim.le (by omega) (by omega))).mono fun ⟨e0, e1⟩ => ?_
  obtain ⟨_, ⟨_⟩⟩ := b
  obtain ⟨_, ⟨_⟩⟩ := c
  simp_all

theorem CtrlChg.delim {b c : CtrlChg} (hb : TypedCtrl b) (hc : TypedCtrl c) : Delim b.bin c.bin (b = c) := by
  obtain ⟨a1, a2, a3⟩ := hb
  obtain ⟨b1, b2, b3⟩ := hc
  unfold CtrlChg.bin Velocity.bin
  refine (((Delim.le (by omega) (by omega)).app (Delim.le (by omega) (by omega))).app
    (Delim.le (Nat.lt_of_le_of_lt a3 (by decide)) (Nat.lt_of_le_of_lt b3 (by decide)))).mono fun ⟨⟨e0, e1⟩, e2⟩ => ?_
  obtain ⟨_, ⟨_⟩, _⟩ := b
  obtain ⟨_, ⟨_⟩, _⟩ := c
  simp_all

theorem Models.delim {m m' : Models} (hm : MadeModels m) (hm' : MadeModels m') (hc : Countable64 m) (hc' : Countable64 m') :
    Delim m.bin m'.bin (AlikeModels m m') := by
  obtain ⟨_, a2, a3, a4, a5⟩ := hm.typed
  obtain ⟨_, b2, b3, b4, b5⟩ := hm'.typed
  unfold Models.bin
  refine (((((Delim.vec (f := unrated) hc.notes hc'.notes fun x hx y hy => Note.delim (hm.notes x hx) (hm'.notes y hy)).app
    (Delim.vec (f := id) hc.bars hc'.bars fun x hx y hy => Bar.delim (a2 x hx) (b2 y hy))).app
    (Delim.vec (f := id) hc.tempos hc'.tempos fun x hx y hy => Tempo.delim (a3 x hx) (b3 y hy))).app
    (Delim.vec (f := id) hc.dumpers hc'.dumpers fun x hx y hy => CtrlChg.delim (a4 x hx) (b4 y hy))).app
    (Delim.vec (f := id) hc.softs hc'.softs fun x hx y hy => CtrlChg.delim (a5 x hx) (b5 y hy))).mono ?_
  intro ⟨⟨⟨⟨e0, e1⟩, e2⟩, e3⟩, e4⟩
  rw [List.map_id, List.map_id] at e1 e2 e3 e4
  exact ⟨e0, e1, e2, e3, e4⟩

theorem ExportedProject.delim {x y : ExportedProject} (hx : MadeDocument x) (hy : MadeDocument y) :
    Delim x.bin y.bin (AlikeDocuments x y) := by
  unfold ExportedProject.bin
  exact ((((Rhythm.delim hx.rhythm hy.rhythm).app (Key.delim hx.key hy.key)).app (Grid.delim hx.grid hy.grid)).app
    (Models.delim hx.models hy.models hx.count hy.count)).mono fun ⟨⟨⟨a, b⟩, c⟩, d⟩ => ⟨a, b, c, d⟩

theorem Metadata.delim (a b : Metadata) : Delim a.bin b.bin (a = b) := by
  unfold Metadata.bin
  refine ((Delim.option fun x y _ _ => Delim.bool x y).app (Delim.bool _ _)).mono fun ⟨e0, e1⟩ => ?_
  cases a; cases b; simp_all

theorem ProjectCmd.delim {a b : ProjectCmd} (ha : MadeCmd a) (hb : MadeCmd b) : Delim a.bin b.bin (AlikeCmds a b) := by
  have tag : ∀ {i j : Nat} {x y : Bytes} {P : Prop}, i < 256 ^ 4 → j < 256 ^ 4 → (i = j → Delim x y P) →
      Delim (Bin.le 4 i ++ x) (Bin.le 4 j ++ y) P := by
    intro i j x y P hi hj h r s e
    rw [List.append_assoc, List.append_assoc] at e
    obtain ⟨ij, e⟩ := Delim.le hi hj _ _ e
    exact h ij _ _ e
  cases a <;> cases b <;> simp only [ProjectCmd.bin, List.append_assoc] <;>
    refine tag (by decide) (by decide) fun h => ?_ <;> first | exact absurd h (by decide) | skip
  · exact (Rhythm.delim ha.1 hb.1).app (Rhythm.delim ha.2 hb.2)
  · exact (Key.delim ha.1 hb.1).app (Key.delim ha.2 hb.2)
  · exact (Grid.delim ha.1 hb.1).app (Grid.delim ha.2 hb.2)
  · exact (Models.delim ha.1.1 hb.1.1 ha.1.2 hb.1.2).app ((Models.delim ha.2.1 hb.2.1 ha.2.2 hb.2.2).app (Metadata.delim _ _))

theorem map_alike {α : Type} (f : Note → α) (hf : ∀ n, f (unrated n) = f n) {l l' : List Note} (h : l.map unrated = l'.map unrated) :
    l.map f = l'.map f := by
  have e : ∀ l : List Note, l.map f = (l.map unrated).map f := fun l => by
    rw [List.map_map]; exact List.map_congr_left fun n _ => (hf n).symm
  rw [e, h, ← e]

theorem Models.bin_alike {m m' : Models} (h : AlikeModels m m') : m.bin = m'.bin := by
  have hl : m.notes.length = m'.notes.length := by have := congrArg List.length h.notes; simpa using this
  unfold Models.bin Bin.vec
  rw [h.bars, h.tempos, h.dumpers, h.softs, hl, map_alike Note.bin (fun _ => rfl) h.notes]

theorem ExportedProject.bin_alike {x y : ExportedProject} (h : AlikeDocuments x y) : x.bin = y.bin := by
  unfold ExportedProject.bin
  rw [h.rhythm, h.key, h.grid, Models.bin_alike h.models]

theorem ProjectCmd.bin_alike {a b : ProjectCmd} (h : AlikeCmds a b) : a.bin = b.bin := by
  cases a <;> cases b <;> simp only [AlikeCmds] at h
  · rw [h.1, h.2]
  · rw [h.1, h.2]
  · rw [h.1, h.2]
  · simp only [ProjectCmd.bin]
    rw [Models.bin_alike h.1, Models.bin_alike h.2.1, h.2.2]

/-! ## Text -/

theorem Json.text_inj {d : Nat} {j k : Json} (hj : Writable d j) (hk : Writable d k) (h : j.text = k.text) : j = k := by
  have hs : Stops ([] : List Char) := fun c hc => by cases hc
  have a := Json.parseValue_text (fun _ => false) (m := .full) (by simp) j d (2 * j.text.length + 1) [] hj (Nat.le_refl _) hs
  have b := Json.parseValue_text (fun _ => false) (m := .full) (by simp) k d (2 * k.text.length + 1) [] hk (Nat.le_refl _) hs
  rw [h, b] at a
  exact (Prod.mk.inj a).1.symm

theorem encInt_inj {i j : Int} (h : encInt i = encInt j) : i = j := by
  unfold encInt at h
  split at h <;> split at h <;> simp at h <;> omega

theorem encOption_inj {α : Type} {enc : α → Json} (hn : ∀ a, enc a ≠ .null) (hi : ∀ a b, enc a = enc b → a = b) {o o' : Option α}
    (h : encOption enc o = encOption enc o') : o = o' := by
  match o, o' with
  | none, none => rfl
  | none, some b => exact absurd h.symm (hn b)
  | some a, none => exact absurd h (hn a)
  | some a, some b => rw [hi a b h]

theorem encVec_inj {α β : Type} {enc : α → Json} {f : α → β} : ∀ {l l' : List α}, (∀ a ∈ l, ∀ b ∈ l', enc a = enc b → f a = f b) →
    encVec enc l = encVec enc l' → l.map f = l'.map f
  | [], [], _, _ => rfl
  | [], _ :: _, _, h => by simp [encVec] at h
  | _ :: _, [], _, h => by simp [encVec] at h
  | a :: l, b :: l', hi, h => by
    simp only [encVec, List.map_cons, Json.arr.injEq, List.cons.injEq] at h
    rw [List.map_cons, List.map_cons, hi a (by simp) b (by simp) h.1,
      encVec_inj (enc := enc) (f := f) (l := l) (l' := l') (fun x hx y hy => hi x (by simp [hx]) y (by simp [hy]))
        (by rw [encVec, encVec, h.2])]

theorem Solfa.name_inj {a b : Solfa} (h : a.name = b.name) : a = b := by cases a <;> cases b <;> first | rfl | (revert h; decide)
theorem Octave.name_inj {a b : Octave} (h : a.name = b.name) : a = b := by cases a <;> cases b <;> first | rfl | (revert h; decide)
theorem SharpFlat.name_inj {a b : SharpFlat} (h : a.name = b.name) : a = b := by
  cases a <;> cases b <;> first | rfl | (revert h; decide)
theorem NoteValue.name_inj {a b : NoteValue} (h : a.name = b.name) : a = b := by
  cases a <;> cases b <;> first | rfl | (revert h; decide)
theorem BarUnit.name_inj {a b : BarUnit} (h : a.name = b.name) : a = b := by
  cases a <;> cases b <;> first | rfl | (revert h; decide)

theorem Note.enc_inj {n m : Note} (hn : MadeNote n) (hm : MadeNote m) (h : n.enc = m.enc) : unrated n = unrated m := by
  have hs := hn.start
  have hs' := hm.start
  have hl := hn.loudness
  have hl' := hm.loudness
  have hp := hn.pitch
  have hp' := hm.pitch
  obtain ⟨t, p, ⟨d1, d2, d3⟩, a, b, ⟨v⟩, ⟨s0, s1, s2, s3, ss⟩, ⟨⟨r0⟩, ⟨r1⟩, ⟨r2⟩, ⟨r3⟩, rs⟩, ⟨v0, v1, v2, v3, vs⟩, c⟩ := n
  obtain ⟨t', p', ⟨d1', d2', d3'⟩, a', b', ⟨v'⟩, ⟨s0', s1', s2', s3', ss'⟩, ⟨⟨r0'⟩, ⟨r1'⟩, ⟨r2'⟩, ⟨r3'⟩, rs'⟩,
    ⟨v0', v1', v2', v3', vs'⟩, c'⟩ := m
  simp [Note.enc, Pitch.enc, Duration.enc, Trimmer.enc, RateTrimmer.enc, Percent.enc, encStruct, encNat] at h hs hs' hl hl' hp hp'
  obtain ⟨e1, ⟨e2, e3, e4⟩, ⟨e5, e6, e7⟩, e8, e9, e10, ⟨e11, e12, e13, e14⟩, ⟨e15, e16, e17, e18⟩, ⟨e19, e20, e21, e22⟩, e23⟩ := h
  have ep := pitch_ext hp hp' (Solfa.name_inj e2) (Octave.name_inj e3) (SharpFlat.name_inj e4)
  have ed := NoteValue.name_inj e5
  have := encInt_inj e11
  have := encInt_inj e12
  have := encInt_inj e13
  have := encInt_inj e14
  have := encInt_inj e19
  have := encInt_inj e20
  have := encInt_inj e21
  have := encInt_inj e22
  subst_vars
  simp [unrated]

theorem Rhythm.enc_inj {r s : Rhythm} (h : r.enc = s.enc) : r = s := by
  obtain ⟨n, d⟩ := r
  obtain ⟨m, e⟩ := s
  simp [Rhythm.enc, encStruct, encNat] at h
  rw [h.1, BarUnit.name_inj h.2]

theorem Key.enc_inj {k l : Key} (h : k.enc = l.enc) : k = l := by
  obtain ⟨a⟩ := k
  obtain ⟨b⟩ := l
  have := encInt_inj (i := a) (j := b) h
  rw [this]

theorem Bar.enc_inj {b c : Bar} (h : b.enc = c.enc) : b = c := by
  obtain ⟨t, r, k, s⟩ := b
  obtain ⟨t', r', k', s'⟩ := c
  simp [Bar.enc, RepeatSet.enc, encStruct, encNat] at h
  obtain ⟨h1, h2, h3, h4⟩ := h
  rw [h1, encOption_inj Rhythm.enc_ne (fun _ _ => Rhythm.enc_inj) h2, encOption_inj Key.enc_ne (fun _ _ => Key.enc_inj) h3,
    ← RepeatSet.ofBits_bits s, ← RepeatSet.ofBits_bits s', h4]

theorem Tempo.enc_inj {b c : Tempo} (h : b.enc = c.enc) : b = c := by
  obtain ⟨t, ⟨v⟩⟩ := b
  obtain ⟨t', ⟨v'⟩⟩ := c
  simp [Tempo.enc, encStruct, encNat] at h
  rw [h.1, h.2]

theorem CtrlChg.enc_inj {b c : CtrlChg} (h : b.enc = c.enc) : b = c := by
  obtain ⟨t, ⟨v⟩, d⟩ := b
  obtain ⟨t', ⟨v'⟩, d'⟩ := c
  simp [CtrlChg.enc, encStruct, encNat] at h
  rw [h.1, h.2.1, h.2.2]

theorem Models.enc_inj {m m' : Models} (hm : MadeModels m) (hm' : MadeModels m') (h : m.enc = m'.enc) : AlikeModels m m' := by
  simp only [Models.enc, encStruct, List.map_cons, List.map_nil, Json.obj.injEq, List.cons.injEq, Prod.mk.injEq, true_and, and_true] at h
  obtain ⟨h1, h2, h3, h4, h5⟩ := h
  have e2 := encVec_inj (f := id) (fun a _ b _ => Bar.enc_inj) h2
  have e3 := encVec_inj (f := id) (fun a _ b _ => Tempo.enc_inj) h3
  have e4 := encVec_inj (f := id) (fun a _ b _ => CtrlChg.enc_inj) h4
  have e5 := encVec_inj (f := id) (fun a _ b _ => CtrlChg.enc_inj) h5
  rw [List.map_id, List.map_id] at e2 e3 e4 e5
  exact ⟨encVec_inj (fun a ha b hb => Note.enc_inj (hm.notes a ha) (hm'.notes b hb)) h1, e2, e3, e4, e5⟩

theorem Models.enc_alike {m m' : Models} (h : AlikeModels m m') : m.enc = m'.enc := by
  unfold Models.enc encVec
  rw [h.bars, h.tempos, h.dumpers, h.softs, map_alike Note.enc (fun _ => rfl) h.notes]

/-! ## Stores -/

theorem keyed_alike {V W : Type} {tick : V → Nat} {f : V → W} (hf : ∀ v w, f v = f w → tick v = tick w) :
    ∀ {s t : List (Nat × V)}, Keyed tick s → Keyed tick t →
    ((s.map (·.2)).map f = (t.map (·.2)).map f ↔ s.map (fun q => (q.1, f q.2)) = t.map (fun q => (q.1, f q.2)))
  | [], [], _, _ => by simp
  | [], _ :: _, _, _ => by simp
  | _ :: _, [], _, _ => by simp
  | a :: s, b :: t, hs, ht => by
    have ih := keyed_alike hf (s := s) (t := t) (fun q hq => hs q (by simp [hq])) (fun q hq => ht q (by simp [hq]))
    have ha := (hs a (by simp)).1
    have hb := (ht b (by simp)).1
    simp only [List.map_cons, List.cons.injEq, Prod.mk.injEq]
    constructor
    · intro ⟨h1, h2⟩
      exact ⟨⟨by rw [ha, hb, hf _ _ h1], h1⟩, ih.1 h2⟩
    · intro ⟨⟨_, h1⟩, h2⟩
      exact ⟨h1, ih.2 h2⟩

theorem keyed_same {V : Type} {tick : V → Nat} {s t : List (Nat × V)} (hs : Keyed tick s) (ht : Keyed tick t) :
    s.map (·.2) = t.map (·.2) ↔ s = t := by
  have := keyed_alike (f := id) (fun v w h => congrArg tick h) hs ht
  rw [List.map_id, List.map_id] at this
  rw [this]
  have e : ∀ l : List (Nat × V), l.map (fun q => (q.1, id q.2)) = l := fun l => by
    rw [show (fun q : Nat × V => (q.1, id q.2)) = id from rfl, List.map_id]
  rw [e, e]

end Klavier
