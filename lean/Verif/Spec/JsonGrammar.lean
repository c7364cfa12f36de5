import Verif.Spec.ClipText
import Verif.Spec.Json

/-! # Vocabulary: the grammar of JSON (RFC 8259, sections 2 to 7) -/
set_option autoImplicit false
namespace Klavier
namespace Spec

/-- `frac`, or nothing -/
inductive Frac : List Char → Prop
  | none : Frac []
  | some {ds : List Char} : IsNumeral ds → Frac ('.' :: ds)

/-- `exp`, or nothing; and the same with a small `e` -/
inductive Exp : List Char → List Char → Prop
  | none : Exp [] []
  | some {e : Char} {sign ds : List Char} : e = 'e' ∨ e = 'E' → sign ∈ [[], ['+'], ['-']] → IsNumeral ds →
    Exp (e :: (sign ++ ds)) ('e' :: (sign ++ ds))

/-- `number`, and whether it is an integer of 64 bits.  `over` are the numbers too large
for a `f64`, which are refused. -/
inductive Numeral (over : List Char → Bool) : List Char → JsonNum → Prop
  | nat {ds : List Char} {n : Nat} : WritesJsonNat ds n → n < 2 ^ 64 → Numeral over ds (.nat n)
  | neg {ds : List Char} {n : Nat} : WritesJsonNat ds n → 0 < n → n ≤ 2 ^ 63 → Numeral over ('-' :: ds) (.neg n)
  | below {ds : List Char} {n : Nat} : WritesJsonNat ds n → n = 0 ∨ 2 ^ 63 < n → n < 2 ^ 64 → Numeral over ('-' :: ds) .float
  | real {sign ds frac exp exp' : List Char} {n : Nat} : sign ∈ [[], ['-']] → WritesJsonNat ds n → Frac frac → Exp exp exp' →
    frac ++ exp ≠ [] ∨ 2 ^ 64 ≤ n → over (sign ++ ds ++ (frac ++ exp')) = false →
    Numeral over (sign ++ (ds ++ (frac ++ exp))) .float

/-- Only white space -/
def Blank (w : List Char) : Prop := ∀ c ∈ w, IsBlank c

/-- `string` without its quotes -/
def StringText : JsonMode → List Char → List Char → Prop
  | .skip, t, s => Skipped t ∧ s = []
  | _, t, s => Spelled t s

/-- Numbers too large for a `f64` can be skipped. -/
def Refused (over : List Char → Bool) : JsonMode → List Char → Bool
  | .skip => fun _ => false
  | _ => over

mutual
/-- `value`, with at most `d` arrays and objects around any part of it, without white
space before and after.  In the mode `typed`, members may have values that can just be
skipped; what can be skipped may be of any depth. -/
inductive JsonText (over : List Char → Bool) : JsonMode → Nat → List Char → Json → Prop
  | null {m : JsonMode} {d : Nat} : JsonText over m d "null".toList .null
  | true {m : JsonMode} {d : Nat} : JsonText over m d "true".toList (.bool true)
  | false {m : JsonMode} {d : Nat} : JsonText over m d "false".toList (.bool false)
  | num {m : JsonMode} {d : Nat} {t : List Char} {n : JsonNum} : Numeral (Refused over m) t n → JsonText over m d t (.num n)
  | str {m : JsonMode} {d : Nat} {t s : List Char} : StringText m t s → JsonText over m d ('"' :: (t ++ ['"'])) (.str s)
  | noElems {m : JsonMode} {d : Nat} {w : List Char} : m = .skip ∨ 0 < d → Blank w →
    JsonText over m d ('[' :: (w ++ [']'])) (.arr [])
  | arr {m : JsonMode} {d : Nat} {t : List Char} {l : List Json} : m = .skip ∨ 0 < d → Elems over m (d - 1) t l →
    JsonText over m d ('[' :: (t ++ [']'])) (.arr l)
  | noMembers {m : JsonMode} {d : Nat} {w : List Char} : m = .skip ∨ 0 < d → Blank w →
    JsonText over m d ('{' :: (w ++ ['}'])) (.obj [])
  | obj {m : JsonMode} {d : Nat} {t : List Char} {l : List (List Char × Json)} : m = .skip ∨ 0 < d → Members over m (d - 1) t l →
    JsonText over m d ('{' :: (t ++ ['}'])) (.obj l)
/-- Values with commas between -/
inductive Elems (over : List Char → Bool) : JsonMode → Nat → List Char → List Json → Prop
  | one {m : JsonMode} {d : Nat} {w t w' : List Char} {v : Json} : Blank w → JsonText over m d t v → Blank w' →
    Elems over m d (w ++ (t ++ w')) [v]
  | more {m : JsonMode} {d : Nat} {w t w' t' : List Char} {v : Json} {l : List Json} : Blank w → JsonText over m d t v →
    Blank w' → Elems over m d t' l → Elems over m d (w ++ (t ++ (w' ++ ',' :: t'))) (v :: l)
/-- Members with commas between -/
inductive Members (over : List Char → Bool) : JsonMode → Nat → List Char → List (List Char × Json) → Prop
  | one {m : JsonMode} {d : Nat} {w k w1 w2 t w' name : List Char} {v : Json} : Blank w → StringText m k name → Blank w1 →
    Blank w2 → MemberText over m d t v → Blank w' →
    Members over m d (w ++ '"' :: (k ++ '"' :: (w1 ++ ':' :: (w2 ++ (t ++ w'))))) [(name, v)]
  | more {m : JsonMode} {d : Nat} {w k w1 w2 t w' t' name : List Char} {v : Json} {l : List (List Char × Json)} : Blank w →
    StringText m k name → Blank w1 → Blank w2 → MemberText over m d t v → Blank w' → Members over m d t' l →
    Members over m d (w ++ '"' :: (k ++ '"' :: (w1 ++ ':' :: (w2 ++ (t ++ (w' ++ ',' :: t')))))) ((name, v) :: l)
/-- The value of a member -/
inductive MemberText (over : List Char → Bool) : JsonMode → Nat → List Char → Json → Prop
  | read {m : JsonMode} {d : Nat} {t : List Char} {v : Json} : JsonText over m d t v → MemberText over m d t v
  | skipped {d d' : Nat} {t : List Char} {v j : Json} : JsonText over .skip d' t v → MemberText over .typed d t (.skip j)
end

mutual
/-- The same value, but for what stands for skipped members: anything may be there. -/
inductive SameBut : Json → Json → Prop
  | same (j : Json) : SameBut j j
  | skipped (j j' : Json) : SameBut j' (.skip j)
  | arr {l l' : List Json} : SameElems l' l → SameBut (.arr l') (.arr l)
  | obj {l l' : List (List Char × Json)} : SameMembers l' l → SameBut (.obj l') (.obj l)
inductive SameElems : List Json → List Json → Prop
  | nil : SameElems [] []
  | cons {j j' : Json} {l l' : List Json} : SameBut j' j → SameElems l' l → SameElems (j' :: l') (j :: l)
inductive SameMembers : List (List Char × Json) → List (List Char × Json) → Prop
  | nil : SameMembers [] []
  | cons {k : List Char} {j j' : Json} {l l' : List (List Char × Json)} : SameBut j' j → SameMembers l' l →
    SameMembers ((k, j') :: l') ((k, j) :: l)
end

end Spec
end Klavier
