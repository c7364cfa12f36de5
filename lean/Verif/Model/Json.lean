import Verif.Model.Text

/-!
# JSON text (crate serde_json, external)

The part of serde_json used by models.rs and exported_project.rs: the compact
writer, the reader of one value, and the stream reader.  Text is a list of
characters (serde_json works on the bytes of the UTF-8 string; all characters
with a meaning are ASCII).  Floating point numbers are recognised but their value
is dropped: nothing here reads one.  Whether a numeral is too large for `f64`
(serde_json then fails with "number out of range") is left to a parameter `over`.
-/
set_option autoImplicit false
namespace Klavier

/-- `serde_json::Number`: a `u64`, a negative `i64` (here: its magnitude), or an
`f64`. -/
inductive JsonNum where
  | nat (n : Nat)
  | neg (n : Nat)
  | float
  deriving DecidableEq, Repr

/-- A JSON text as a tree.  Objects keep their members in order, also repeated
ones.  `bad` marks the place at which the text ceases to be JSON.  `skip` is the value
of a member that cannot be read but skipped, with what could be read of it. -/
inductive Json where
  | null
  | bool (b : Bool)
  | num (n : JsonNum)
  | str (s : List Char)
  | arr (l : List Json)
  | obj (l : List (List Char × Json))
  | bad
  | skip (j : Json)

/-- How a value is read: in full (as a `serde_json::Value`), as a type of this crate
(unknown members are skipped), or just skipped (`ignore_value`). -/
inductive JsonMode where
  | full
  | typed
  | skip
  deriving DecidableEq, Repr

namespace Json

/-! ## Writing -/

/-- `format_escaped_str`, for a string without characters to be escaped. (The only
strings written are names of fields and of enum variants.) -/
def strText (s : List Char) : List Char := '"' :: (s ++ ['"'])

/-- Integers are written in decimal. (No `f64` is ever written.) -/
def numText : JsonNum → List Char
  | .nat n => decimal n
  | .neg n => '-' :: decimal n
  | .float => []

mutual
/-- `serde_json::to_writer`, compact form -/
def text : Json → List Char
  | null => "null".toList
  | bool true => "true".toList
  | bool false => "false".toList
  | num n => numText n
  | str s => strText s
  | arr [] => "[]".toList
  | arr (x :: xs) => '[' :: (text x ++ textElems xs)
  | obj [] => "{}".toList
  | obj ((k, v) :: ms) => '{' :: (strText k ++ ':' :: (text v ++ textMembers ms))
  | bad => []
  | skip _ => []
/-- the elements after the first, and the bracket -/
def textElems : List Json → List Char
  | [] => [']']
  | x :: xs => ',' :: (text x ++ textElems xs)
/-- the members after the first, and the brace -/
def textMembers : List (List Char × Json) → List Char
  | [] => ['}']
  | (k, v) :: ms => ',' :: (strText k ++ ':' :: (text v ++ textMembers ms))
end

/-! ## Reading -/

/-- `parse_whitespace` -/
def isWs (c : Char) : Bool := c = ' ' || c = '\n' || c = '\t' || c = '\r'

/-- `parse_whitespace` -/
def skipWs (s : List Char) : List Char := s.dropWhile isWs

def isDigit (c : Char) : Bool := (toDigit c).isSome

/-- The value of digits. -/
def digitsValue (s : List Char) : Nat := s.foldl (fun a c => a * 10 + (toDigit c).getD 0) 0

/-- `parse_exponent`, after the `e`: what is consumed, and the rest -/
def exponent (s : List Char) : Option (List Char × List Char) :=
  let (sign, s) := match s with
    | '+' :: s => (['+'], s)
    | '-' :: s => (['-'], s)
    | s => ([], s)
  let ds := s.takeWhile isDigit
  if ds.isEmpty then none else some (sign ++ ds, s.dropWhile isDigit)

/-- A number with a fraction or an exponent: the text from there on -/
def fraction (s : List Char) : Option (List Char × List Char) :=
  match s with
  | '.' :: s =>
    let ds := s.takeWhile isDigit
    if ds.isEmpty then none
    else
      match s.dropWhile isDigit with
      | 'e' :: r => (exponent r).map (fun (a, b) => ('.' :: ds ++ 'e' :: a, b))
      | 'E' :: r => (exponent r).map (fun (a, b) => ('.' :: ds ++ 'e' :: a, b))
      | r => some ('.' :: ds, r)
  | 'e' :: r => (exponent r).map (fun (a, b) => ('e' :: a, b))
  | 'E' :: r => (exponent r).map (fun (a, b) => ('e' :: a, b))
  | s => some ([], s)

/-- `u64::MAX` -/
abbrev U64_MAX : Nat := 18446744073709551615

/-- A zero followed by another digit -/
def leadingZero : List Char → Bool
  | '0' :: _ :: _ => true
  | _ => false

/-- `parse_integer` and what follows it, after the sign: an integer without leading
zeros, fraction, exponent. -/
def parseDigitsOf (over : List Char → Bool) (neg : Bool) (s : List Char) : Option (JsonNum × List Char) :=
  let ds := s.takeWhile isDigit
  if ds.isEmpty || leadingZero ds then none
  else
    match fraction (s.dropWhile isDigit) with
    | none => none
    | some (frac, rest) =>
      let n := digitsValue ds
      if frac.isEmpty && n ≤ U64_MAX then
        if !neg then some (.nat n, rest)
        else if 1 ≤ n && n ≤ 9223372036854775808 then some (.neg n, rest)
        else some (.float, rest)
      else if over ((if neg then ['-'] else []) ++ ds ++ frac) then none
      else some (.float, rest)

/-- `parse_any_number` -/
def parseNumber (over : List Char → Bool) : List Char → Option (JsonNum × List Char)
  | '-' :: s => parseDigitsOf over true s
  | s => parseDigitsOf over false s

/-- A hexadecimal digit -/
def hexDigit (c : Char) : Option Nat :=
  if '0' ≤ c ∧ c ≤ '9' then some (c.toNat - '0'.toNat)
  else if 'a' ≤ c ∧ c ≤ 'f' then some (c.toNat - 'a'.toNat + 10)
  else if 'A' ≤ c ∧ c ≤ 'F' then some (c.toNat - 'A'.toNat + 10)
  else none

/-- `decode_hex_escape` -/
def hex4 (a b c d : Char) : Option Nat := do
  let a ← hexDigit a
  let b ← hexDigit b
  let c ← hexDigit c
  let d ← hexDigit d
  pure (((a * 16 + b) * 16 + c) * 16 + d)

/-- The one character escapes of `parse_escape` -/
def escapeChar (c : Char) : Option Char :=
  if c = '"' then some '"'
  else if c = '\\' then some '\\'
  else if c = '/' then some '/'
  else if c = 'b' then some (Char.ofNat 8)
  else if c = 'f' then some (Char.ofNat 12)
  else if c = 'n' then some '\n'
  else if c = 'r' then some '\r'
  else if c = 't' then some '\t'
  else none

/-- `parse_str`, after the opening quote: the string, and the text after the
closing quote.  Control characters, unknown escapes and lone surrogates are
errors. -/
def parseStr : List Char → Option (List Char × List Char)
  | [] => none
  | '"' :: r => some ([], r)
  | '\\' :: 'u' :: a :: b :: c :: d :: '\\' :: 'u' :: e :: f :: g :: h :: r =>
    match hex4 a b c d with
    | none => none
    | some n =>
      if 0xD800 ≤ n ∧ n ≤ 0xDBFF then
        match hex4 e f g h with
        | none => none
        | some m =>
          if 0xDC00 ≤ m ∧ m ≤ 0xDFFF then
            (parseStr r).map (fun (s, r) => (Char.ofNat ((n - 0xD800) * 1024 + (m - 0xDC00) + 0x10000) :: s, r))
          else none
      else if 0xDC00 ≤ n ∧ n ≤ 0xDFFF then none
      else (parseStr ('\\' :: 'u' :: e :: f :: g :: h :: r)).map (fun (s, r) => (Char.ofNat n :: s, r))
  | '\\' :: 'u' :: a :: b :: c :: d :: r =>
    match hex4 a b c d with
    | none => none
    | some n => if 0xD800 ≤ n ∧ n ≤ 0xDFFF then none else (parseStr r).map (fun (s, r) => (Char.ofNat n :: s, r))
  | '\\' :: c :: r =>
    match escapeChar c with
    | some e => (parseStr r).map (fun (s, r) => (e :: s, r))
    | none => none
  | c :: r =>
    if c = '\\' ∨ c.toNat < 32 then none
    else (parseStr r).map (fun (s, r) => (c :: s, r))

/-- `parse_ident`: the given characters must follow -/
def parseIdent (v : Json) : List Char → List Char → Json × Option (List Char)
  | [], s => (v, some s)
  | c :: cs, d :: s => if c = d then parseIdent v cs s else (bad, none)
  | _ :: _, [] => (bad, none)

/-- `ignore_str`, after the opening quote: the text after the closing quote.  Escaped
surrogates are not checked. -/
def ignoreStr : List Char → Option (List Char)
  | [] => none
  | '"' :: r => some r
  | '\\' :: 'u' :: a :: b :: c :: d :: r =>
    match hex4 a b c d with
    | none => none
    | some _ => ignoreStr r
  | '\\' :: c :: r =>
    match escapeChar c with
    | some _ => ignoreStr r
    | none => none
  | c :: r => if c = '\\' ∨ c.toNat < 32 then none else ignoreStr r

/-- A string, after the opening quote (nothing is kept of one that is skipped) -/
def readStr : JsonMode → List Char → Option (List Char × List Char)
  | .skip, s => (ignoreStr s).map (fun r => ([], r))
  | _, s => parseStr s

/-- Numbers too large for `f64` are skipped like others (`ignore_integer`). -/
def tooLarge (over : List Char → Bool) : JsonMode → List Char → Bool
  | .skip, _ => false
  | _, s => over s

/-- No more arrays and objects within each other?  `ignore_value` has no limit. -/
def tooDeep : JsonMode → Nat → Bool
  | .skip, _ => false
  | _, depth => depth ≤ 1

/-- The value of a member of a type of this crate.  Which members are known is not yet
told here: one that cannot be read may be skipped (`MapAccess::next_value` of
`IgnoredAny`), and `De.members` tells whether it was to be read. -/
def orSkip : JsonMode → Json × Option (List Char) → Option (List Char) → Json × Option (List Char)
  | .typed, (v, none), some r => (skip v, some r)
  | _, p, _ => p

mutual
/-- One value (`Deserializer::parse_value`), after optional white space: the tree
and the text after it (`none`: the text is not JSON, from the place marked `bad`
on).  `depth` is `remaining_depth`, 128 at first.  `fuel` bounds the number of
calls; `2 * length + 2` is always enough (`Verif.Lemmas.JsonFuel`).  `ignore_value`
keeps the arrays and objects it is in on a stack instead of calling itself. -/
def parseValue (over : List Char → Bool) : JsonMode → Nat → Nat → List Char → Json × Option (List Char)
  | _, 0, _, _ => (bad, none)
  | m, fuel + 1, depth, s =>
    match skipWs s with
    | [] => (bad, none)
    | c :: r =>
      if c = 'n' then parseIdent null "ull".toList r
      else if c = 't' then parseIdent (bool true) "rue".toList r
      else if c = 'f' then parseIdent (bool false) "alse".toList r
      else if c = '"' then
        match readStr m r with
        | some (t, r) => (str t, some r)
        | none => (bad, none)
      else if c = '[' then
        if tooDeep m depth then (bad, none)
        else
          let p := parseElems over m fuel (depth - 1) true r
          (arr p.1, p.2)
      else if c = '{' then
        if tooDeep m depth then (bad, none)
        else
          let p := parseMembers over m fuel (depth - 1) true r
          (obj p.1, p.2)
      else
        match parseNumber (tooLarge over m) (c :: r) with
        | some (n, r) => (num n, some r)
        | none => (bad, none)
/-- `SeqAccess`: the elements still to come, up to and including the bracket -/
def parseElems (over : List Char → Bool) :
    JsonMode → Nat → Nat → Bool → List Char → List Json × Option (List Char)
  | _, 0, _, _, _ => ([bad], none)
  | m, fuel + 1, depth, first, s =>
    match skipWs s with
    | [] => ([bad], none)
    | c :: r =>
      if c = ']' then ([], some r)
      else
        let go (t : List Char) : List Json × Option (List Char) :=
          match parseValue over m fuel depth t with
          | (v, none) => ([v], none)
          | (v, some r) =>
            let p := parseElems over m fuel depth false r
            (v :: p.1, p.2)
        if first then go (c :: r)
        else if c = ',' then
          match skipWs r with
          | ']' :: _ => ([bad], none)
          | t => go t
        else ([bad], none)
/-- `MapAccess`: the members still to come, up to and including the brace -/
def parseMembers (over : List Char → Bool) :
    JsonMode → Nat → Nat → Bool → List Char → List (List Char × Json) × Option (List Char)
  | _, 0, _, _, _ => ([([], bad)], none)
  | m, fuel + 1, depth, first, s =>
    match skipWs s with
    | [] => ([([], bad)], none)
    | c :: r =>
      if c = '}' then ([], some r)
      else
        let go (t : List Char) : List (List Char × Json) × Option (List Char) :=
          match t with
          | '"' :: t =>
            match readStr m t with
            | none => ([([], bad)], none)
            | some (k, t) =>
              match skipWs t with
              | ':' :: t =>
                match orSkip m (parseValue over m fuel depth t) (parseValue over .skip fuel depth t).2 with
                | (v, none) => ([(k, v)], none)
                | (v, some r) =>
                  let p := parseMembers over m fuel depth false r
                  ((k, v) :: p.1, p.2)
              | _ => ([(k, bad)], none)
          | _ => ([([], bad)], none)
        if first then go (c :: r)
        else if c = ',' then go (skipWs r)
        else ([([], bad)], none)
end

/-- The value at the beginning of a text -/
def parse (over : List Char → Bool) (m : JsonMode) (s : List Char) : Json × Option (List Char) :=
  parseValue over m (2 * s.length + 2) 128 s

/-- What may follow a value of the stream that is not a string, array or object
(`peek_end_of_value`) -/
def endsValue : List Char → Bool
  | [] => true
  | c :: _ => isWs c || c ∈ ['"', '[', ']', '{', '}', ',', ':']

/-- `StreamDeserializer::next`: `none` when only white space is left; else the
value and the text after it, or an error. -/
def streamNext (over : List Char → Bool) (s : List Char) : Option (Option (Json × List Char)) :=
  match skipWs s with
  | [] => none
  | c :: _ =>
    match parse over .full s with
    | (_, none) => some none
    | (v, some r) =>
      if c ∈ ['[', '"', '{'] || endsValue r then some (some (v, r)) else some none

end Json
end Klavier
