import Verif.Model.Values

/-! # bar.rs -/
set_option autoImplicit false
namespace Klavier

/-- src/bar.rs:9-11 `VarIndex` -/
inductive VarIndex where
  | VI1 | VI2 | VI3 | VI4
  deriving DecidableEq, Repr

namespace VarIndex

/-- src/bar.rs:19-27 `VarIndex::from_value` -/
def fromValue (v : Nat) : Except Nat VarIndex :=
  if v = 1 then .ok VI1
  else if v = 2 then .ok VI2
  else if v = 3 then .ok VI3
  else if v = 4 then .ok VI4
  else .error v

/-- src/bar.rs:29-36 `VarIndex::value` -/
def value : VarIndex → Nat
  | VI1 => 1 | VI2 => 2 | VI3 => 3 | VI4 => 4

/-- src/bar.rs:38-40 `VarIndex::next` -/
def next (v : VarIndex) : Except Nat VarIndex := fromValue (v.value + 1)

/-- src/bar.rs:42-44 `VarIndex::prev` -/
def prev (v : VarIndex) : Except Nat VarIndex := fromValue (v.value - 1)

end VarIndex

/-- src/bar.rs:64-76 `Repeat` -/
inductive Repeat where
  | Start | End | Dc | Fine | Ds | Segno | Coda | Var1 | Var2 | Var3 | Var4
  deriving DecidableEq, Repr

/-- src/bar.rs:46-53 `VarIndex::to_repeat` -/
def VarIndex.toRepeat : VarIndex → Repeat
  | VI1 => .Var1 | VI2 => .Var2 | VI3 => .Var3 | VI4 => .Var4

/-- `EnumSet<Repeat>` (crate enumset) and src/bar.rs:100-102 `RepeatSet`: one
flag per mark. -/
structure RepeatSet where
  start : Bool := false
  end_ : Bool := false
  dc : Bool := false
  fine : Bool := false
  ds : Bool := false
  segno : Bool := false
  coda : Bool := false
  var1 : Bool := false
  var2 : Bool := false
  var3 : Bool := false
  var4 : Bool := false
  deriving DecidableEq, Repr

namespace RepeatSet

/-- src/bar.rs:140 `RepeatSet::EMPTY`, `EnumSet::empty` -/
def EMPTY : RepeatSet := {}

/-- src/bar.rs:142-144 `RepeatSet::contains`, `EnumSet::contains` -/
def contains (s : RepeatSet) : Repeat → Bool
  | .Start => s.start | .End => s.end_ | .Dc => s.dc | .Fine => s.fine | .Ds => s.ds
  | .Segno => s.segno | .Coda => s.coda | .Var1 => s.var1 | .Var2 => s.var2
  | .Var3 => s.var3 | .Var4 => s.var4

/-- `EnumSet` set one flag: `self.value | r` (true) or `remove` (false). -/
def set (s : RepeatSet) (r : Repeat) (b : Bool) : RepeatSet :=
  match r with
  | .Start => { s with start := b } | .End => { s with end_ := b } | .Dc => { s with dc := b }
  | .Fine => { s with fine := b } | .Ds => { s with ds := b } | .Segno => { s with segno := b }
  | .Coda => { s with coda := b } | .Var1 => { s with var1 := b } | .Var2 => { s with var2 := b }
  | .Var3 => { s with var3 := b } | .Var4 => { s with var4 := b }

/-- `EnumSet` intersection `&`. -/
def inter (s t : RepeatSet) : RepeatSet where
  start := s.start && t.start
  end_ := s.end_ && t.end_
  dc := s.dc && t.dc
  fine := s.fine && t.fine
  ds := s.ds && t.ds
  segno := s.segno && t.segno
  coda := s.coda && t.coda
  var1 := s.var1 && t.var1
  var2 := s.var2 && t.var2
  var3 := s.var3 && t.var3
  var4 := s.var4 && t.var4

/-- src/bar.rs:107-110 `START_DISLIKE` -/
def START_DISLIKE : RepeatSet :=
  { dc := true, ds := true, var1 := true, var2 := true, var3 := true, var4 := true }

/-- src/bar.rs:112 `END_DISLIKE`, 105 `ALL_REGION_BITS` -/
def END_DISLIKE : RepeatSet := { var1 := true, var2 := true, var3 := true, var4 := true }

/-- src/bar.rs:114-117 `DC_DISLIKE` -/
def DC_DISLIKE : RepeatSet :=
  { start := true, ds := true, segno := true, var1 := true, var2 := true, var3 := true, var4 := true }

/-- src/bar.rs:119-122 `DS_DISLIKE` -/
def DS_DISLIKE : RepeatSet :=
  { start := true, var1 := true, var2 := true, var3 := true, var4 := true }

/-- src/bar.rs:124-126 `REGION1_DISLIKE` -/
def REGION1_DISLIKE : RepeatSet :=
  { start := true, end_ := true, dc := true, ds := true, segno := true,
    var2 := true, var3 := true, var4 := true }

/-- src/bar.rs:128-130 `REGION2_DISLIKE` -/
def REGION2_DISLIKE : RepeatSet :=
  { start := true, end_ := true, dc := true, ds := true, segno := true,
    var1 := true, var3 := true, var4 := true }

/-- src/bar.rs:132-134 `REGION3_DISLIKE` -/
def REGION3_DISLIKE : RepeatSet :=
  { start := true, end_ := true, dc := true, ds := true, segno := true,
    var1 := true, var2 := true, var4 := true }

/-- src/bar.rs:136-138 `REGION4_DISLIKE` -/
def REGION4_DISLIKE : RepeatSet :=
  { start := true, end_ := true, dc := true, ds := true, segno := true,
    var1 := true, var2 := true, var3 := true }

/-- src/bar.rs:149-156 `try_add_repeat` -/
def tryAddRepeat (s dislike : RepeatSet) (r : Repeat) : Except RepeatSet RepeatSet :=
  let d := dislike.inter s
  if d = EMPTY then .ok (s.set r true) else .error d

/-- src/bar.rs:158-172 `RepeatSet::try_add` -/
def tryAdd (s : RepeatSet) (r : Repeat) : Except RepeatSet RepeatSet :=
  match r with
  | .Start => s.tryAddRepeat START_DISLIKE r
  | .End => s.tryAddRepeat END_DISLIKE r
  | .Dc => s.tryAddRepeat DC_DISLIKE r
  | .Fine => s.tryAddRepeat EMPTY r
  | .Ds => s.tryAddRepeat DS_DISLIKE r
  | .Segno => s.tryAddRepeat EMPTY r
  | .Coda => s.tryAddRepeat EMPTY r
  | .Var1 => s.tryAddRepeat REGION1_DISLIKE r
  | .Var2 => s.tryAddRepeat REGION2_DISLIKE r
  | .Var3 => s.tryAddRepeat REGION3_DISLIKE r
  | .Var4 => s.tryAddRepeat REGION4_DISLIKE r

/-- src/bar.rs:174-178 `RepeatSet::remove` -/
def remove (s : RepeatSet) (r : Repeat) : RepeatSet := s.set r false

/-- src/bar.rs:180-186 `RepeatSet::region_index` -/
def regionIndex (s : RepeatSet) : Option VarIndex :=
  if s.contains .Var1 then some .VI1
  else if s.contains .Var2 then some .VI2
  else if s.contains .Var3 then some .VI3
  else if s.contains .Var4 then some .VI4
  else none

/-- src/bar.rs:188-195 `RepeatSet::remove_resions` -/
def removeRegions (s : RepeatSet) : RepeatSet :=
  (((s.set .Var1 false).set .Var2 false).set .Var3 false).set .Var4 false

end RepeatSet

/-- src/bar.rs:225-230 `Bar` -/
structure Bar where
  startTick : Nat
  rhythm : Option Rhythm := none
  key : Option Key := none
  repeats : RepeatSet := {}
  deriving DecidableEq, Repr

namespace Bar

/-- src/bar.rs:244-249 `Bar::drag` -/
def drag (b : Bar) (delta : Int) : Bar := { b with startTick := asU32 (b.startTick + delta) }

/-- src/bar.rs:251-263 `Bar::with_tick_added` -/
def withTickAdded (b : Bar) (delta : Int) : Except TickError Bar :=
  let tick := (b.startTick : Int) + delta
  if tick < 0 then .error .minus else .ok { b with startTick := asU32 tick }

end Bar
end Klavier
