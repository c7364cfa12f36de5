import Verif.Model.Serde
import Verif.Model.Session

/-!
# Files: the derived `Serialize` and `Deserialize` with the crate bincode

The project file (test `can_serialize_project`, src/project.rs:1348-1374) and the
recorded commands (`SerializableCmd`, src/project.rs:514-515) are written with
bincode 1, `bincode::serialize` and `bincode::deserialize`: integers of fixed size
in little endian order, a length as `u64`, the number of an enum variant as `u32`,
`bool` and the presence of an `Option` as one byte, arrays, structs and tuples as
their parts; bytes after the value are ignored.  A byte is a number below 256.
`bin…` writes, `rd…` reads; reading yields a value and the remaining bytes, an
error, or a panic.
-/
set_option autoImplicit false
namespace Klavier

abbrev Bytes := List Nat

/-- A reader -/
def Rd (α : Type) := Bytes → De (α × Bytes)

instance : Monad Rd where
  pure a := fun s => .ok (a, s)
  bind r f := fun s =>
    match r s with
    | .ok (a, t) => f a t
    | .error e => .error e

namespace Bin

/-- The `k` low bytes of a number, lowest first -/
def le : Nat → Nat → Bytes
  | 0, _ => []
  | k + 1, n => n % 256 :: le k (n / 256)

/-- The number of some bytes, lowest first -/
def ofLe : Bytes → Nat
  | [] => 0
  | b :: bs => b + 256 * ofLe bs

/-- A signed number in two's complement -/
def leInt (k : Nat) (i : Int) : Bytes := le k (i % (256 ^ k : Nat)).toNat

def bool (b : Bool) : Bytes := [if b then 1 else 0]

def option {α : Type} (bin : α → Bytes) : Option α → Bytes
  | none => [0]
  | some a => 1 :: bin a

def vec {α : Type} (bin : α → Bytes) (l : List α) : Bytes := le 8 l.length ++ (l.map bin).flatten

/-- The number of a variant -/
def variant {α : Type} [DecidableEq α] (all : List α) (a : α) : Bytes := le 4 (all.idxOf a)

end Bin

namespace Rd

def fail {α : Type} : Rd α := fun _ => .error .invalid

/-- A conversion (`From`) applied to what was read -/
def lift {α : Type} (r : R α) : Rd α := fun s =>
  match r with
  | .ok a => .ok (a, s)
  | .error p => .error (.panic p)

/-- An unsigned integer of `k` bytes -/
def uint (k : Nat) : Rd Nat := fun s =>
  if s.length < k then .error .invalid else .ok (Bin.ofLe (s.take k), s.drop k)

/-- A signed integer of `k` bytes -/
def sint (k : Nat) : Rd Int := do
  let n ← uint k
  pure (if n < 256 ^ k / 2 then (n : Int) else (n : Int) - (256 ^ k : Nat))

def bool : Rd Bool := do
  let n ← uint 1
  if n = 0 then pure false else if n = 1 then pure true else fail

def option {α : Type} (rd : Rd α) : Rd (Option α) := do
  let n ← uint 1
  if n = 0 then pure none
  else if n = 1 then do
    let a ← rd
    pure (some a)
  else fail

/-- `n` elements, in turn -/
def elems {α : Type} (rd : Rd α) : Nat → Rd (List α)
  | 0 => pure []
  | n + 1 => do
    let a ← rd
    let as ← elems rd n
    pure (a :: as)

def vec {α : Type} (rd : Rd α) : Rd (List α) := do
  let n ← uint 8
  elems rd n

def four {α : Type} (rd : Rd α) : Rd (α × α × α × α) := do
  let a ← rd
  let b ← rd
  let c ← rd
  let d ← rd
  pure (a, b, c, d)

/-- An enum without data -/
def variant {α : Type} (all : List α) : Rd α := do
  let n ← uint 4
  match all[n]? with
  | some a => pure a
  | none => fail

end Rd

/-! ## The data types (fields and variants in the order of declaration) -/

/-- src/pitch.rs:31-44 -/
def Pitch.bin (p : Pitch) : Bytes :=
  Bin.variant Solfa.ALL p.solfa ++ Bin.variant Octave.ALL p.octave ++ Bin.variant SharpFlat.ALL p.sharpFlat

/-- src/pitch.rs:32, 52-63 -/
def Pitch.rd : Rd Pitch := do
  let s ← Rd.variant Solfa.ALL
  let o ← Rd.variant Octave.ALL
  let a ← Rd.variant SharpFlat.ALL
  Rd.lift (Pitch.new s o a)

/-- src/duration.rs:132-138 (and 3-14, 51-54, 91-93) -/
def Duration.bin (d : Duration) : Bytes :=
  Bin.variant NoteValue.ALL d.numerator ++ Bin.le 1 d.denominator ++ Bin.le 1 d.dots

/-- src/duration.rs:132-138, 51-69 -/
def Duration.rd : Rd Duration := do
  let n ← Rd.variant NoteValue.ALL
  let d ← Rd.uint 1
  let k ← Rd.uint 1
  pure ⟨n, Denominator.ofSerialized d, k⟩

/-- src/trimmer.rs:8-15 -/
def Trimmer.bin (t : Trimmer) : Bytes :=
  Bin.leInt 2 t.v0 ++ Bin.leInt 2 t.v1 ++ Bin.leInt 2 t.v2 ++ Bin.leInt 2 t.v3

/-- src/trimmer.rs:9, 23-32 -/
def Trimmer.rd : Rd Trimmer := do
  let v ← Rd.four (Rd.sint 2)
  Rd.lift (Trimmer.fromArray v.1 v.2.1 v.2.2.1 v.2.2.2)

/-- src/percent.rs:4-8 -/
def Percent.bin (p : Percent) : Bytes := Bin.le 2 p.value

/-- src/percent.rs:4-8 -/
def Percent.rd : Rd Percent := do
  let v ← Rd.uint 2
  pure ⟨v⟩

/-- src/trimmer.rs:121-128 -/
def RateTrimmer.bin (t : RateTrimmer) : Bytes := t.v0.bin ++ t.v1.bin ++ t.v2.bin ++ t.v3.bin

/-- src/trimmer.rs:122, 136-145 -/
def RateTrimmer.rd : Rd RateTrimmer := do
  let v ← Rd.four Percent.rd
  pure (RateTrimmer.fromArray v.1 v.2.1 v.2.2.1 v.2.2.2)

/-- src/velocity.rs:1-4 -/
def Velocity.bin (v : Velocity) : Bytes := Bin.le 1 v.value

/-- src/velocity.rs:2-25 -/
def Velocity.rd : Rd Velocity := do
  let v ← Rd.uint 1
  pure (Velocity.new v)

/-- src/note.rs:29-43 -/
def Note.bin (n : Note) : Bytes :=
  Bin.le 4 n.baseStartTick ++ n.pitch.bin ++ n.duration.bin ++ Bin.bool n.tie ++ Bin.bool n.tied ++ n.baseVelocity.bin ++
    n.startTickTrimmer.bin ++ n.durationTrimmer.bin ++ n.velocityTrimmer.bin ++ Bin.le 1 n.channel

/-- src/note.rs:29-43 (channel.rs:1-3: any `u8`) -/
def Note.rd : Rd Note := do
  let t ← Rd.uint 4
  let p ← Pitch.rd
  let d ← Duration.rd
  let a ← Rd.bool
  let b ← Rd.bool
  let v ← Velocity.rd
  let st ← Trimmer.rd
  let dt ← RateTrimmer.rd
  let vt ← Trimmer.rd
  let c ← Rd.uint 1
  pure ⟨t, p, d, a, b, v, st, dt, vt, c⟩

/-- src/rhythm.rs:100-105 (and 7-9, 50-53) -/
def Rhythm.bin (r : Rhythm) : Bytes := Bin.le 1 r.numerator ++ Bin.variant BarUnit.ALL r.denominator

/-- src/rhythm.rs:100-105 -/
def Rhythm.rd : Rd Rhythm := do
  let n ← Rd.uint 1
  let d ← Rd.variant BarUnit.ALL
  pure ⟨n, d⟩

/-- src/key.rs:7-9 -/
def Key.bin (k : Key) : Bytes := Bin.leInt 1 k.offset

/-- src/key.rs:7-9 -/
def Key.rd : Rd Key := do
  let v ← Rd.sint 1
  pure ⟨v⟩

/-- src/grid.rs:7-11 -/
def Grid.bin (g : Grid) : Bytes := Bin.le 4 g.value

/-- src/grid.rs:7-11 -/
def Grid.rd : Rd Grid := do
  let v ← Rd.uint 4
  pure ⟨v⟩

/-- src/bar.rs:98-102; an `EnumSet` of eleven variants is a `u16` (crate enumset). -/
def RepeatSet.bin (s : RepeatSet) : Bytes := Bin.le 2 s.bits

/-- src/bar.rs:98-102 -/
def RepeatSet.rd : Rd RepeatSet := do
  let v ← Rd.uint 2
  pure (RepeatSet.ofBits v)

/-- src/bar.rs:223-230 -/
def Bar.bin (b : Bar) : Bytes :=
  Bin.le 4 b.startTick ++ Bin.option Rhythm.bin b.rhythm ++ Bin.option Key.bin b.key ++ b.repeats.bin

/-- src/bar.rs:223-230 -/
def Bar.rd : Rd Bar := do
  let t ← Rd.uint 4
  let r ← Rd.option Rhythm.rd
  let k ← Rd.option Key.rd
  let s ← RepeatSet.rd
  pure ⟨t, r, k, s⟩

/-- src/tempo.rs:76-81 -/
def Tempo.bin (t : Tempo) : Bytes := Bin.le 4 t.startTick ++ Bin.le 2 t.value.value

/-- src/tempo.rs:76-81, 10-29 -/
def Tempo.rd : Rd Tempo := do
  let t ← Rd.uint 4
  let v ← Rd.uint 2
  pure ⟨t, TempoValue.ofSerialized v⟩

/-- src/ctrl_chg.rs:4-10 -/
def CtrlChg.bin (c : CtrlChg) : Bytes := Bin.le 4 c.startTick ++ c.velocity.bin ++ Bin.le 1 c.channel

/-- src/ctrl_chg.rs:4-10 -/
def CtrlChg.rd : Rd CtrlChg := do
  let t ← Rd.uint 4
  let v ← Velocity.rd
  let c ← Rd.uint 1
  pure ⟨t, v, c⟩

/-- src/models.rs:7-14 -/
def Models.bin (m : Models) : Bytes :=
  Bin.vec Note.bin m.notes ++ Bin.vec Bar.bin m.bars ++ Bin.vec Tempo.bin m.tempos ++ Bin.vec CtrlChg.bin m.dumpers ++
    Bin.vec CtrlChg.bin m.softs

/-- src/models.rs:7-14 -/
def Models.rd : Rd Models := do
  let n ← Rd.vec Note.rd
  let b ← Rd.vec Bar.rd
  let t ← Rd.vec Tempo.rd
  let d ← Rd.vec CtrlChg.rd
  let s ← Rd.vec CtrlChg.rd
  pure ⟨n, b, t, d, s⟩

/-- src/project.rs:81-88 -/
def ExportedProject.bin (x : ExportedProject) : Bytes := x.rhythm.bin ++ x.key.bin ++ x.grid.bin ++ x.models.bin

/-- src/project.rs:81-88 -/
def ExportedProject.rd : Rd ExportedProject := do
  let r ← Rhythm.rd
  let k ← Key.rd
  let g ← Grid.rd
  let m ← Models.rd
  pure ⟨r, k, g, m⟩

/-- src/project.rs:43-50 -/
def Metadata.bin (m : Metadata) : Bytes := Bin.option Bin.bool m.needSelect ++ Bin.bool m.dragged

/-- src/project.rs:43-50 -/
def Metadata.rd : Rd Metadata := do
  let s ← Rd.option Rd.bool
  let d ← Rd.bool
  pure ⟨s, d⟩

/-- src/project.rs:409-415 -/
def ProjectCmd.bin : ProjectCmd → Bytes
  | setRhythm o n => Bin.le 4 0 ++ o.bin ++ n.bin
  | setKey o n => Bin.le 4 1 ++ o.bin ++ n.bin
  | setGrid o n => Bin.le 4 2 ++ o.bin ++ n.bin
  | modelChanged a r m => Bin.le 4 3 ++ a.bin ++ r.bin ++ m.bin

/-- The two values of `SetRhythm`, `SetKey` or `SetGrid` -/
def Rd.two {α β : Type} (rd : Rd α) (f : α → α → β) : Rd β := do
  let a ← rd
  let b ← rd
  pure (f a b)

/-- src/project.rs:414 -/
def ProjectCmd.rdChanged : Rd ProjectCmd := do
  let a ← Models.rd
  let r ← Models.rd
  let m ← Metadata.rd
  pure (.modelChanged a r m)

/-- The data of a variant of src/project.rs:410-415 -/
def ProjectCmd.rdVariant (n : Nat) : Rd ProjectCmd :=
  if n = 0 then Rd.two Rhythm.rd .setRhythm
  else if n = 1 then Rd.two Key.rd .setKey
  else if n = 2 then Rd.two Grid.rd .setGrid
  else if n = 3 then ProjectCmd.rdChanged
  else Rd.fail

/-- src/project.rs:409-415 -/
def ProjectCmd.rd : Rd ProjectCmd := do
  let n ← Rd.uint 4
  ProjectCmd.rdVariant n

/-! ## Files -/

/-- `bincode::serialize(&project)`, src/project.rs:69-70 (`into = "ExportedProject"`) -/
def Project.save (p : Project) : Bytes := p.toExported.bin

/-- `bincode::deserialize::<ProjectImpl>`, src/project.rs:69-70 (`from = "ExportedProject"`) -/
def Project.load (s : Bytes) : De Project := do
  let r ← ExportedProject.rd s
  pure r.1.toProject

/-- `bincode::deserialize::<ProjectCmd>` -/
def ProjectCmd.load (s : Bytes) : De ProjectCmd := do
  let r ← ProjectCmd.rd s
  pure r.1

/-- The commands of a log, each stored on its own (crate serdo) -/
def loadLog : List Bytes → De (List ProjectCmd)
  | [] => .ok []
  | s :: ss => do
    let c ← ProjectCmd.load s
    let cs ← loadLog ss
    pure (c :: cs)

/-- Opening a stored session (crate serdo): the saved project, on which the first
`cursor` commands of the log are executed. -/
def reopen (base : Bytes) (log : List Bytes) (cursor : Nat) : De Session := do
  let p ← Project.load base
  let l ← loadLog log
  pure ⟨p, l, cursor, (l.take cursor).foldl (fun p c => c.redo p) p⟩

end Klavier
