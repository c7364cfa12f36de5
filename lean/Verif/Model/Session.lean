import Verif.Model.Project

/-!
# The command log around a project, and the exported form

`SqliteUndoStore` (crate serdo) is external; the log below is the behaviour
`/repo/src/project.rs` relies on (DESIGN.md, trusted base).
-/
set_option autoImplicit false
namespace Klavier

/-- `SqliteUndoStore<ProjectCmd, ProjectImpl, ProjectCmdErr>`: the base the log
starts from, the recorded commands, how many of them are applied, the project. -/
structure Session where
  base : Project
  log : List ProjectCmd
  cursor : Nat
  cur : Project

/-- What a user can do. -/
inductive Op where
  | edit (e : Edit)
  | undo
  | redo

namespace Session

/-- A fresh store on a project. -/
def start (p : Project) : Session := ⟨p, [], 0, p⟩

/-- `mutate`/`add_cmd` (src/project.rs:570-830), `undo`, `redo` (crate serdo). -/
def step (s : Session) : Op → R Session
  | .edit e => do
    match ← s.cur.exec e with
    | none => pure s
    | some (p, c) => pure { s with log := s.log.take s.cursor ++ [c], cursor := s.cursor + 1, cur := p }
  | .undo =>
    if s.cursor = 0 then .ok s
    else match s.log[s.cursor - 1]? with
      | some c => .ok { s with cursor := s.cursor - 1, cur := c.undo s.cur }
      | none => .ok s
  | .redo =>
    match s.log[s.cursor]? with
    | some c => .ok { s with cursor := s.cursor + 1, cur := c.redo s.cur }
    | none => .ok s

/-- A sequence of user actions. -/
def run (s : Session) : List Op → R Session
  | [] => .ok s
  | o :: os => do
    let s ← s.step o
    s.run os

end Session

/-- src/project.rs:82-88 `ExportedProject` -/
structure ExportedProject where
  rhythm : Rhythm
  key : Key
  grid : Grid
  models : Models
  deriving DecidableEq

/-- src/project.rs:90-115 `From<ExportedProject> for ProjectImpl` -/
def ExportedProject.toProject (x : ExportedProject) : Project where
  rhythm := x.rhythm
  key := x.key
  grid := x.grid
  notes := Bag.bulkAdd [] (x.models.notes.map (fun n : Note => (n.startTick, n)))
  bars := (Store.bulkAdd [] (x.models.bars.map (fun b : Bar => (b.startTick, b)))).1
  tempos := (Store.bulkAdd [] (x.models.tempos.map (fun b : Tempo => (b.startTick, b)))).1
  dumpers := (Store.bulkAdd [] (x.models.dumpers.map (fun b : CtrlChg => (b.startTick, b)))).1
  softs := (Store.bulkAdd [] (x.models.softs.map (fun b : CtrlChg => (b.startTick, b)))).1

/-- src/project.rs:117-151 `Into<ExportedProject> for ProjectImpl` -/
def Project.toExported (p : Project) : ExportedProject where
  rhythm := p.rhythm
  key := p.key
  grid := p.grid
  models := ⟨p.notes.map (·.2), p.bars.map (·.2), p.tempos.map (·.2), p.dumpers.map (·.2), p.softs.map (·.2)⟩

end Klavier
