import Verif.Model.Project

/-! # models.rs: moving a copied selection -/
set_option autoImplicit false
namespace Klavier
namespace Models

/-- The loops of src/models.rs:56-70, one after the other: the smallest of
`smallest` and the ticks of the items. -/
def smallest (ticks : List Nat) (s : Nat) : Nat := ticks.foldl (fun s t => min t s) s

/-- src/models.rs:55-70: the smallest tick, `u32::MAX` for an empty selection -/
def smallestTick (m : Models) : Nat :=
  let s := smallest (m.notes.map (·.baseStartTick)) U32_MAX
  let s := smallest (m.bars.map (·.startTick)) s
  let s := smallest (m.tempos.map (·.startTick)) s
  let s := smallest (m.dumpers.map (·.startTick)) s
  smallest (m.softs.map (·.startTick)) s

/-- src/models.rs:54-92 `Models::move_to_tick`; the additions are `i64` additions
(they cannot overflow), cast to `u32`. -/
def moveToTick (m : Models) (tick : Nat) : Models :=
  let offset : Int := (tick : Int) - (m.smallestTick : Int)
  if offset = 0 then m
  else
    { notes := m.notes.map (fun n => { n with baseStartTick := asU32 (n.baseStartTick + offset) })
      bars := m.bars.map (fun b => { b with startTick := asU32 (b.startTick + offset) })
      tempos := m.tempos.map (fun t => { t with startTick := asU32 (t.startTick + offset) })
      dumpers := m.dumpers.map (fun d => { d with startTick := asU32 (d.startTick + offset) })
      softs := m.softs.map (fun s => { s with startTick := asU32 (s.startTick + offset) }) }

end Models
end Klavier
