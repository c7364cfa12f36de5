/-!
# The external collections `Store` and `BagStore` (crate klavier_helper 0.1.5)

The crate is not part of `/repo`.  The model is the behaviour `/repo/src/project.rs`
relies on; it is an assumption (DESIGN.md, trusted base).  Metadata and event
queues are left out: no modelled function reads them (the calls that fill them are in
`Model/Announce.lean`).
-/
set_option autoImplicit false
namespace Klavier

/-- `Store<u32, V, M>`: key/value pairs; every operation below keeps them
strictly sorted by key. -/
abbrev Store (V : Type) := List (Nat × V)

namespace Store
variable {V : Type}

/-- The value stored under a key. -/
def get? (s : Store V) (k : Nat) : Option V :=
  match s with
  | [] => none
  | (k', v) :: s => if k' = k then some v else get? s k

/-- `Store::add`, the resulting store. -/
def add (s : Store V) (k : Nat) (v : V) : Store V :=
  match s with
  | [] => [(k, v)]
  | (k', v') :: s =>
    if k < k' then (k, v) :: (k', v') :: s
    else if k = k' then (k, v) :: s
    else (k', v') :: add s k v

/-- `Store::remove` -/
def remove (s : Store V) (k : Nat) : Store V :=
  match s with
  | [] => []
  | (k', v') :: s => if k' = k then s else (k', v') :: remove s k

/-- `Store::bulk_add`: additions one by one; returns the store and the
overwritten pairs in order. -/
def bulkAdd (s : Store V) : List (Nat × V) → Store V × List (Nat × V)
  | [] => (s, [])
  | (k, v) :: l =>
    let (s', o) := bulkAdd (s.add k v) l
    (s', match s.get? k with
      | some w => (k, w) :: o
      | none => o)

/-- `Store::change`: removes all `from` keys, then adds all `to` pairs; returns
the store and the pairs overwritten by the additions. -/
def change (s : Store V) (l : List (Nat × (Nat × V))) : Store V × List (Nat × V) :=
  bulkAdd (l.foldl (fun s p => s.remove p.1) s) (l.map Prod.snd)

/-- `Store::find` and `Store::index` (binary search): `ok i` when the key is at
index `i`, else `error i` with the index at which it would be inserted. -/
def find (s : Store V) (k : Nat) : Except Nat Nat :=
  let i := (s.takeWhile (fun p => p.1 < k)).length
  match s[i]? with
  | some (k', _) => if k' = k then .ok i else .error i
  | none => .error i

/-- `Store::peek_last` -/
def peekLast (s : Store V) : Option (Nat × V) := s.getLast?

end Store

/-- `BagStore<u32, V, M>`: key/value pairs sorted by key, several values per key. -/
abbrev Bag (V : Type) := List (Nat × V)

namespace Bag
variable {V : Type}

/-- `BagStore::add`; the position among equal keys is not relied on. -/
def add (s : Bag V) (k : Nat) (v : V) : Bag V :=
  match s with
  | [] => [(k, v)]
  | (k', v') :: s => if k < k' then (k, v) :: (k', v') :: s else (k', v') :: add s k v

/-- `BagStore::remove`: removes one equal value under the key, if there is one. -/
def remove [DecidableEq V] (s : Bag V) (k : Nat) (v : V) : Bag V := s.erase (k, v)

/-- `BagStore::bulk_add` -/
def bulkAdd (s : Bag V) (l : List (Nat × V)) : Bag V := l.foldl (fun s p => s.add p.1 p.2) s

/-- `BagStore::bulk_remove` -/
def bulkRemove [DecidableEq V] (s : Bag V) (l : List (Nat × V)) : Bag V :=
  l.foldl (fun s p => s.remove p.1 p.2) s

/-- `BagStore::change`: removes all `from` values, then adds all `to` values. -/
def change [DecidableEq V] (s : Bag V) (l : List ((Nat × V) × (Nat × V))) : Bag V :=
  (s.bulkRemove (l.map Prod.fst)).bulkAdd (l.map Prod.snd)

/-- `BagStore::range(k..)` -/
def rangeFrom (s : Bag V) (k : Nat) : List (Nat × V) := s.filter (fun p => k ≤ p.1)

/-- `BagStore::peek_last` -/
def peekLast (s : Bag V) : Option (Nat × V) := s.getLast?

end Bag
end Klavier
