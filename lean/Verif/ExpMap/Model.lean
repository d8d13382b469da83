import Verif.Common.AMap

/-!
# `CExpirationMap` (core/src/util/ecal_expmap.h)

The container behind every "entity is alive" decision (connections, monitoring,
descriptions, services).  Modelled function by function.  Iterators into the
`std::list` are modelled by node identities, so that using an iterator whose node was
erased (undefined behaviour in C++) is the outcome `none`.
-/

namespace Ecal.ExpMap

/-- `AccessTimestampListEntry` (core/src/util/ecal_expmap.h L77-82):
one node of the access list.  `id` is the node identity, i.e. what a `std::list` iterator
points to. -/
structure Node (K : Type) where
  id  : Nat
  key : K
  ts  : Int
deriving Repr, DecidableEq

/-- Members of `CExpirationMap` (core/src/util/ecal_expmap.h L377-384): access list, map
key → (value, list iterator), timeout.  `nextId` is bookkeeping of the model: the next
unused node identity. -/
structure State (K V : Type) where
  nodes   : List (Node K)
  map     : AMap K (V × Nat)
  timeout : Int
  nextId  : Nat
deriving Repr

/-- Constructor `CExpirationMap(duration t)` (L183). -/
def init (K V : Type) (timeout : Int) : State K V :=
  { nodes := [], map := [], timeout := timeout, nextId := 0 }

variable {K V : Type} [DecidableEq K]

/-- Private `insert(k, v)` (L356-370): appends a list node unconditionally and calls
`std::map::emplace`, which does nothing if the key exists.  Returns emplace's flag. -/
def insertRaw (s : State K V) (now : Int) (k : K) (v : V) : State K V × Bool :=
  let node : Node K := { id := s.nextId, key := k, ts := now }
  match s.map.find k with
  | none   => ({ s with nodes := s.nodes ++ [node], map := s.map.set k (v, s.nextId),
                        nextId := s.nextId + 1 }, true)
  | some _ => ({ s with nodes := s.nodes ++ [node], nextId := s.nextId + 1 }, false)

/-- `update_timestamp(k)` for a key found in the map with iterator `id` (L340-353): splice
the node to the end of the list, then set its timestamp.  `none`: the iterator is
dangling (undefined behaviour). -/
def updateTimestamp (s : State K V) (now : Int) (id : Nat) : Option (State K V) :=
  match s.nodes.find? (fun n => n.id == id) with
  | none      => none
  | some node => some { s with
      nodes := s.nodes.filter (fun n => n.id != id) ++ [{ node with ts := now }] }

/-- `operator[](k)` (L243-267).  `dflt` is the value-initialised `T{}` of L253. The
returned reference is modelled by the value found. -/
def access (s : State K V) (now : Int) (dflt : V) (k : K) : Option (State K V × V) :=
  match s.map.find k with
  | none => some ((insertRaw s now k dflt).1, dflt)
  | some (v, id) =>
    match updateTimestamp s now id with
    | none    => none
    | some s' => some (s', v)

/-- `m[k] = w`: `operator[]` followed by assignment through the returned reference (the
way all users of the class store values). -/
def assign (s : State K V) (now : Int) (dflt : V) (k : K) (w : V) : Option (State K V) :=
  match access s now dflt k with
  | none => none
  | some (s', _) =>
    match s'.map.find k with
    | none => none
    | some (_, id) => some { s' with map := s'.map.set k (w, id) }

/-- `erase_expired` (L303-315): from the front of the list, while the timestamp is older
than `now - timeout`, erase the map entry of the node's key and the node; the keys are
reported in this order. -/
def eraseExpiredLoop (limit : Int) : List (Node K) → AMap K (V × Nat) →
    List (Node K) × AMap K (V × Nat) × List K
  | [], m => ([], m, [])
  | n :: ns, m =>
    if n.ts < limit then
      let r := eraseExpiredLoop limit ns (m.erase n.key)
      (r.1, r.2.1, n.key :: r.2.2)
    else (n :: ns, m, [])

/-- `erase_expired` (L303-315), see `eraseExpiredLoop`. -/
def eraseExpired (s : State K V) (now : Int) : State K V × List K :=
  let r := eraseExpiredLoop (now - s.timeout) s.nodes s.map
  ({ s with nodes := r.1, map := r.2.1 }, r.2.2)

/-- `erase(k)` (L318-328).  `none`: the stored list iterator is dangling (undefined
behaviour of `std::list::erase`). -/
def erase (s : State K V) (k : K) : Option (State K V × Bool) :=
  match s.map.find k with
  | none => some (s, false)
  | some (_, id) =>
    if s.nodes.any (fun n => n.id == id) then
      some ({ s with nodes := s.nodes.filter (fun n => n.id != id), map := s.map.erase k }, true)
    else none

/-- `clear()` (L331-335). -/
def clear (s : State K V) : State K V := { s with nodes := [], map := [] }

/-- `find(k)` (L287-295) dereferenced: the value stored for `k`, if any. -/
def lookup (s : State K V) (k : K) : Option V := (s.map.find k).map Prod.fst

/-- The public operations of the class that change it. -/
inductive Op (K V : Type) where
  | access (k : K)            -- `m[k]`
  | assign (k : K) (v : V)    -- `m[k] = v`
  | insert (k : K) (v : V)    -- `m.insert({k, v})` (L280-284)
  | erase (k : K)             -- `m.erase(k)`
  | eraseExpired              -- `m.erase_expired()`
  | clear                     -- `m.clear()`
deriving Repr

/-- One public call at clock value `now` (`get_curr_time`, L372-375).  `none` is undefined
behaviour. -/
def step (dflt : V) (s : State K V) (now : Int) : Op K V → Option (State K V)
  | .access k     => (access s now dflt k).map Prod.fst
  | .assign k v   => assign s now dflt k v
  | .insert k v   => some (insertRaw s now k v).1
  | .erase k      => (erase s k).map Prod.fst
  | .eraseExpired => some (eraseExpired s now).1
  | .clear        => some (clear s)

/-- A history: each call with the clock value it reads. -/
def run (dflt : V) : State K V → List (Int × Op K V) → Option (State K V)
  | s, [] => some s
  | s, (now, op) :: h => (step dflt s now op).bind (fun s' => run dflt s' h)

end Ecal.ExpMap
