import Verif.ExpMap.Model

/-!
# The monitoring tables

Code modelled: `/repo/ecal/core/src/monitoring/ecal_monitoring_impl.cpp` L197-356 (topics), L358-424
(processes), L426-565 (servers, clients), L582-707 (`GetMonitoring`).

There are five tables (processes, publishers, subscribers, servers, clients), each an expiring map keyed by a
string that is *concatenated* from parts of the entity's identity.  One table is modelled; `Kind` selects how
its key is built.  Strings are lists of characters.  The content of an entry other than its identity is
abstracted to a number (every registration overwrites it completely; the registration counter is left out).
The topic filter is `Verif.Mon.Filter`.
-/

namespace Ecal.Mon

open Ecal.ExpMap

inductive Kind where
  | process | publisher | subscriber | server | client
deriving DecidableEq, Repr

/-- Identity of a monitored entity. -/
structure Ident where
  host : List Char
  name : List Char          -- process, topic or service name
  id   : List Char          -- entity id (unused for processes)
  pid  : Nat
deriving DecidableEq, Repr

structure Entity where
  ident : Ident
  data  : Nat
deriving DecidableEq, Repr

def digit (n : Nat) : Char := Char.ofNat (48 + n % 10)

/-- `std::to_string` of a non-negative number. -/
def toDec (n : Nat) : List Char :=
  if _h : n < 10 then [digit n] else toDec (n / 10) ++ [digit n]
termination_by n
decreasing_by omega

/-- The map keys: L280/L350 (topics), L379/L415 (processes), L444/L488 (servers), L513/L555 (clients). -/
def key (k : Kind) (i : Ident) : List Char :=
  match k with
  | .process => i.name ++ toDec i.pid
  | .publisher => i.name ++ i.id
  | .subscriber => i.name ++ i.id
  | .server => i.name ++ i.id ++ toDec i.pid
  | .client => i.name ++ i.id ++ toDec i.pid

abbrev Table := ExpMap.State (List Char) Entity

inductive MOp where
  | register (e : Entity)
  | unregister (i : Ident)
  | snapshot
deriving DecidableEq, Repr

/-- The call on the expiring map. -/
def toOp (k : Kind) : MOp → ExpMap.Op (List Char) Entity
  | .register e => .assign (key k e.ident) e
  | .unregister i => .erase (key k i)
  | .snapshot => .eraseExpired

/-- Value-initialised entry (`T{}`), overwritten at once. -/
def blank : Entity := ⟨⟨[], [], [], 0⟩, 0⟩

/-- A history of calls with their times; `none` is undefined behaviour. -/
def mrun (k : Kind) (s : Table) (h : List (Int × MOp)) : Option Table :=
  ExpMap.run blank s (h.map (fun p => (p.1, toOp k p.2)))

/-- What `GetMonitoring` at time `now` returns for this table: the entries left after removing the expired
ones. -/
def listing (s : Table) (now : Int) : List Entity :=
  let s' := (ExpMap.eraseExpired s now).1
  (AMap.keys s'.map).filterMap (fun k => ExpMap.lookup s' k)

end Ecal.Mon
