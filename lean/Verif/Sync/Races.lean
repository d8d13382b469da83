/-!
# Threads that take locks and touch variables

A small general model for data races, used by `Verif/Sync/WriterRaces.lean` and `Verif/Sync/ReaderRaces.lean`.  A
thread takes and releases locks (`std::mutex`: `excl` only; `std::shared_timed_mutex`: `shared` / `excl`) and reads
and writes variables.  A *race* is a state in which two threads are about to touch the same variable and one of them
to write it; what happens then is undefined behaviour in C++ ([intro.races]).

Simplifications: nothing but the locks makes a thread wait, and a thread that asks for a lock it owns never gets it.
The branches a thread takes are fixed in advance (all of them are allowed, they are a part of the program).
No code of the library is modelled here.
-/

namespace Ecal.Sync.Races

inductive Mode where
  | excl
  | shared
deriving DecidableEq, Repr

inductive Act (L V : Type) where
  | acq (l : L) (m : Mode)
  | rel (l : L)
  | rd (v : V)
  | wr (v : V)
deriving DecidableEq, Repr

structure Thread (L V : Type) where
  held : List (L × Mode)
  rest : List (Act L V)
deriving DecidableEq, Repr

abbrev Sys (L V : Type) := List (Thread L V)

variable {L V : Type} [DecidableEq L] [DecidableEq V]

/-- Two owners of a lock at the same time. -/
def Mode.compat : Mode → Mode → Bool
  | .shared, .shared => true
  | _, _ => false

def Thread.conflicts (t : Thread L V) (l : L) (m : Mode) : Bool := t.held.any (fun h => h.1 == l && !h.2.compat m)

def Thread.holds (t : Thread L V) (l : L) : Bool := t.held.any (fun h => h.1 == l)

/-- What a thread can do next, the others being `us`. -/
def act (us : Sys L V) (t : Thread L V) : Option (Thread L V) :=
  match t.rest with
  | [] => none
  | .acq l m :: r =>
    if !t.holds l && us.all (fun u => !u.conflicts l m) then some { held := (l, m) :: t.held, rest := r } else none
  | .rel l :: r => some { held := t.held.filter (fun h => h.1 != l), rest := r }
  | .rd _ :: r => some { held := t.held, rest := r }
  | .wr _ :: r => some { held := t.held, rest := r }

/-- The thread `i` makes a step. -/
def step (s : Sys L V) (i : Nat) : Option (Sys L V) :=
  match s[i]? with
  | none => none
  | some t =>
    match act (s.eraseIdx i) t with
    | none => none
    | some t' => some (s.set i t')

def run (s : Sys L V) : List Nat → Option (Sys L V)
  | [] => some s
  | i :: r =>
    match step s i with
    | none => none
    | some s' => run s' r

/-- Threads at their start. -/
def start (ps : List (List (Act L V))) : Sys L V := ps.map (fun p => { held := [], rest := p })

/-- The thread is about to write `v`. -/
def Thread.writes (t : Thread L V) (v : V) : Prop := t.rest.head? = some (.wr v)

/-- The thread is about to read or write `v`. -/
def Thread.touches (t : Thread L V) (v : V) : Prop := t.rest.head? = some (.rd v) ∨ t.rest.head? = some (.wr v)

/-- Two threads are about to touch `v`, one of them to write it. -/
def RaceOn (s : Sys L V) (v : V) : Prop :=
  ∃ (i j : Nat) (t u : Thread L V), i ≠ j ∧ s[i]? = some t ∧ s[j]? = some u ∧ t.writes v ∧ u.touches v

/-- A data race. -/
def Race (s : Sys L V) : Prop := ∃ v, RaceOn s v

/-- A critical section. -/
def sect (l : L) (m : Mode) (body : List (Act L V)) : List (Act L V) := .acq l m :: (body ++ [.rel l])

/-! ## What a program touches with which locks held -/

structure Access (L V : Type) where
  var : V
  write : Bool
  held : List (L × Mode)
deriving DecidableEq, Repr

/-- The accesses of a program that starts with `h` held. -/
def accs : List (L × Mode) → List (Act L V) → List (Access L V)
  | _, [] => []
  | h, .acq l m :: r => accs ((l, m) :: h) r
  | h, .rel l :: r => accs (h.filter (fun x => x.1 != l)) r
  | h, .rd v :: r => ⟨v, false, h⟩ :: accs h r
  | h, .wr v :: r => ⟨v, true, h⟩ :: accs h r

/-- The locks held after a program. -/
def after : List (L × Mode) → List (Act L V) → List (L × Mode)
  | h, [] => h
  | h, .acq l m :: r => after ((l, m) :: h) r
  | h, .rel l :: r => after (h.filter (fun x => x.1 != l)) r
  | h, .rd _ :: r => after h r
  | h, .wr _ :: r => after h r

/-- A lock keeps two holders apart. -/
def apart (h k : List (L × Mode)) : Bool := h.any (fun x => k.any (fun y => x.1 == y.1 && !x.2.compat y.2))

/-- Two accesses of different threads that nothing keeps apart. -/
def Access.clash (a b : Access L V) : Bool := a.var == b.var && (a.write || b.write) && !apart a.held b.held

/-- Two programs with such accesses. -/
def clash (p q : List (Act L V)) : Bool := (accs [] p).any (fun a => (accs [] q).any (fun b => a.clash b))

/-- The same for one variable. -/
def clashOn (v : V) (p q : List (Act L V)) : Bool :=
  (accs [] p).any (fun a => (accs [] q).any (fun b => a.var == v && a.clash b))

end Ecal.Sync.Races
