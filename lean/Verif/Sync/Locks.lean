/-!
# Threads that take and release locks

A small general model of threads with locks, used by `Verif/Sync/ApiLocks.lean` for the locks of the pub/sub part
of the library.  It describes `std::mutex` (`excl` only) and `std::shared_timed_mutex` (`shared` / `excl`):

* a lock taken exclusively excludes everybody else, shared owners exclude exclusive ones;
* a thread that asks for a lock it already owns never gets it (the standard calls this undefined behaviour; in
  practice it is a deadlock, and for a shared lock it is one as soon as a writer waits);
* with `pref` the shared lock is refused while another thread waits for the exclusive one (which an implementation
  may do; without `pref` it is granted).

Simplification: nothing but the locks makes a thread wait.
-/

namespace Ecal.Sync.Locks

inductive Mode where
  | excl
  | shared
deriving DecidableEq, Repr

inductive Act (L : Type) where
  | acq (l : L) (m : Mode)
  | rel (l : L)
deriving DecidableEq, Repr

structure Thread (L : Type) where
  held : List (L × Mode)
  rest : List (Act L)
deriving DecidableEq, Repr

abbrev Sys (L : Type) := List (Thread L)

variable {L : Type} [DecidableEq L]

def Mode.compat : Mode → Mode → Bool
  | .shared, .shared => true
  | _, _ => false

def Thread.holds (t : Thread L) (l : L) : Bool := t.held.any (fun h => h.1 == l)

def Thread.conflicts (t : Thread L) (l : L) (m : Mode) : Bool := t.held.any (fun h => h.1 == l && !h.2.compat m)

def Thread.waitsExcl (t : Thread L) (l : L) : Bool := t.rest.head? == some (.acq l .excl)

/-- Another thread stands in the way. -/
def Thread.blocks (pref : Bool) (l : L) (m : Mode) (u : Thread L) : Bool :=
  u.conflicts l m || (pref && m == .shared && u.waitsExcl l)

/-- The lock can be given to the thread `t`, the others being `us`. -/
def free (pref : Bool) (us : Sys L) (t : Thread L) (l : L) (m : Mode) : Bool :=
  !t.holds l && us.all (fun u => !u.blocks pref l m)

/-- What the thread `t` can do next. -/
def act (pref : Bool) (us : Sys L) (t : Thread L) : Option (Thread L) :=
  match t.rest with
  | [] => none
  | .acq l m :: r => if free pref us t l m then some { held := (l, m) :: t.held, rest := r } else none
  | .rel l :: r => some { held := t.held.filter (fun h => h.1 != l), rest := r }

/-- The thread `i` makes a step. -/
def step (pref : Bool) (s : Sys L) (i : Nat) : Option (Sys L) :=
  match s[i]? with
  | none => none
  | some t =>
    match act pref (s.eraseIdx i) t with
    | none => none
    | some t' => some (s.set i t')

def run (pref : Bool) (s : Sys L) : List Nat → Option (Sys L)
  | [] => some s
  | i :: r =>
    match step pref s i with
    | none => none
    | some s' => run pref s' r

/-- All threads have come to their end. -/
def Finished (s : Sys L) : Prop := ∀ t ∈ s, t.rest = []

/-- Some thread has not come to its end and nobody can make a step. -/
def Deadlocked (pref : Bool) (s : Sys L) : Prop := ¬ Finished s ∧ ∀ i, step pref s i = none

/-- Threads at their start. -/
def start (ps : List (List (Act L))) : Sys L := ps.map (fun p => { held := [], rest := p })

end Ecal.Sync.Locks
