import Verif.Common.AMap

/-!
# The named inter-process lock

Code modelled: `/repo/ecal/core/src/io/mtx/linux/ecal_named_mutex_impl.cpp` (plain lock: creation L42-90,
lock L92-137, trylock L139-155, unlock L157-172, constructor L215-233, destructor L235-249) and
`/repo/ecal/core/src/io/mtx/linux/ecal_named_mutex_robust_clocklock_impl.cpp` (recoverable lock: L43-79,
L81-144, L146-150, L196-213, L215-229); selection in `/repo/ecal/core/src/io/mtx/ecal_named_mutex.cpp`
L72-91.

One name.  The name may be linked to a shared object; unlinking and creating again gives a *new* object
while old handles keep the old one.  Creation is two steps, because the object is visible under its name
before it is initialised (L46 vs. L80-87).  One step is one critical section or system call.

Operating system (trusted): `shm_open(O_EXCL)` is atomic; a recoverable pthread lock refuses an unlock by
a thread that does not hold it (`EPERM`) and tells the next locker that the holder died (`EOWNERDEAD`);
zero-initialised memory behaves as an unlocked lock.  Waiting is a sequence of failed `lock` steps followed
by a successful one or by giving up.
-/

namespace Ecal.Sync.Mutex

open Ecal

inductive Who where
  | alive (h : Nat)      -- locked through handle `h`
  | dead                 -- the holder's process died
deriving DecidableEq, Repr

structure Handle where
  obj     : Nat
  owner   : Bool         -- `m_has_ownership`
  pending : Bool         -- created, not yet initialised
deriving DecidableEq, Repr

structure State where
  objs    : List (Option Who) := []      -- lock state of every object ever created
  link    : Option Nat := none           -- object the name refers to
  handles : AMap Nat Handle := []
  holders : List Nat := []               -- handles whose user was told it has the lock and did not release it
deriving Repr

structure Config where
  robust : Bool

inductive Step where
  | opn (h : Nat)        -- constructor: open the existing object
  | create (h : Nat)     -- constructor: create the object
  | init (h : Nat)       -- constructor: initialise it
  | lock (h : Nat)
  | unlock (h : Nat)
  | destroy (h : Nat)    -- destructor
  | drop (h : Nat)       -- `DropOwnership`
  | die (h : Nat)        -- the process using `h` dies
deriving DecidableEq, Repr

/-- Release by `h` of an object in lock state `l`. -/
def releaseBy (cfg : Config) (l : Option Who) (h : Nat) : Option Who :=
  if cfg.robust then (if l = some (.alive h) then none else l) else none

def minus (l : List Nat) (h : Nat) : List Nat := l.filter (fun k => k != h)

def step (cfg : Config) (st : State) : Step → State
  | .opn h =>
    match st.handles.find h, st.link with
    | none, some o => { st with handles := st.handles.set h ⟨o, false, false⟩ }
    | _, _ => st
  | .create h =>
    match st.handles.find h, st.link with
    | none, none => { st with objs := st.objs ++ [none], link := some st.objs.length,
                              handles := st.handles.set h ⟨st.objs.length, true, true⟩ }
    | _, _ => st
  | .init h =>
    match st.handles.find h with
    | some hd =>
      if hd.pending then
        { st with objs := st.objs.set hd.obj none
                  handles := st.handles.set h { hd with pending := false } }
      else st
    | none => st
  | .lock h =>
    match st.handles.find h with
    | some hd =>
      if hd.pending ∨ h ∈ st.holders then st
      else match st.objs[hd.obj]? with
        | some none => { st with objs := st.objs.set hd.obj (some (.alive h)), holders := h :: st.holders }
        | some (some .dead) =>
          if cfg.robust then
            { st with objs := st.objs.set hd.obj (some (.alive h)), holders := h :: st.holders }
          else st
        | _ => st
    | none => st
  | .unlock h =>
    match st.handles.find h with
    | some hd =>
      if hd.pending then st
      else match st.objs[hd.obj]? with
        | some l => { st with objs := st.objs.set hd.obj (releaseBy cfg l h), holders := minus st.holders h }
        | none => st
    | none => st
  | .destroy h =>
    match st.handles.find h with
    | some hd =>
      if hd.pending then st
      else match st.objs[hd.obj]? with
        | some l =>
          { st with objs := st.objs.set hd.obj (releaseBy cfg l h), holders := minus st.holders h
                    handles := st.handles.erase h
                    link := if hd.owner then none else st.link }
        | none => st
    | none => st
  | .drop h =>
    match st.handles.find h with
    | some hd => { st with handles := st.handles.set h { hd with owner := false } }
    | none => st
  | .die h =>
    match st.handles.find h with
    | some hd =>
      match st.objs[hd.obj]? with
      | some l => { st with objs := st.objs.set hd.obj (if l = some (.alive h) then some .dead else l)
                            holders := minus st.holders h, handles := st.handles.erase h }
      | none => st
    | none => st

def run (cfg : Config) (st : State) (steps : List Step) : State := steps.foldl (step cfg) st

end Ecal.Sync.Mutex
