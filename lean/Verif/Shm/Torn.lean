import Verif.Shm.MemFile

/-!
# Concurrent and crashing access to one shared memory file

Code modelled: `/repo/ecal/core/src/io/shm/ecal_memfile_sync.cpp` `Write` L139-228 as a sequence of
single memory updates (size field, then header bytes, size field, then payload bytes) under the named
lock; `/repo/ecal/core/src/io/shm/ecal_memfile.cpp` `GetAccess` L357-398 with the reset of the size after
recovery (L371-376); readers as in `/repo/ecal/core/src/io/shm/ecal_memfile_pool.cpp` `Observe`; the two
lock implementations `/repo/ecal/core/src/io/mtx/linux/ecal_named_mutex_impl.cpp` (plain: unlock and
destructor release without looking at the holder, L157-172, L235-249; a dead holder blocks for ever) and
`ecal_named_mutex_robust_clocklock_impl.cpp` (recoverable: a release by a non-holder is refused by the
operating system; a dead holder is noticed by the next lock, L81-144).

The system is one writer process and any number of readers of one segment that is large enough (C18
covers the recreation of the segment).  Every interleaving of single memory updates, locks, reads,
unlocks, destructions of reader handles and a crash of the writer is a trace of `Step`.
-/

namespace Ecal.Shm.Torn

open Ecal.Shm

inductive Micro where
  | setCur (n : Nat)
  | put (i : Nat) (b : Byte)
deriving DecidableEq, Repr

def exec (f : File) : Micro → File
  | .setCur n => { f with cur := n }
  | .put i b => { f with data := f.data.set i b }

/-- `memcpy` of `bytes` to offset `off`. -/
def puts (off : Nat) : List Byte → List Micro
  | [] => []
  | b :: bs => .put off b :: puts (off + 1) bs

/-- The memory updates of `Write` for header `hdr` and content `c`. -/
def program (hdr c : List Byte) : List Micro :=
  .setCur hdr.length :: puts 0 hdr ++
    (if c = [] then [] else .setCur (c.length + hdr.length) :: puts hdr.length c)

inductive Holder where
  | writer | reader (i : Nat) | dead
deriving DecidableEq, Repr

structure Config where
  robust : Bool          -- recoverable lock, sanitising handles
deriving DecidableEq, Repr

structure State where
  f         : File
  holder    : Option Holder := none   -- the lock
  writing   : Bool := false           -- the writer is inside `Write` (believes to hold the lock)
  prog      : List Micro := []        -- what it still has to do
  target    : List Byte := []         -- the sample being written
  reading   : List Nat := []          -- readers that believe to hold the lock
  completed : List Byte := []         -- the last completely written sample (`[]`: none)
  log       : List (List Byte × List Byte) := []  -- what a reader got; the last complete sample then
deriving DecidableEq, Repr

inductive Step where
  | wLock (hdr c : List Byte)
  | wMicro
  | wUnlock
  | crash                 -- the writer process dies
  | rLock (i : Nat)
  | rRead (i : Nat)
  | rUnlock (i : Nat)
  | destroy (i : Nat)     -- reader `i` destroys its handle
deriving DecidableEq, Repr

/-- Taking the lock: the new segment and `completed`, if it is granted. -/
def acquire (cfg : Config) (st : State) : Option (File × List Byte) :=
  match st.holder with
  | none => some (st.f, st.completed)
  | some .dead => if cfg.robust then some ({ st.f with cur := 0 }, []) else none
  | some _ => none

/-- Who holds the lock after `me` released it. -/
def releaseBy (cfg : Config) (holder : Option Holder) (me : Holder) : Option Holder :=
  if cfg.robust then (if holder = some me then none else holder) else none

def step (cfg : Config) (st : State) : Step → State
  | .wLock hdr c =>
    if st.writing then st
    else if hdr = [] ∨ st.f.max < hdr.length + c.length then st
    else match acquire cfg st with
      | none => st
      | some (f, comp) =>
        { st with f := f, completed := comp, holder := some .writer, writing := true,
                  prog := program hdr c, target := hdr ++ c }
  | .wMicro =>
    if st.writing then
      match st.prog with
      | [] => st
      | m :: ms => { st with f := exec st.f m, prog := ms }
    else st
  | .wUnlock =>
    if st.writing ∧ st.prog = [] then
      { st with writing := false, completed := st.target
                holder := releaseBy cfg st.holder .writer }
    else st
  | .crash =>
    if st.writing then
      { st with writing := false, prog := []
                holder := if st.holder = some .writer then some .dead else st.holder }
    else st
  | .rLock i =>
    if i ∈ st.reading then st
    else match acquire cfg st with
      | none => st
      | some (f, comp) =>
        { st with f := f, completed := comp, holder := some (.reader i), reading := i :: st.reading }
  | .rRead i =>
    if i ∈ st.reading then { st with log := st.log ++ [(st.f.data.take st.f.cur, st.completed)] }
    else st
  | .rUnlock i =>
    if i ∈ st.reading then
      { st with reading := st.reading.filter (fun j => j != i)
                holder := releaseBy cfg st.holder (.reader i) }
    else st
  | .destroy i =>
    { st with reading := st.reading.filter (fun j => j != i)
              holder := releaseBy cfg st.holder (.reader i) }

def run (cfg : Config) (st : State) (steps : List Step) : State := steps.foldl (step cfg) st

end Ecal.Shm.Torn
