/-!
# Named events of several processes, system call by system call

Code modelled: `/repo/ecal/core/src/ecal_event.cpp`: `named_event_create` L137-175,
`named_event_destroy` L177-181, `named_event_open` L183-194, `named_event_close` L196-200,
`named_event_set` L202-212, `named_event_trywait` L261-277, `CNamedEvent` L320-397, `gOpenNamedEvent`
L399-413, `gCloseEvent` L456-468, `gSetEvent` L470-482, `gWaitForEvent` L484-509.

Where such events are used: a publisher opens two events per subscribing process with ownership when it
hears of the subscriber (`io/shm/ecal_memfile_sync.cpp` L51-91), the subscriber opens the same names
without ownership when it hears of the publisher (`io/shm/ecal_memfile_pool.cpp` L57-76); `Ok` and
`ShutdownProcess` open the name of a process id, both with ownership (`ecal.cpp` L39-48,
`ecal_util.cpp` L223-233).

The kernel: names refer to shared memory objects; an object has a size (0 or that of the structure) and
its content, here "mutex and condition variable have been initialised" and the flag `set`.  A step is a
system call or the access to the content under its mutex.

Simplifications: names are numbers; one object of class `CNamedEvent` per handle number `h` at a time,
whatever process it is in; waiting with a time limit is the test of the flag (blocking is
`Verif.Sync.Event`); access to a content that has not been initialised is undefined behaviour
(`Crash.uninit`), access to a mapping of an object of size 0 is `SIGBUS`, access to `MAP_FAILED`
`SIGSEGV`; a process that dies while it holds the mutex is C48.
-/

namespace Ecal.Sync.NamedEvent

/-- A shared memory object. -/
structure Inode where
  sized  : Bool := false
  inited : Bool := false
  set    : Bool := false
deriving Repr, DecidableEq

inductive Crash where
  | sigbus | sigsegv | uninit
deriving Repr, DecidableEq

/-- The life of a `CNamedEvent`. -/
inductive Han where
  | gone                     -- no such object
  | start                    -- before `shm_open` L186
  | opened (o : Nat)         -- before `mmap` L190
  | missing                  -- before `shm_open` L141
  | made (o : Nat)           -- before `ftruncate` L146
  | grown (o : Nat)          -- before `mmap` L164
  | mapped (o : Nat)         -- before L168-172
  | ready (o : Nat)
  | bad                      -- `m_event` is `MAP_FAILED`
  | mute                     -- `m_event` is null
  | unmapped                 -- destructor of an owner before `shm_unlink` L342
deriving Repr, DecidableEq

structure Obj where
  name  : Nat := 0
  owner : Bool := false
  han   : Han := .gone
deriving Repr, DecidableEq

structure State where
  link   : Nat → Option Nat := fun _ => none     -- what a name refers to
  inodes : List Inode := []
  objs   : Nat → Obj := fun _ => {}
  crash  : Option Crash := none
  waits  : List (Nat × Bool) := []               -- results of waits

def upd {A : Type} (f : Nat → A) (i : Nat) (v : A) : Nat → A := fun j => if j = i then v else f j

inductive Step where
  | new (h name : Nat) (owner : Bool)   -- `gOpenNamedEvent`: it returns true whatever becomes of the event
  | sys (h : Nat) (ok : Bool)           -- the next system call of the constructor or destructor of `h`
  | set (h : Nat)
  | wait (h : Nat)
  | close (h : Nat)
  | die (h : Nat)                       -- the process of `h` ends without calling the destructor
deriving Repr, DecidableEq

def setHan (s : State) (h : Nat) (x : Han) : State := { s with objs := upd s.objs h { s.objs h with han := x } }

def inode (s : State) (o : Nat) : Inode := (s.inodes[o]?).getD {}

def setInode (s : State) (o : Nat) (i : Inode) : State := { s with inodes := s.inodes.set o i }

/-- A system call of the constructor L323-334 or of the destructor L336-344. -/
def sys (s : State) (h : Nat) (ok : Bool) : State :=
  match (s.objs h).han with
  | .start =>
    match s.link (s.objs h).name with
    | some o => if ok then setHan s h (.opened o) else setHan s h .missing
    | none => setHan s h .missing
  | .opened o => if ok then setHan s h (.ready o) else setHan s h .bad
  | .missing =>
    match s.link (s.objs h).name with
    | some _ => setHan s h .mute
    | none =>
      if ok then
        setHan { s with inodes := s.inodes ++ [{}],
                        link := upd s.link (s.objs h).name (some s.inodes.length) } h (.made s.inodes.length)
      else setHan s h .mute
  | .made o =>
    if ok then setHan (setInode s o { inode s o with sized := true }) h (.grown o) else setHan s h .mute
  | .grown o => if ok then setHan s h (.mapped o) else { s with crash := some .sigsegv }
  | .mapped o => setHan (setInode s o { inode s o with inited := true, set := false }) h (.ready o)
  | .unmapped => setHan { s with link := upd s.link (s.objs h).name none } h .gone
  | _ => s

/-- What an access to the content of `o` runs into. -/
def fault (s : State) (o : Nat) : Option Crash :=
  if (inode s o).sized = false then some .sigbus
  else if (inode s o).inited = false then some .uninit
  else none

/-- `set` L346-350. -/
def setEvent (s : State) (h : Nat) : State :=
  match (s.objs h).han with
  | .ready o =>
    match fault s o with
    | some c => { s with crash := some c }
    | none => setInode s o { inode s o with set := true }
  | .bad => { s with crash := some .sigsegv }
  | _ => s

/-- `wait` L358-372. -/
def waitEvent (s : State) (h : Nat) : State :=
  match (s.objs h).han with
  | .ready o =>
    match fault s o with
    | some c => { s with crash := some c }
    | none =>
      { setInode s o { inode s o with set := false } with waits := s.waits ++ [(h, (inode s o).set)] }
  | .bad => { s with crash := some .sigsegv }
  | .mute => { s with waits := s.waits ++ [(h, false)] }
  | _ => s

/-- `~CNamedEvent` L336-340. -/
def closeEvent (s : State) (h : Nat) : State :=
  match (s.objs h).han with
  | .ready _ => if (s.objs h).owner then setHan s h .unmapped else setHan s h .gone
  | .bad => if (s.objs h).owner then setHan s h .unmapped else setHan s h .gone
  | .mute => setHan s h .gone
  | _ => s

def newEvent (s : State) (h name : Nat) (owner : Bool) : State :=
  match (s.objs h).han with
  | .gone => { s with objs := upd s.objs h ⟨name, owner, .start⟩ }
  | _ => s

def step (s : State) (a : Step) : State :=
  if s.crash.isSome then s
  else
    match a with
    | .new h n w => newEvent s h n w
    | .sys h ok => sys s h ok
    | .set h => setEvent s h
    | .wait h => waitEvent s h
    | .close h => closeEvent s h
    | .die h => setHan s h .gone

def run (s : State) (l : List Step) : State := l.foldl step s

/-- Opening an event that exists, and one that does not. -/
def openExisting (h n : Nat) (w : Bool) : List Step := [.new h n w, .sys h true, .sys h true]
def create (h n : Nat) (w : Bool) : List Step :=
  [.new h n w, .sys h true, .sys h true, .sys h true, .sys h true, .sys h true]

end Ecal.Sync.NamedEvent
