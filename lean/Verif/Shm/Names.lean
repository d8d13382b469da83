import Verif.Common.AMap
import Verif.Mon.Monitor

/-!
# The names of the objects in shared memory

Code modelled: `/repo/ecal/core/src/io/shm/ecal_memfile_naming.cpp` L33-42 (`BuildRandomMemFileName`),
`readwrite/shm/ecal_writer_shm.cpp` L34 (base name), L95-98 (`ApplySubscription`), `io/shm/ecal_memfile_sync.cpp` L51-91
(`Connect`), L240-275 (`Create`), L277-303 (`Destroy`), `io/shm/linux/ecal_memfile_os.cpp` L44-81 (`AllocFile`),
L97-101 (`RemoveFile`), `io/mtx/linux/ecal_named_mutex_impl.cpp` L200-209 (`named_mutex_buildname`), `ecal_event.cpp`
L323-328 (`CNamedEvent`), `registration/shm/ecal_memfile_broadcast.h` L51-54 (`BuildPayloadMemfileName`),
`readwrite/shm/ecal_reader_shm.cpp` L49 and `io/shm/ecal_memfile_pool.cpp` L57-66 (the subscriber's side),
`ecal_def.h` L59, `ecal.cpp` L42 and `ecal_util.cpp` L225 (shutdown event).

All these objects are opened with `shm_open` and live in one directory, so that two objects with the same name are
one object.  Simplifications: Linux; names are texts without zero byte, the length limit of the file system (255)
is not modelled; process ids are natural numbers.  In the second half (publishers and subscribers with their memory
files) the content of a file is the last payload written (its layout and size are C18, C68 and C115), there is one
file per publisher, every call of the system succeeds, and each publisher lives in a process of its own (the table
of the files of one process is C21).
-/

namespace Ecal.Shm.Names

open Ecal

abbrev Name := List Char

/-- A digit of `std::hex`. -/
def hexDigit (n : Nat) : Char := ['0', '1', '2', '3', '4', '5', '6', '7', '8', '9', 'a', 'b', 'c', 'd', 'e', 'f'].getD n '0'

/-- `out << std::hex << n` (L39): lower case, no leading zeros. -/
def toHex (n : Nat) : Name :=
  if _h : n < 16 then [hexDigit n] else toHex (n / 16) ++ [hexDigit (n % 16)]
termination_by n
decreasing_by omega

/-- `BuildRandomMemFileName` (naming L33-42) with the base name of publishers (writer_shm L34); `r` is the number drawn. -/
def segName (r : Nat) : Name := ['e', 'c', 'a', 'l', '_'] ++ toHex r

/-- What a memory file belongs to. -/
inductive Base where
  | seg (r : Nat)                    -- a publisher's file
  | domain (d : Name)                -- the queue of a registration domain
  | payload (d : Name) (id : Nat)    -- a payload of a registration domain
deriving DecidableEq, Repr

/-- The name given to `CMemoryFile::Create`; `BuildPayloadMemfileName` (broadcast.h L51-54). -/
def Base.name : Base → Name
  | .seg r => segName r
  | .domain d => d
  | .payload d id => d ++ ['_'] ++ Mon.toDec id

/-- What an event is for. -/
inductive Event where
  | sent (r pid : Nat)       -- a publisher tells a subscribing process
  | ack (r pid : Nat)        -- the subscribing process answers
  | shutdown (pid : Nat)     -- end of a process
deriving DecidableEq, Repr

/-- The name given to `gOpenNamedEvent`, publisher's side (memfile_sync L60-61) and `ShutdownProcEvent` (ecal.cpp L42). -/
def Event.name : Event → Name
  | .sent r pid => segName r ++ ['_'] ++ Mon.toDec pid
  | .ack r pid => segName r ++ ['_'] ++ Mon.toDec pid ++ ['_', 'a', 'c', 'k']
  | .shutdown pid => ['e', 'c', 'a', 'l', '_', 's', 'h', 'u', 't', 'd', 'o', 'w', 'n', '_', 'p', 'r', 'o', 'c', 'e', 's', 's'] ++ ['_'] ++ Mon.toDec pid

/-- A leading slash is added if there is none (`AllocFile` L47, `named_mutex_buildname` L204, `CNamedEvent` L328). -/
def slash : Name → Name
  | [] => []
  | c :: n => if c ≠ '/' then '/' :: c :: n else c :: n

inductive Obj where
  | file (b : Base)
  | mutex (b : Base)
  | event (e : Event)
deriving DecidableEq, Repr

/-- The name given to `shm_open`. -/
def Obj.os : Obj → Name
  | .file b => slash b.name
  | .mutex b => slash b.name ++ ['_', 'm', 't', 'x']
  | .event e => slash (e.name ++ ['_', 'e', 'v', 't'])

/-- The events a subscribing process opens for a memory file it was told of (`reader_shm` L49, `memfile_pool` L62-63). -/
def readerEvents (file : Name) (pid : Nat) : Name × Name :=
  let ev := file ++ ['_'] ++ Mon.toDec pid
  (slash (ev ++ ['_', 'e', 'v', 't']), slash (ev ++ ['_', 'a', 'c', 'k'] ++ ['_', 'e', 'v', 't']))

/-- The event `ShutdownProcess` sets (`ecal_util.cpp` L225). -/
def stopName (pid : Nat) : Name := slash (['e', 'c', 'a', 'l', '_', 's', 'h', 'u', 't', 'd', 'o', 'w', 'n', '_', 'p', 'r', 'o', 'c', 'e', 's', 's'] ++ ['_'] ++ Mon.toDec pid ++ ['_', 'e', 'v', 't'])

/-! ## Publishers, subscribers and their files -/

/-- The directory of shared memory: names, and the content of each file by inode. -/
structure Sys where
  dir      : AMap Name Nat := []
  content  : Nat → Option (List Nat) := fun _ => none
  next     : Nat := 0
  /-- A publisher: name and inode of its file. -/
  pubs     : Nat → Option (Name × Nat) := fun _ => none
  /-- A subscription: the inode it has mapped. -/
  subs     : Nat → Option Nat := fun _ => none

inductive Op where
  | create (p r : Nat)               -- publisher `p` creates its file and draws `r`
  | write (p : Nat) (d : List Nat)   -- publisher `p` sends
  | destroy (p : Nat)                -- publisher `p` is destroyed
  | crash (p : Nat)                  -- its process dies instead
  | attach (s p : Nat)               -- subscription `s` opens the file `p` has announced
  | read (s : Nat)                   -- subscription `s` reads
deriving DecidableEq, Repr

inductive Out where
  | none
  | failed                             -- the file is not there, or nobody of that number
  | got (d : Option (List Nat))
deriving DecidableEq, Repr

def put {α : Type} (f : Nat → α) (k : Nat) (v : α) : Nat → α := fun x => if x = k then v else f x

/-- `AllocFile` with `create_` (L48-56): a new file, or the one that is there. -/
def openOrCreate (s : Sys) (n : Name) : Sys × Nat :=
  match s.dir.find n with
  | some i => (s, i)
  | none => ({ s with dir := s.dir.set n s.next, next := s.next + 1 }, s.next)

/-- One operation; `Create` (memfile_sync L265-269) writes an empty header, here: no payload. -/
def step (s : Sys) : Op → Sys × Out
  | .create p r =>
    let n := slash (segName r)
    let x := openOrCreate s n
    ({ x.1 with content := put x.1.content x.2 none, pubs := put x.1.pubs p (some (n, x.2)) }, .none)
  | .write p d =>
    match s.pubs p with
    | some (_, i) => ({ s with content := put s.content i (some d) }, .none)
    | none => (s, .failed)
  | .destroy p =>
    match s.pubs p with
    | some (n, _) => ({ s with dir := s.dir.erase n, pubs := put s.pubs p none }, .none)
    | none => (s, .failed)
  | .crash p => ({ s with pubs := put s.pubs p none }, .none)
  | .attach c p =>
    match s.pubs p with
    | some (n, _) =>
      match s.dir.find n with
      | some i => ({ s with subs := put s.subs c (some i) }, .none)
      | none => (s, .failed)
    | none => (s, .failed)
  | .read c =>
    match s.subs c with
    | some i => (s, .got (s.content i))
    | none => (s, .failed)

def run (s : Sys) : List Op → Sys
  | [] => s
  | o :: os => run (step s o).1 os

end Ecal.Shm.Names
