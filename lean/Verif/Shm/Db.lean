import Verif.Common.AMap

/-!
# Reference counting of shared memory segments in one process

Code modelled: `/repo/ecal/core/src/io/shm/ecal_memfile_db.cpp`: `AddFile` L63-108, `RemoveFile`
L110-147, `CheckFileSize` L149-161; `/repo/ecal/core/src/io/shm/linux/ecal_memfile_os.cpp`: `MapFile`,
`UnMapFile`, `RemoveFile`, `CheckFileSize`; handles: `m_memfile_info` of `CMemoryFile` (a *copy* of the
entry, `/repo/ecal/core/src/io/shm/ecal_memfile.cpp` L88, L143, L386).

Names, handles and addresses are numbers; a mapping is a fresh address.  Simplifications: the operating
system calls succeed (a failing `AllocFile` leaves the map unchanged); sizes are already rounded up to
pages.
-/

namespace Ecal.Shm.Db

open Ecal

/-- `SMemFileInfo`. -/
structure Info where
  refcnt : Int
  remove : Bool
  addr   : Nat
  size   : Nat
deriving DecidableEq, Repr

/-- The final release of a segment: its name and whether it was removed from the system. -/
structure Release where
  name    : Nat
  removed : Bool
deriving DecidableEq, Repr

structure State where
  entries  : AMap Nat Info := []
  handles  : AMap Nat (Nat × Info) := []   -- handle ↦ (name, private copy)
  next     : Nat := 0                      -- next fresh address
  mapped   : List Nat := []                -- live mappings
  unmapped : List Nat := []                -- addresses passed to `munmap`, oldest first
  releases : List Release := []
deriving Repr

inductive Step where
  | open (h name len : Nat)
  | close (h : Nat) (remove : Bool)
  | check (h len : Nat)                     -- `CheckFileSize` through handle `h`
deriving DecidableEq, Repr

/-- `os::CheckFileSize` on an existing mapping: remap if it is too small. -/
def osCheck (st : State) (i : Info) (len : Nat) : State × Info :=
  if len > i.size then
    ({ st with mapped := st.next :: st.mapped.filter (fun a => a != i.addr)
               unmapped := st.unmapped ++ [i.addr], next := st.next + 1 },
     { i with addr := st.next, size := len })
  else (st, i)

def addFile (st : State) (h name len : Nat) : State :=
  match st.entries.find name with
  | none =>
    let i : Info := { refcnt := 1, remove := false, addr := st.next, size := len }
    { st with entries := st.entries.set name i, handles := st.handles.set h (name, i),
              mapped := st.next :: st.mapped, next := st.next + 1 }
  | some i =>
    let (st, i) := osCheck st { i with refcnt := i.refcnt + 1 } len
    { st with entries := st.entries.set name i, handles := st.handles.set h (name, i) }

def removeFile (st : State) (name : Nat) (remove : Bool) : State :=
  match st.entries.find name with
  | none => st
  | some i =>
    let i := { i with refcnt := i.refcnt - 1, remove := i.remove || remove }
    if i.refcnt < 1 then
      { st with entries := st.entries.erase name
                mapped := st.mapped.filter (fun a => a != i.addr)
                unmapped := st.unmapped ++ [i.addr]
                releases := st.releases ++ [⟨name, i.remove⟩] }
    else { st with entries := st.entries.set name i }

def step (st : State) : Step → State
  | .open h name len =>
    match st.handles.find h with
    | some _ => st                          -- the handle is in use
    | none => addFile st h name len
  | .close h remove =>
    match st.handles.find h with
    | none => st
    | some p => removeFile { st with handles := st.handles.erase h } p.1 remove
  | .check h len =>
    match st.handles.find h with
    | none => st
    | some p =>
      let r := osCheck st p.2 len
      { r.1 with entries := r.1.entries.set p.1 r.2, handles := r.1.handles.set h (p.1, r.2) }

def run (st : State) (steps : List Step) : State := steps.foldl step st

end Ecal.Shm.Db
