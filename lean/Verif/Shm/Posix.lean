/-!
# Shared memory segments and the operating system

Code modelled:
* `/repo/ecal/core/src/io/shm/linux/ecal_memfile_os.cpp`: `AllocFile` L44-81, `DeAllocFile` L83-95,
  `RemoveFile` L97-101, `MapFile` L103-130, `UnMapFile` L132-142, `CheckFileSize` L144-185;
* `/repo/ecal/core/src/io/shm/ecal_memfile_db.cpp`: `AddFile` L63-108 and `RemoveFile` L110-147 for the
  first and only user of a name in a process, `CheckFileSize` L149-161;
* `/repo/ecal/core/src/io/shm/ecal_memfile.cpp`: `Create` L57-158, `Destroy` L160-188, `GetReadAddress`
  L218-230, `GetWriteAddress` L279-296 together with the copying of the caller, `GetAccess` L357-398,
  `ReleaseReadAccess` L204-216, `ReleaseWriteAccess` L265-277.

The kernel keeps files (`Inode`), their names, the open descriptors and the mappings.  A file that was
removed by name lives on for those who have it open.  Access to a mapping is checked as the hardware and
the kernel do it: by pages, `SIGSEGV` outside the mapping, through a null pointer, or for a write to a
read-only mapping; `SIGBUS` inside the mapping but behind the last page of the file.

Every user stands for one process (several users of a name in one process share the entry of the
process: C21).  Every system call is one step, so the calls of different processes interleave in any
way; which call fails and which descriptor number is given is chosen by the environment.

Simplifications: only the size and the internal header of a file are modelled, not its payload (C18);
headers of other library versions (an `int_hdr_size` other than 0 or the own one) do not occur; the named
mutex is left out, so there are more interleavings than in reality (the witnesses of violations do not
use the additional ones), and the path of recovering it (`WasRecovered`, C19, C47) is left out; a
system call of the removal does not fail.
-/

namespace Ecal.Shm.Posix

/-- Page size (`sysconf(_SC_PAGE_SIZE)`) and `sizeof(SInternalHeader)`
(`/repo/ecal/core/src/io/shm/ecal_memfile.h` L187-205). -/
structure Cfg where
  page : Nat
  hdr  : Nat
deriving Repr, DecidableEq

/-- The internal header at the beginning of a file, and the private copy of it (`m_header`). -/
structure Hdr where
  hsize : Nat
  max   : Nat
  cur   : Nat
deriving Repr, DecidableEq

/-- A file.  A fresh or extended file reads as zeros. -/
structure Inode where
  size : Nat := 0
  hdr  : Hdr := ⟨0, 0, 0⟩
deriving Repr, DecidableEq

structure Mapping where
  len      : Nat
  writable : Bool
deriving Repr, DecidableEq

/-- How far `CMemoryFile::Create` has come. -/
inductive Phase where
  | alloced | sized | mapped | ready
  | failed    -- the mutex could not be created: `m_created` is false, the entry of the map stays
deriving Repr, DecidableEq

/-- A `CMemoryFile` with its `SMemFileInfo` (`/repo/ecal/core/src/io/shm/ecal_memfile_info.h` L50-60). -/
structure Obj where
  phase   : Phase
  create  : Bool
  len     : Nat               -- `len_` of `Create`
  name    : Nat
  fd      : Nat
  ino     : Nat               -- the file behind the descriptor
  existed : Bool
  size    : Nat := 0
  map     : Option Mapping := none
  hdr     : Hdr
  acc     : Option Bool := none   -- `m_access_state`: `some true` is write access
deriving Repr, DecidableEq

structure Kern where
  names  : Nat → Option Nat := fun _ => none
  inodes : Nat → Inode := fun _ => {}
  next   : Nat := 0
  objs   : Nat → Option Obj := fun _ => none
  fds    : List (Nat × Nat) := []    -- open descriptors: (process, number)
  maps   : List (Nat × Nat) := []    -- mappings: (process, length)
  log    : List (Nat × Nat) := []    -- results of reading and writing: (user, bytes)

inductive Crash where
  | segv | sigbus
deriving Repr, DecidableEq

inductive Step where
  | alloc (u name : Nat) (create : Bool) (len fd : Nat) (ok : Bool)   -- `shm_open`
  | size (u : Nat) (ok : Bool)                                        -- `ftruncate`
  | map (u : Nat) (ok : Bool)                                         -- `mmap`
  | header (u : Nat) (mutex lock : Bool)                              -- rest of `Create`
  | access (u : Nat) (write ok : Bool)                                -- `GetReadAccess`, `GetWriteAccess`
  | read (u n : Nat)                                                  -- `GetReadAddress` and reading
  | write (u n : Nat)                                                 -- `GetWriteAddress` and writing
  | release (u : Nat)                                                 -- `ReleaseReadAccess`, …
  | destroy (u : Nat) (remove : Bool)                                 -- `Destroy`
deriving Repr, DecidableEq

def upd {α : Type} (f : Nat → α) (k : Nat) (v : α) : Nat → α := fun x => if x = k then v else f x

/-- Rounding up to whole pages: what the kernel really maps, and what of a file can be touched. -/
def pages (c : Cfg) (n : Nat) : Nat := (n + c.page - 1) / c.page * c.page

/-- The length `CheckFileSize` works with (L148-152): at least a page. -/
def atLeastPage (c : Cfg) (n : Nat) : Nat := if n < c.page then c.page else n

/-- The length handed to `AddFile` (`ecal_memfile.cpp` L88); `SIZEOF_PARTIAL_STRUCT` is 2. -/
def wanted (c : Cfg) (o : Obj) : Nat := if o.create then o.len + c.hdr else 2

/-- Touching `n` bytes from offset `off` through the mapping of `o`. -/
def touch (c : Cfg) (k : Kern) (o : Obj) (off n : Nat) (write : Bool) : Option Crash :=
  match o.map with
  | none => some .segv
  | some m =>
    if write && !m.writable then some .segv
    else if pages c m.len < off + n then some .segv
    else if pages c (k.inodes o.ino).size < off + n then some .sigbus
    else none

def setObj (k : Kern) (u : Nat) (o : Obj) : Kern := { k with objs := upd k.objs u (some o) }

def setInode (k : Kern) (i : Nat) (f : Inode) : Kern := { k with inodes := upd k.inodes i f }

/-- `AllocFile` (L44-81). -/
def doAlloc (c : Cfg) (k : Kern) (u name : Nat) (create : Bool) (len fd : Nat) (ok : Bool) : Kern :=
  match k.objs u with
  | some _ => k
  | none =>
    if !ok then k
    else match k.names name with
      | some i =>
        { setObj k u { phase := .alloced, create := create, len := len, name := name, fd := fd, ino := i, existed := true, hdr := ⟨c.hdr, 0, 0⟩ }
          with fds := (u, fd) :: k.fds }
      | none =>
        if create then
          { setObj k u { phase := .alloced, create := create, len := len, name := name, fd := fd, ino := k.next, existed := false, hdr := ⟨c.hdr, 0, 0⟩ }
            with fds := (u, fd) :: k.fds, names := upd k.names name (some k.next)
                 inodes := upd k.inodes k.next {}, next := k.next + 1 }
        else k

/-- `CheckFileSize` up to `ftruncate` (L144-160, L107-114): nothing at all for descriptor 0. -/
def doSize (c : Cfg) (k : Kern) (u : Nat) (o : Obj) (ok : Bool) : Kern :=
  if o.fd = 0 then setObj k u { o with phase := .sized }
  else
    let s := atLeastPage c (wanted c o)
    let k' := setObj k u { o with phase := .sized, size := s }
    if o.create && ok then setInode k' o.ino { k.inodes o.ino with size := s } else k'

/-- `mmap` in `MapFile` (L117-126); the result of `CheckFileSize` is ignored by `AddFile` (L85). -/
def doMap (k : Kern) (u : Nat) (o : Obj) (ok : Bool) : Kern :=
  if o.fd = 0 ∨ !ok then setObj k u { o with phase := .mapped }
  else
    { setObj k u { o with phase := .mapped, map := some ⟨o.size, o.create⟩ } with maps := (u, o.size) :: k.maps }

/-- `memcpy(&m_header, address, min(sizeof, n))` where `n` is 0 or the size of the header. -/
def copyHdr (old file : Hdr) (n : Nat) : Hdr := if n = 0 then old else file

/-- `Create` after `AddFile` (`ecal_memfile.cpp` L97-157). -/
def doHeader (c : Cfg) (k : Kern) (u : Nat) (o : Obj) (mutex lock : Bool) : Except Crash Kern :=
  if !mutex then .ok (setObj k u { o with phase := .failed })
  else if o.create then
    let o := { o with phase := .ready, hdr := { o.hdr with max := o.len } }
    if !lock ∨ o.map = none then .ok (setObj k u o)
    else match touch c k o 0 c.hdr false with
      | some e => .error e
      | none =>
        let f := k.inodes o.ino
        if !o.existed ∨ f.hdr.hsize = 0 then
          match touch c k o 0 c.hdr true with
          | some e => .error e
          | none => .ok (setInode (setObj k u o) o.ino { f with hdr := o.hdr })
        else .ok (setObj k u { o with hdr := copyHdr o.hdr f.hdr f.hdr.hsize })
  else
    let o := { o with phase := .ready }
    if !lock then .ok (setObj k u o)
    else match touch c k o 0 2 false with
      | some e => .error e
      | none =>
        let f := k.inodes o.ino
        match touch c k o 0 f.hdr.hsize false with
        | some e => .error e
        | none => .ok (setObj k u { o with hdr := copyHdr o.hdr f.hdr f.hdr.hsize })

/-- `GetAccess` (`ecal_memfile.cpp` L357-398) with the mutex free; a mapping that is too short is
replaced by one that is not writable (`ecal_memfile_db.cpp` L152). -/
def doAccess (c : Cfg) (k : Kern) (u : Nat) (o : Obj) (write ok : Bool) : Except Crash Kern :=
  if o.phase ≠ .ready ∨ o.map = none then .ok k
  else match touch c k o 0 o.hdr.hsize false with
    | some e => .error e
    | none =>
      let h := copyHdr o.hdr (k.inodes o.ino).hdr o.hdr.hsize
      let o := { o with hdr := h, acc := some write }
      if h.hsize + h.max ≤ o.size then .ok (setObj k u o)
      else
        let s := atLeastPage c (h.hsize + h.max)
        let k := { k with maps := k.maps.erase (u, o.size) }
        if ok then .ok { setObj k u { o with size := s, map := some ⟨s, false⟩ } with maps := (u, s) :: k.maps }
        else .ok (setObj k u { o with size := s, map := none })

def result (k : Kern) (u n : Nat) : Kern := { k with log := k.log ++ [(u, n)] }

/-- `GetReadAddress` for `n` bytes, and reading them. -/
def doRead (c : Cfg) (k : Kern) (u n : Nat) (o : Obj) : Except Crash Kern :=
  if o.phase ≠ .ready ∨ o.acc ≠ some false ∨ n = 0 ∨ o.hdr.cur < n ∨ o.map = none then .ok (result k u 0)
  else match touch c k o o.hdr.hsize n false with
    | some e => .error e
    | none => .ok (result k u n)

/-- `GetWriteAddress` for `n` bytes, and writing them. -/
def doWrite (c : Cfg) (k : Kern) (u n : Nat) (o : Obj) : Except Crash Kern :=
  if o.phase ≠ .ready ∨ o.acc ≠ some true ∨ n = 0 ∨ o.hdr.max < n ∨ o.map = none then .ok (result k u 0)
  else match touch c k o 0 c.hdr true with
    | some e => .error e
    | none =>
      match touch c k o o.hdr.hsize n true with
      | some e => .error e
      | none =>
        let f := k.inodes o.ino
        let k := setObj k u { o with hdr := { o.hdr with cur := n } }
        .ok (result (setInode k o.ino { f with hdr := { f.hdr with cur := n } }) u n)

/-- `Destroy`: `UnMapFile`, `RemoveFile` and `DeAllocFile` (descriptor 0 is not closed). -/
def doDestroy (k : Kern) (u : Nat) (remove : Bool) (o : Obj) : Kern :=
  if o.phase ≠ .ready then k
  else
    { k with
      objs := upd k.objs u none
      maps := match o.map with | none => k.maps | some _ => k.maps.erase (u, o.size)
      names := if remove then upd k.names o.name none else k.names
      fds := if o.fd = 0 then k.fds else k.fds.erase (u, o.fd) }

def step (c : Cfg) (k : Kern) : Step → Except Crash Kern
  | .alloc u name create len fd ok => .ok (doAlloc c k u name create len fd ok)
  | .size u ok =>
    match k.objs u with
    | none => .ok k
    | some o => if o.phase = .alloced then .ok (doSize c k u o ok) else .ok k
  | .map u ok =>
    match k.objs u with
    | none => .ok k
    | some o => if o.phase = .sized then .ok (doMap k u o ok) else .ok k
  | .header u mutex lock =>
    match k.objs u with
    | none => .ok k
    | some o => if o.phase = .mapped then doHeader c k u o mutex lock else .ok k
  | .access u write ok =>
    match k.objs u with
    | none => .ok k
    | some o => doAccess c k u o write ok
  | .read u n =>
    match k.objs u with
    | none => .ok (result k u 0)
    | some o => doRead c k u n o
  | .write u n =>
    match k.objs u with
    | none => .ok (result k u 0)
    | some o => doWrite c k u n o
  | .release u =>
    match k.objs u with
    | none => .ok k
    | some o => .ok (setObj k u { o with acc := none })
  | .destroy u remove =>
    match k.objs u with
    | none => .ok k
    | some o => .ok (doDestroy k u remove o)

def run (c : Cfg) (k : Kern) : List Step → Except Crash Kern
  | [] => .ok k
  | s :: ss =>
    match step c k s with
    | .error e => .error e
    | .ok k' => run c k' ss

end Ecal.Shm.Posix
