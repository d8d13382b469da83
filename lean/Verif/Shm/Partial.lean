/-!
# Writing a payload directly into the memory file (zero copy), completely or in part

Code modelled: `/repo/ecal/core/include/ecal/ecal_payload_writer.h` L76-115 (`WriteFull`, `WriteModified`,
`GetSize`); `/repo/ecal/core/src/io/shm/ecal_memfile.cpp` `WritePayload` L318-355 (`WriteFull` the first
time and when forced, `WriteModified` otherwise; the result of both is only printed) and `Create` L57-95
(`m_payload_initialized` is reset with a new file); `/repo/ecal/core/src/io/shm/ecal_memfile_sync.cpp`
`CheckSize` L115-137, `Write` L139-228, `Recreate` L305-330;
`/repo/ecal/core/src/readwrite/shm/ecal_writer_shm.cpp` `PrepareWrite` L62-75, `Write` L77-88 (several memory
files force the full write); `/repo/ecal/core/src/readwrite/ecal_writer.cpp` L233-245 (with zero copy the
application's payload object, otherwise a wrapped copy).

Simplifications: the header of a sample is left out (`Verif.Shm.MemFile`), so the capacity of a file is
that for the content; a new file is filled with zeros (a new name every time, `ftruncate`); the reserve
of a new file is an arbitrary function of the size; connections of processes are `Verif.Shm.Grow`.
-/

namespace Ecal.Shm.Partial

abbrev Byte := UInt8

/-- A payload object as the memory file sees it. `full` is what `WriteFull` writes (`none`: it returns
false and writes nothing), `patch` the single bytes `WriteModified` changes (`none`: not overridden, calls
`WriteFull`). `want` is what the application means to send. -/
structure Pl where
  len   : Nat
  full  : Option (List Byte)
  patch : Option (List (Nat × Byte))
  want  : List Byte
deriving DecidableEq, Repr

/-- Single bytes of a memory changed. -/
def applyPatch (mem : List Byte) (ps : List (Nat × Byte)) : List Byte :=
  ps.foldl (fun m p => m.set p.1 p.2) mem

/-- `memcpy` to the front of a memory. -/
def put (mem bs : List Byte) : List Byte := bs ++ mem.drop bs.length

/-- One memory file. -/
structure MFile where
  created : Bool := true
  mem     : List Byte            -- the mapped content area
  init    : Bool := false        -- `m_payload_initialized`
deriving DecidableEq, Repr

/-- `WriteFull` on the memory. -/
def full (p : Pl) (mem : List Byte) : List Byte × Bool :=
  match p.full with
  | none => (mem, false)
  | some bs => (put mem bs, true)

/-- `WriteModified` on the memory. -/
def modified (p : Pl) (mem : List Byte) : List Byte :=
  match p.patch with
  | none => (full p mem).1
  | some ps => applyPatch mem ps

/-- `WritePayload` (the length was checked against the capacity: `none` for 0 bytes written). -/
def writePayload (f : MFile) (p : Pl) (force : Bool) : Option MFile :=
  if f.mem.length < p.len then none
  else if !f.init || force then
    some { f with mem := (full p f.mem).1, init := if (full p f.mem).2 then true else f.init }
  else some { f with mem := modified p f.mem }

/-- A new file of the given capacity. -/
def fresh (n : Nat) : MFile := { mem := List.replicate n 0 }

/-- `Recreate`: a new file, or none at all. -/
def recreate (f : MFile) (n : Nat) (ok : Bool) : MFile :=
  if ok then fresh n else { f with created := false }

/-- What happens around one send. -/
structure Env where
  create1 : Bool := true
  lock1   : Bool := true
  create2 : Bool := true
  lock2   : Bool := true
deriving DecidableEq, Repr

/-- `CheckSize`. -/
def checkSize (reserve : Nat → Nat) (f : MFile) (len : Nat) (ok : Bool) : MFile :=
  if !f.created then f
  else if f.mem.length < len then recreate f (len + reserve len) ok
  else f

/-- The writing under the lock: the file and the content a reader finds, if it is told about it. -/
def writeLocked (f : MFile) (p : Pl) (force : Bool) : MFile × Option (List Byte) :=
  if p.len = 0 then (f, some [])
  else match writePayload f p force with
    | none => (f, none)
    | some f' => (f', some (f'.mem.take p.len))

/-- `CSyncMemoryFile::Write`. -/
def write (f : MFile) (p : Pl) (force : Bool) (e : Env) : MFile × Option (List Byte) :=
  if !f.created then (f, none)
  else if e.lock1 then writeLocked f p force
  else
    let f' := recreate f f.mem.length e.create2
    if f'.created && e.lock2 then writeLocked f' p force else (f', none)

/-- The shared memory writer: its files, and for every sample told to the readers the content they find
and the content that was meant. -/
structure Writer where
  files : List MFile
  idx   : Nat := 0
  out   : List (List Byte × List Byte) := []
deriving DecidableEq, Repr

/-- One send. Without any file the index is taken modulo 0 (undefined; see `Verif.Shm.Grow`); here nothing
happens. -/
def send (reserve : Nat → Nat) (w : Writer) (p : Pl) (e : Env) : Writer :=
  let i := w.idx % w.files.length
  match w.files[i]? with
  | none => w
  | some f =>
    let r := write (checkSize reserve f p.len e.create1) p (decide (1 < w.files.length)) e
    { files := w.files.set i r.1, idx := (i + 1) % w.files.length,
      out := match r.2 with
        | none => w.out
        | some seen => w.out ++ [(seen, p.want)] }

def run (reserve : Nat → Nat) (w : Writer) (h : List (Pl × Env)) : Writer :=
  h.foldl (fun w o => send reserve w o.1 o.2) w

/-- `CBufferPayloadWriter`: the wrapped copy of `Send(buf, len)`. -/
def buffer (bs : List Byte) : Pl := ⟨bs.length, some bs, none, bs⟩

end Ecal.Shm.Partial
