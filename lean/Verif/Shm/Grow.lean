/-!
# The memory files of one publisher: growing, recreation and announcement

Code modelled: `/repo/ecal/core/src/io/shm/ecal_memfile_sync.cpp`: `Connect` L51-91, `CheckSize` L115-138,
`Write` L140-228, `Create` L240-276, `Destroy` L278-303, `Recreate` L305-330, `DisconnectAll` L396-422;
`/repo/ecal/core/src/readwrite/shm/ecal_writer_shm.cpp`: constructor L35-45, `PrepareWrite` L62-75, `Write`
L77-88, `ApplySubscription` L90-103, `GetConnectionParameter` L105-112, `SetBufferCount` L114-162;
`/repo/ecal/core/src/readwrite/ecal_writer.cpp`: `CDataWriter::Write` L204-249 (the shared memory part:
`PrepareWrite` returning true registers the publisher again).

The environment supplies whether the creation of a memory file succeeds and whether the write access is
obtained.  Simplifications: a process connected to a file is its number (the two events are part of
`Verif.Shm.Ack`); the content is `Verif.Shm.MemFile`; a memory file name is the number of the creation
(`BuildRandomMemFileName` never repeats a name, so a new file has exactly the requested size); the
reserve `(size_t)((float)reserve/100 * (float)size)` is an arbitrary function of the size; the map order
of the processes is dropped.
-/

namespace Ecal.Shm.Grow

/-- The settings: `sizeof(SMemFileHeader)`, `memfile_min_size_bytes`, `memfile_reserve_percent`. -/
structure Cfg where
  hdr     : Nat
  minSize : Nat
  reserve : Nat → Nat

/-- `CSyncMemoryFile`. -/
structure SFile where
  created : Bool
  max     : Nat          -- `m_memfile.MaxDataSize()`
  conn    : List Nat     -- `m_event_handle_map`
  name    : Nat          -- `m_memfile_name`
deriving DecidableEq, Repr

/-- `Connect`. -/
def connect (f : SFile) (p : Nat) : SFile :=
  if !f.created then f
  else if p ∈ f.conn then f else { f with conn := f.conn ++ [p] }

/-- `Destroy`. -/
def destroy (f : SFile) : SFile :=
  if !f.created then f else { f with created := false, conn := [] }

/-- `Create`. -/
def create (c : Cfg) (f : SFile) (size fresh : Nat) (ok : Bool) : SFile × Bool :=
  if f.created then (f, false)
  else if !ok then ({ f with max := 0, name := fresh }, false)
  else ({ f with created := true, max := Nat.max (c.hdr + size) c.minSize, name := fresh }, true)

/-- `Recreate`. -/
def recreate (c : Cfg) (f : SFile) (size fresh : Nat) (ok : Bool) : SFile × Bool :=
  match create c (destroy f) size fresh ok with
  | (f', true) => (f.conn.foldl connect f', true)
  | (f', false) => (f', false)

/-- `CheckSize`. -/
def checkSize (c : Cfg) (f : SFile) (len fresh : Nat) (ok : Bool) : SFile × Bool :=
  if !f.created then (f, false)
  else if f.max < c.hdr + len then recreate c f (c.hdr + len + c.reserve len) fresh ok
  else (f, false)

/-- The writing of the two parts (L181-193): does everything fit? -/
def fits (c : Cfg) (f : SFile) (len : Nat) : Bool :=
  decide (0 < c.hdr ∧ c.hdr ≤ f.max) && (len == 0 || decide (c.hdr + len ≤ f.max))

/-- `Write`. -/
def write (c : Cfg) (f : SFile) (len fresh : Nat) (lock1 ok lock2 : Bool) : SFile × Bool :=
  if !f.created then (f, false)
  else if lock1 then (f, fits c f len)
  else match recreate c f f.max fresh ok with
    | (f', false) => (f', false)
    | (f', true) => if lock2 then (f', fits c f' len) else (f', false)

/-- `CDataWriterSHM`, with the names in the last registration of the publisher. -/
structure Writer where
  files     : List SFile
  idx       : Nat := 0
  fresh     : Nat := 0
  announced : List Nat := []
deriving DecidableEq, Repr

/-- What happens around one send. -/
structure Env where
  create1 : Bool := true     -- creation while checking the size
  lock1   : Bool := true
  create2 : Bool := true     -- creation after the failed lock
  lock2   : Bool := true
deriving DecidableEq, Repr

/-- `GetConnectionParameter`. -/
def names (files : List SFile) : List Nat := files.map (·.name)

/-- `SetBufferCount` as called by the constructor: the first failed creation clears the list
(the fallback to size `GetSize` never applies there). -/
def createFiles (c : Cfg) : List Bool → Nat → List SFile
  | oks, fresh =>
    if oks.all id then
      (List.range oks.length).map (fun i =>
        ⟨true, Nat.max (c.hdr + c.minSize) c.minSize, [], fresh + i⟩)
    else []

/-- The constructor; the publisher registers afterwards. -/
def init (c : Cfg) (oks : List Bool) : Writer :=
  let fs := createFiles c oks 0
  { files := fs, fresh := oks.length, announced := names fs }

/-- `ApplySubscription` of a process of this host. -/
def subscribe (w : Writer) (p : Nat) : Writer := { w with files := w.files.map (connect · p) }

/-- `RemoveSubscription`: the shared memory writer does not override the empty default of
`/repo/ecal/core/src/readwrite/ecal_writer_base.h` L46; `CSyncMemoryFile::Disconnect` is never called. -/
def unsubscribe (w : Writer) (_p : Nat) : Writer := w

/-- The periodic registration. -/
def register (w : Writer) : Writer := { w with announced := names w.files }

inductive Out where
  | ub                               -- division by zero
  | sent (w : Writer) (ok : Bool)
deriving DecidableEq, Repr

/-- The shared memory part of a send. -/
def send (c : Cfg) (w : Writer) (len : Nat) (e : Env) : Out :=
  if w.files.length = 0 then .ub
  else
    let i := w.idx % w.files.length
    match w.files[i]? with
    | none => .ub
    | some f =>
      let r := checkSize c f len w.fresh e.create1
      let w1 := { w with files := w.files.set i r.1, idx := i, fresh := w.fresh + 1 }
      let w1 := if r.2 then register w1 else w1
      let r2 := write c r.1 len w1.fresh e.lock1 e.create2 e.lock2
      .sent { w1 with files := w1.files.set i r2.1, idx := (i + 1) % w1.files.length,
                      fresh := w1.fresh + 1 } r2.2

inductive Op where
  | subscribe (p : Nat)
  | unsubscribe (p : Nat)
  | register
  | send (len : Nat) (e : Env)
deriving DecidableEq, Repr

def step (c : Cfg) (w : Writer) : Op → Out
  | .subscribe p => .sent (subscribe w p) true
  | .unsubscribe p => .sent (unsubscribe w p) true
  | .register => .sent (register w) true
  | .send len e => send c w len e

/-- A run: the final state and the results of all operations. -/
def run (c : Cfg) (w : Writer) : List Op → Option (Writer × List Bool)
  | [] => some (w, [])
  | o :: r =>
    match step c w o with
    | .ub => none
    | .sent w' ok => (run c w' r).map (fun x => (x.1, ok :: x.2))

end Ecal.Shm.Grow
