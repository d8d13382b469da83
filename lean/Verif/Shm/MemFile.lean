/-!
# Shared memory files

Code modelled: `/repo/ecal/core/src/io/shm/ecal_memfile.cpp`: `GetReadAccess` L190-202,
`ReleaseReadAccess` L204-216, `GetReadAddress` L218-230, `Read` L232-249, `GetWriteAccess` L251-263,
`ReleaseWriteAccess` L265-277, `GetWriteAddress` L279-296, `WriteBuffer` L298-316, `WritePayload`
L318-355, `GetAccess` L357-398; `/repo/ecal/core/src/io/shm/ecal_memfile_sync.cpp`: `CheckSize` L115-137,
`Write` L139-228, `Create` L240-275, `Recreate` L305-330.

The shared segment is `File` (internal header and payload area); `Handle` is the process-local
`CMemoryFile` object with its private copy of the header.  Simplifications: the internal header size is
that of this version (all processes use the same one); the mapping covers the whole segment (the
remapping in `GetAccess` L381-396 is part of `Verif.Shm.Db`); the lock is an input (`LockResult`), the
lock itself is `Verif.Sync.Mutex`.
-/

namespace Ecal.Shm

abbrev Byte := UInt8

/-- The shared segment: `SInternalHeader` and the payload area. -/
structure File where
  max  : Nat
  cur  : Nat
  data : List Byte
deriving DecidableEq, Repr

/-- The payload area has the announced size and the current content fits. -/
def File.Ok (f : File) : Prop := f.data.length = f.max ∧ f.cur ≤ f.max

inductive Access where
  | closed | read | write
deriving DecidableEq, Repr

/-- `CMemoryFile`: `max`/`cur` are the private header copy `m_header`. -/
structure Handle where
  created     : Bool := true
  sanitize    : Bool := false
  payloadInit : Bool := false
  access      : Access := .closed
  max         : Nat := 0
  cur         : Nat := 0
deriving DecidableEq, Repr

inductive LockResult where
  | refused | granted | recovered
deriving DecidableEq, Repr

/-- `GetAccess`. -/
def getAccess (f : File) (h : Handle) (lock : LockResult) : File × Handle × Bool :=
  if !h.created then (f, h, false)
  else match lock with
    | .refused => (f, h, false)
    | .granted => (f, { h with max := f.max, cur := f.cur }, true)
    | .recovered =>
      if h.sanitize then
        -- the private header, with size 0, overwrites the shared one
        ({ f with cur := 0, max := h.max }, { h with cur := 0 }, true)
      else (f, { h with max := f.max, cur := f.cur }, true)

def getReadAccess (f : File) (h : Handle) (lock : LockResult) : File × Handle × Bool :=
  let (f, h, ok) := getAccess f h lock
  if ok then (f, { h with access := .read }, true) else (f, h, false)

def getWriteAccess (f : File) (h : Handle) (lock : LockResult) : File × Handle × Bool :=
  let (f, h, ok) := getAccess f h lock
  if ok then (f, { h with access := .write }, true) else (f, h, false)

def release (h : Handle) : Handle := { h with access := .closed }

/-- `GetReadAddress`: may `len` bytes be read? -/
def canRead (h : Handle) (len : Nat) : Bool :=
  h.created && h.access == .read && len != 0 && decide (len ≤ h.cur)

/-- `Read`: the bytes copied out. -/
def read (f : File) (h : Handle) (len off : Nat) : Option (List Byte) :=
  if canRead h (len + off) then some ((f.data.drop off).take len) else none

/-- `GetWriteAddress`. -/
def canWrite (h : Handle) (len : Nat) : Bool :=
  h.created && h.access == .write && len != 0 && decide (len ≤ h.max)

/-- Overwrite the bytes from `off` on. -/
def overwrite (data : List Byte) (off : Nat) (bytes : List Byte) : List Byte :=
  data.take off ++ bytes ++ data.drop (off + bytes.length)

/-- `WriteBuffer`. -/
def writeBuffer (f : File) (h : Handle) (bytes : List Byte) (off : Nat) : File × Handle × Nat :=
  if canWrite h (bytes.length + off) then
    ({ f with cur := bytes.length + off, data := overwrite f.data off bytes },
     { h with cur := bytes.length + off }, bytes.length)
  else (f, h, 0)

/-- `CPayloadWriter`: both calls get the target region and return its new content and success. -/
structure Payload where
  full     : List Byte → List Byte × Bool
  modified : List Byte → List Byte × Bool

/-- The region of `len` bytes at `off`. -/
def region (f : File) (off len : Nat) : List Byte := (f.data.drop off).take len

/-- `WritePayload`. -/
def writePayload (f : File) (h : Handle) (p : Payload) (len off : Nat) (force : Bool) :
    File × Handle × Nat :=
  if canWrite h (len + off) then
    let r := region f off len
    if !h.payloadInit || force then
      let out := p.full r
      ({ f with cur := len + off, data := overwrite f.data off out.1 },
       { h with cur := len + off, payloadInit := if out.2 then true else h.payloadInit }, len)
    else
      let out := p.modified r
      ({ f with cur := len + off, data := overwrite f.data off out.1 },
       { h with cur := len + off }, len)
  else (f, h, 0)

/-- The content part of `CSyncMemoryFile::Write` L181-198 (write access has been obtained). -/
def writeSample (f : File) (h : Handle) (hdr : List Byte) (p : Payload) (len : Nat) (force : Bool) :
    File × Handle × Bool :=
  let (f, h, n) := writeBuffer f h hdr 0
  let ok := decide (n > 0)
  if len > 0 then
    let (f, h, m) := writePayload f h p len hdr.length force
    (f, release h, ok && decide (m > 0))
  else (f, release h, ok)

/-- `CheckSize` L115-137 and the part of `Recreate`/`Create` that concerns the content: a larger
segment, initialised with an empty header; `extra` is the reserve (computed with floating point in
the code; any value here). -/
def checkSize (f : File) (h : Handle) (emptyHdr : List Byte) (len extra : Nat) : File × Handle :=
  if h.max < emptyHdr.length + len then
    let size := emptyHdr.length + len + extra
    ({ max := size, cur := emptyHdr.length,
       data := overwrite (List.replicate size 0) 0 emptyHdr },
     { created := true, sanitize := false, payloadInit := false, access := .closed, max := size,
       cur := emptyHdr.length })
  else (f, h)

end Ecal.Shm
