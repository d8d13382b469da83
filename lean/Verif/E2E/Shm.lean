import Verif.Writer.Model
import Verif.Shm.MemFile

/-!
# From `Send` to the subscriber over shared memory

Composition of the models of the publisher (`Ecal.Writer`), of memory files (`Ecal.Shm`) and of
the subscriber (`Ecal.Reader`), with the header bytes in between:
core/src/readwrite/shm/ecal_writer_shm.cpp L62-88, L114-162 (`CDataWriterSHM`),
core/src/io/shm/ecal_memfile_sync.cpp L115-275, L305-330 (`CSyncMemoryFile`),
core/src/io/shm/ecal_memfile_header.h (`SMemFileHeader`),
core/src/io/shm/ecal_memfile_pool.cpp L150-317 (`CMemFileObserver::Observe`, `ReadFileHeader`),
core/src/readwrite/shm/ecal_reader_shm.cpp L64-74.

The publisher's files and the observers of the subscribing process are arbitrary in number; a
file that is created anew has a new (random) name, here a new number.  Simplifications: what
happens under the lock is one step (a writer that dies inside is `Ecal.Shm.Torn`); creation of a
file succeeds; the end of an observer is just the end of its turns; the topic name and id an
observer passes on are those of the publisher (they come from its registration).
-/

namespace Ecal.E2E.Shm

open Ecal.Shm

abbrev Bytes := List UInt8

/-- `n` bytes of a number, little endian host. -/
def le : Nat → Nat → Bytes
  | 0, _ => []
  | n + 1, x => UInt8.ofNat (x % 256) :: le n (x / 256)

def unle : Bytes → Nat
  | [] => 0
  | b :: bs => b.toNat + 256 * unle bs

/-- `n` bytes of padding between members: indeterminate. -/
def pad (n : Nat) (junk : Bytes) : Bytes := (junk ++ List.replicate n 0).take n

/-- `SMemFileHeader`; `flags` is the byte with the bit `zero_copy` (bit 0). -/
structure Hdr where
  hdrSize  : Nat := 64
  dataSize : Nat := 0
  id       : Nat := 0
  clock    : Nat := 0
  time     : Nat := 0
  hash     : Nat := 0
  flags    : Nat := 0
  ack      : Nat := 0
deriving Repr, DecidableEq

/-- Memory image (64 bit, natural alignment): offsets 0, 8, 16, 24, 32, 40, 48, 56, size 64. -/
def Hdr.bytes (junk : Bytes × Bytes) (h : Hdr) : Bytes :=
  le 2 h.hdrSize ++ pad 6 junk.1 ++ le 8 h.dataSize ++ le 8 h.id ++ le 8 h.clock ++ le 8 h.time
    ++ le 8 h.hash ++ le 1 h.flags ++ pad 7 junk.2 ++ le 8 h.ack

def field (b : Bytes) (off n : Nat) : Nat := unle ((b.drop off).take n)

def ofBytes (b : Bytes) : Hdr :=
  { hdrSize := field b 0 2, dataSize := field b 8 8, id := field b 16 8, clock := field b 24 8,
    time := field b 32 8, hash := field b 40 8, flags := field b 48 1, ack := field b 56 8 }

/-- What a header object of the reader contains before anything is read into it. -/
def dflt : Bytes := Hdr.bytes ([], []) {}

/-- `m_memfile.Read(&hdr, n, 0)` into a header object: replaces the first `n` bytes, or nothing. -/
def readInto (f : File) (rd : Handle) (b : Bytes) (n : Nat) : Bytes :=
  match read f rd n 0 with
  | some x => x ++ b.drop n
  | none => b

/-- `ReadFileHeader` (ecal_memfile_pool.cpp L296-317). -/
def readHeader (f : File) (rd : Handle) : Hdr :=
  if rd.cur ≥ 2 then
    let b := readInto f rd dflt 2
    let n := min (field b 0 2) 64
    if n ≤ rd.cur then ofBytes (readInto f rd b n) else ofBytes b
  else ofBytes dflt

/-! ## The publisher's side -/

/-- One memory file: the segment and the publisher's handle. -/
structure Seg where
  f : File
  w : Handle
deriving Repr, DecidableEq

/-- `CSyncMemoryFile::Create` (L240-275): a segment of at least the minimal size with an empty
header. -/
def fresh (minSize size : Nat) (junk : Bytes × Bytes) : Seg :=
  let n := max (64 + size) minSize
  let b := Hdr.bytes junk {}
  { f := { max := n, cur := 64, data := overwrite (List.replicate n 0) 0 b },
    w := { max := n, cur := 64 } }

/-- Choices of the environment and configuration for one write. -/
structure WOpt where
  flags   : Bool := false                    -- zero_copy_mode
  ack     : Nat := 0                         -- acknowledge_timeout_ms (not negative)
  junk    : Bytes × Bytes := ([], [])        -- padding bytes of the headers written
  minSize : Nat := 0
  extra   : Nat := 0                         -- reserve, `CheckSize` L127
  refused : Nat := 0                         -- how often the lock is refused: 0, 1 (file created anew), 2 (given up)
deriving Repr, DecidableEq

/-- The header of a sample (`CSyncMemoryFile::Write` L156-171). -/
def hdrOf (s : Reader.Sample) (o : WOpt) : Hdr :=
  { dataSize := s.payload.length, id := (BitVec.ofInt 64 s.id).toNat,
    clock := (BitVec.ofInt 64 s.clock).toNat, time := (BitVec.ofInt 64 s.time).toNat,
    hash := s.hash, flags := if o.flags then 1 else 0, ack := o.ack }

/-- `CheckSize` (L115-137) and the locking part of `Write` (L173-195): the file that is written,
and whether it has been created anew. -/
def prepare (g : Seg) (len : Nat) (o : WOpt) : Seg × Bool :=
  let (g, new) := if g.w.max < 64 + len then (fresh o.minSize (64 + len + o.extra) o.junk, true) else (g, false)
  if o.refused = 0 then (g, new) else (fresh o.minSize g.w.max o.junk, true)

/-- The content part of `Write` (L197-210). -/
def put (g : Seg) (s : Reader.Sample) (p : Payload) (o : WOpt) (force : Bool) : Seg :=
  let (f, w, _) := getWriteAccess g.f g.w .granted
  let (f, w, _) := writeSample f w ((hdrOf s o).bytes o.junk) p s.payload.length force
  { f, w }

/-! ## The subscriber's side -/

/-- Locals of `Observe` (L153-159). -/
structure Ob where
  last    : Nat := 0
  pending : Bool := false
  buf     : Bytes := []
deriving Repr, DecidableEq

def resize (buf : Bytes) (n : Nat) : Bytes := buf.take n ++ List.replicate (n - buf.length) 0

/-- The arguments of the data callback, with topic id `tid`. -/
def sampleOf (tid : String) (h : Hdr) (data : Bytes) : Reader.Sample :=
  { tid, payload := data, id := (BitVec.ofNat 64 h.id).toInt, clock := (BitVec.ofNat 64 h.clock).toInt,
    time := (BitVec.ofNat 64 h.time).toInt, hash := h.hash, layer := .shm }

/-- New content (L200-275). -/
def process (tid : String) (o : Ob) (h : Hdr) (f : File) (rd : Handle) : Ob × Option Reader.Sample :=
  let o' := { o with last := h.clock }
  if h.flags % 2 = 1 then
    if h.dataSize > 0 then
      if canRead rd h.dataSize then
        (o', some (sampleOf tid h ((f.data.drop h.hdrSize).take h.dataSize)))
      else (o', none)
    else (o', some (sampleOf tid h []))
  else
    let buf := resize o.buf h.dataSize
    let buf := if h.dataSize ≠ 0 then (read f rd h.dataSize h.hdrSize).getD buf else buf
    ({ o' with buf := buf }, some (sampleOf tid h buf))

/-- One turn of the loop (L162-278): was the event signalled, was the lock obtained. -/
def turn (tid : String) (o : Ob) (signal access : Bool) (f : File) : Ob × Option Reader.Sample :=
  let o := if o.pending then o else { o with pending := signal }
  if o.pending && access then
    let rd : Handle := { access := .read, max := f.max, cur := f.cur }
    let o := { o with pending := false }
    let h := readHeader f rd
    if h.clock ≤ o.last then (o, none) else process tid o h f rd
  else (o, none)

/-! ## Together -/

structure Sys where
  segs : List Seg := []                 -- every file created so far; its number is its position
  vec  : List Nat := []                 -- m_memory_file_vec
  idx  : Nat := 0                       -- m_write_idx
  obs  : Nat → Ob := fun _ => {}        -- the observers of the subscribing process
  rd   : Reader.State := Reader.init
  evs  : List Reader.Ev := []

inductive In where
  | buffers (n minSize : Nat) (junk : Bytes × Bytes)            -- SetBufferCount
  | write (s : Reader.Sample) (p : Payload) (o : WOpt)          -- PrepareWrite, Write
  | turn (k : Nat) (signal access : Bool)                       -- an observer's turn
  | restart (k : Nat)                                           -- its thread is started anew
  | app (op : Reader.Op)                                        -- a call on the subscriber

def feed (rc : Reader.Config) (y : Sys) (op : Reader.Op) : Sys :=
  let x := Reader.step rc y.rd op
  { y with rd := x.1, evs := y.evs ++ x.2 }

/-- `none`: undefined behaviour (no memory file). -/
def step (tid : String) (rc : Reader.Config) (y : Sys) : In → Option Sys
  | .buffers n minSize junk =>
    if n = 0 then some y                               -- refused
    else if y.vec.length = n then some y               -- nothing to do
    else some { y with segs := y.segs ++ List.replicate n (fresh minSize minSize junk),
                       vec := List.range' y.segs.length n }
  | .write s p o =>
    match y.vec[y.idx % y.vec.length]? with
    | none => none
    | some k =>
      match y.segs[k]? with
      | none => none
      | some g =>
        let i := y.idx % y.vec.length
        let (g', new) := prepare g s.payload.length o
        let g'' := if o.refused ≥ 2 then g' else put g' s p o (decide (y.vec.length > 1))
        if new then some { y with segs := y.segs ++ [g''], vec := y.vec.set i y.segs.length,
                                  idx := (i + 1) % y.vec.length }
        else some { y with segs := y.segs.set k g'', idx := (i + 1) % y.vec.length }
  | .turn k signal access =>
    match y.segs[k]? with
    | none => some y
    | some g =>
      let r := turn tid (y.obs k) signal access g.f
      let y := { y with obs := fun j => if j = k then r.1 else y.obs j }
      match r.2 with
      | none => some y
      | some s => some (feed rc y (.sample s))
  | .restart k => some { y with obs := fun j => if j = k then {} else y.obs j }
  | .app op => some (feed rc y op)

def run (tid : String) (rc : Reader.Config) : Sys → List In → Option Sys
  | y, [] => some y
  | y, i :: is => match step tid rc y i with
    | none => none
    | some y' => run tid rc y' is

end Ecal.E2E.Shm
