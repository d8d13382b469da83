import Verif.Shm.MemFile

/-!
# The observer of one shared memory channel

Code modelled: `/repo/ecal/core/src/io/shm/ecal_memfile_pool.cpp`: `CMemFileObserver::Observe` L150-294,
`ReadFileHeader` L296-317; restart by `CMemFileThreadPool::ObserveFile` L368-409 (a new thread starts
with a fresh `Observe`, L153-159).

One step is one turn of the loop.  The environment supplies whether the update event was set (a wait of
20 ms, spurious or missing signals included), whether the lock was obtained within 5 ms and what the
segment contains then.  Simplifications: end of the loop (timeout, stop) is just the end of the trace; the
user header is given decoded, `none` when `ReadFileHeader` cannot read it (the code then continues with
the default header, whose clock is 0).
-/

namespace Ecal.Shm.Observer

open Ecal.Shm

/-- `SMemFileHeader` (the fields that matter here). -/
structure Hdr where
  len      : Nat         -- `hdr_size`
  dataSize : Nat
  clock    : Nat
  zeroCopy : Bool
  ack      : Bool        -- `ack_timout_ms != 0`
deriving DecidableEq, Repr

/-- What is found under the lock. -/
structure View where
  hdr : Option Hdr
  f   : File
deriving DecidableEq, Repr

structure Forwarded where
  clock : Nat
  data  : List Byte
deriving DecidableEq, Repr

structure State where
  last    : Nat := 0               -- `last_sample_clock`
  pending : Bool := false          -- `has_unprocessed_data`
  buf     : List Byte := []        -- `receive_buffer`
  out     : List Forwarded := []
  acks    : Nat := 0
deriving DecidableEq, Repr

/-- `std::vector::resize`. -/
def resize (buf : List Byte) (n : Nat) : List Byte := buf.take n ++ List.replicate (n - buf.length) 0

/-- The read handle after access has been granted. -/
def reader (f : File) : Handle := { access := .read, max := f.max, cur := f.cur }

/-- New content (L195-262). -/
def process (st : State) (h : Hdr) (f : File) : State :=
  let st := if h.zeroCopy then
      if h.dataSize > 0 then
        if canRead (reader f) h.dataSize then
          { st with out := st.out ++ [⟨h.clock, (f.data.drop h.len).take h.dataSize⟩] }
        else st
      else { st with out := st.out ++ [⟨h.clock, []⟩] }
    else
      let buf := resize st.buf h.dataSize
      let buf := if h.dataSize ≠ 0 then
          match read f (reader f) h.dataSize h.len with
          | some b => b
          | none => buf                     -- the result of `Read` is ignored
        else buf
      { st with buf := buf, out := st.out ++ [⟨h.clock, buf⟩] }
  { st with last := h.clock, acks := if h.ack then st.acks + 1 else st.acks }

/-- One turn of the loop. -/
def cycle (st : State) (signal : Bool) (access : Option View) : State :=
  let st := if st.pending then st else { st with pending := signal }
  if st.pending then
    match access with
    | none => st
    | some v =>
      let st := { st with pending := false }
      match v.hdr with
      | none => st                           -- clock 0 is never newer
      | some h => if h.clock ≤ st.last then st else process st h v.f
  else st

inductive Step where
  | cycle (signal : Bool) (access : Option View)
  | restart                                  -- the thread ended and is started again
deriving DecidableEq, Repr

def step (st : State) : Step → State
  | .cycle s a => cycle st s a
  | .restart => { st with last := 0, pending := false, buf := [] }

def run (st : State) (steps : List Step) : State := steps.foldl step st

end Ecal.Shm.Observer
