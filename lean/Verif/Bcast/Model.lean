import Verif.Ring.Model
import Verif.Common.AMap

/-!
# Registration broadcast over shared memory

`CMemoryFileBroadcast` (core/src/registration/shm/ecal_memfile_broadcast.cpp): one memory
file with a header and an event ring, shared by all processes of a host.  Every access to
the file happens under its inter-process lock, so each call is one atomic step.
-/

namespace Ecal.Bcast

open Ecal.Ring

/-- `eMemfileBroadcastEventType` (ecal_memfile_broadcast.h L55-62). -/
inductive EvType where
  | invalid | created | removed | updated
deriving Repr, DecidableEq

/-- `SMemfileBroadcastEvent` (ecal_memfile_broadcast.h L66-72). -/
structure Event where
  pid  : Nat
  ts   : Int
  id   : Nat
  type : EvType
deriving Repr, DecidableEq

/-- The shared file: `SMemfileBroadcastHeader::timestamp` (ecal_memfile_broadcast.cpp
L38-44), the ring behind it, and whether the file holds initialised data
(`CurDataSize() != 0`).  The version field and the offset are constants. -/
structure File where
  inited : Bool
  hdrTs  : Int
  ring   : Ring Event

/-- All processes of a host: the file and each process' `m_last_timestamp`. -/
structure Sys where
  cap  : Nat
  file : File
  last : Nat → Int

/-- `ResetMemfile` (L148-157) at clock value `now`: the header is default constructed, its
timestamp is the current time (L42).  `m_max_queue_size` is taken to be the same for all
processes (they share one configuration value). -/
def resetFile (cap : Nat) (now : Int) (f : File) : Option File :=
  match f.ring.reset cap with
  | .ok r => some { inited := true, hdrTs := now, ring := r }
  | _     => none

/-- Part of `Create` (L66-127) that touches the shared state: initialise the file if it is
not; the creator's `m_last_timestamp` is 0 (L63). -/
def create (s : Sys) (p : Nat) (now : Int) : Option Sys :=
  let last' := fun q => if q = p then 0 else s.last q
  if s.file.inited then some { s with last := last' }
  else (resetFile s.cap now s.file).map (fun f => { s with file := f, last := last' })

/-- `FlushLocalEventQueue` (L159-191): forget everything sent so far. -/
def flushLocal (s : Sys) (p : Nat) : Sys :=
  if s.file.inited then
    { s with last := fun q => if q = p then s.file.hdrTs else s.last q }
  else s

/-- `FlushGlobalEventQueue` (L193-214). -/
def flushGlobal (s : Sys) (now : Int) : Option Sys :=
  (resetFile s.cap now s.file).map (fun f => { s with file := f })

/-- `SendEvent` (L216-247): reset an uninitialised file, push the event stamped with the
clock, remember the stamp in the header.  `none` is undefined behaviour of the ring.  The
two clock readings (reset, event) are the same `ts` here; only the later one is stored. -/
def sendEvent (s : Sys) (p : Nat) (ts : Int) (id : Nat) (ty : EvType) : Option Sys :=
  let f? := if s.file.inited then some s.file else resetFile s.cap ts s.file
  match f? with
  | none => none
  | some f =>
    match f.ring.push { pid := p, ts := ts, id := id, type := ty } with
    | .ok r => some { s with file := { f with ring := r, hdrTs := ts } }
    | _     => none

/-- The loop of `ReceiveEvents` (L284-292) over the events newest first. -/
def collect (p : Nat) (last thr : Int) (timeout : Int) (loopback : Bool) :
    List Event → List Event
  | [] => []
  | e :: es =>
    if (timeout ≠ 0 ∧ e.ts ≤ thr) ∨ e.ts ≤ last then []
    else if e.pid = p ∧ loopback = false then collect p last thr timeout loopback es
    else e :: collect p last thr timeout loopback es

/-- Result of `ReceiveEvents` (L250-297): `none` in the first component when it returns
false (file not initialised), else the events handed out. -/
def receiveEvents (s : Sys) (p : Nat) (now timeout : Int) (loopback : Bool) :
    Option (Option (List Event) × Sys) :=
  if s.file.inited then
    match s.file.ring.iterate with
    | none => none
    | some evs =>
      some (some (collect p (s.last p) (now - timeout * 1000) timeout loopback evs),
        { s with last := fun q => if q = p then s.file.hdrTs else s.last q })
  else some (none, s)

/-- Calls of the processes on the channel.  `crash` is the death of a process while it
holds the file's lock: the next process to lock the file finds the mutex recovered and sets
the data size to 0 (io/shm/ecal_memfile.cpp L357-398, `auto_sanitizing`). -/
inductive Op where
  | send (p : Nat) (ts : Int) (id : Nat) (ty : EvType)
  | poll (p : Nat) (now timeout : Int) (loopback : Bool)
  | flushLocal (p : Nat)
  | flushGlobal (now : Int)
  | crash
deriving Repr, DecidableEq

/-- One call; the output is the list of events a poll hands out (newest first). `none` is
undefined behaviour. -/
def step (s : Sys) : Op → Option (Sys × List Event)
  | .send p ts id ty => (sendEvent s p ts id ty).map (·, [])
  | .poll p now timeout lb =>
    (receiveEvents s p now timeout lb).map (fun r => (r.2, r.1.getD []))
  | .flushLocal p => some (flushLocal s p, [])
  | .flushGlobal now => (flushGlobal s now).map (·, [])
  | .crash => some ({ s with file := { s.file with inited := false } }, [])

/-- The freshly created channel of capacity `cap` (`Create` at time `t0`), no process has
polled yet.  `cells` is whatever the memory contained. -/
def init (cap : Nat) (t0 : Int) (cells : Nat → Event) : Sys :=
  { cap := cap,
    file := { inited := true, hdrTs := t0,
              ring := { maxSize := cap, front := 0, back := 0, size := 0, cells := cells } },
    last := fun _ => 0 }

/-- Events process `p` gets over a history, oldest poll first, and within a poll in send
order (each poll's list reversed). -/
def received (p : Nat) : Sys → List Op → Option (List Event)
  | _, [] => some []
  | s, op :: h =>
    match step s op with
    | none => none
    | some (s', out) =>
      let mine := match op with
        | .poll q _ _ _ => if q = p then out.reverse else []
        | _ => []
      (received p s' h).map (mine ++ ·)

/-- Run a history for its final state only. -/
def run : Sys → List Op → Option Sys
  | s, [] => some s
  | s, op :: h => (step s op).bind (fun r => run r.1 h)

/-! ### Reader on top: `CMemoryFileBroadcastReader::Read`
(core/src/registration/shm/ecal_memfile_broadcast_reader.cpp L52-125) -/

/-- The payload files that exist in the system: event id ↦ content. -/
abbrev Files := AMap Nat (List UInt8)

/-- Reader members: event ids in `m_payload_memfiles`, with the flag "the file was opened"
(an entry whose `Create` failed stays in the map, L66-81), and `m_broadcast_event_list`. -/
structure Reader where
  known : AMap Nat Bool
  evs   : List Event
deriving Repr

/-- One event of the loop (L62-123).  `handled` is `handled_event_ids`.  Result: reader,
handled ids, delivered messages (content, timestamp), result flag.
Simplification: an opened file stays readable (POSIX mapping) and reading yields the
current content `files`; `GetReadAccess` of an entry that was never opened fails. -/
def readEvent (files : Files) (st : Reader × List Nat × List (List UInt8 × Int) × Bool) (e : Event) :
    Reader × List Nat × List (List UInt8 × Int) × Bool :=
  let (rd, handled, msgs, ok) := st
  if e.id ∈ handled then st else
  let handled := e.id :: handled
  let isNew := (rd.known.find e.id).isNone
  let rd1 : Reader := if isNew then { rd with known := rd.known.set e.id false } else rd
  let canOpen := (files.find e.id).isSome
  if isNew && decide (e.type ≠ .removed) && !canOpen then
    (rd1, handled, msgs, false)                       -- L70-78: Create failed, continue
  else
    let rd2 : Reader := if isNew && decide (e.type ≠ .removed)
      then { rd1 with known := rd1.known.set e.id true } else rd1
    match e.type with
    | .updated =>
      match rd2.known.find e.id, files.find e.id with
      | some true, some c => (rd2, handled, msgs ++ [(c, e.ts)], ok)
      | _, _              => (rd2, handled, msgs, false)   -- L102-109
    | .removed => ({ rd2 with known := rd2.known.erase e.id }, handled, msgs, ok)
    | _ => (rd2, handled, msgs, ok)

/-- `Read` (L52-125).  `res` is the outcome of `ReceiveEvents`, whose result flag is
ignored (L58): when it fails the event list of the previous call is still in the member
and is processed again. Result: delivered messages and result flag. -/
def read (files : Files) (rd : Reader) (res : Option (List Event)) :
    Reader × List (List UInt8 × Int) × Bool :=
  let evs := res.getD rd.evs
  let r := evs.foldl (readEvent files) ({ rd with evs := evs }, [], [], true)
  (r.1, r.2.2.1, r.2.2.2)

/-- `CRegistrationReceiverSHM::Receive`
(core/src/registration/shm/ecal_registration_receiver_shm.cpp L71-88): the messages are
used only if `Read` returned true. -/
def receiverReceive (files : Files) (rd : Reader) (res : Option (List Event)) :
    Reader × List (List UInt8) :=
  let r := read files rd res
  (r.1, if r.2.2 then r.2.1.map Prod.fst else [])

end Ecal.Bcast
