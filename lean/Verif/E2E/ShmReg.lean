import Verif.E2E.Disc
import Verif.Bcast.Model

/-!
# Registration over shared memory, from one process to another

Composition of the models of the registration thread and the gates (`Ecal.E2E.Disc`), the serialisation of
sample lists (`Ecal.Wire`) and the broadcast channel (`Ecal.Bcast`) with the writer and the reader of the
payload files: the processes of one host that announce their publishers and subscribers over shared memory
(core/src/registration/shm/ecal_registration_sender_shm.cpp, ecal_memfile_broadcast_writer.cpp,
ecal_memfile_broadcast_reader.cpp, ecal_registration_receiver_shm.cpp).

The steps are the accesses to shared objects: every access to the broadcast file or to a payload file is one
step, because it happens under the lock of that file; steps of different processes interleave freely.  Opening
a payload file and reading it are one step: a file that is removed in between keeps the content it had.
A process that dies is one that takes no further steps.

Simplifications: a payload file is known by its event id, and an id that was removed is not used again (ids
are clock values in nanoseconds); the content of a removed file stays readable for those who have it open
(POSIX); undefined behaviour of the event ring is left out (it does not occur: C03, C04).
-/

namespace Ecal.E2E.ShmReg

open Ecal.Wire (RegSample RTopic)
open Ecal.E2E.Disc (Proc PSt World)
open Ecal.Bcast (Event EvType Sys Reader)

/-- Where `CMemoryFileBroadcastWriter::Write` is (ecal_memfile_broadcast_writer.cpp L53-93). -/
inductive Pc where
  | idle
  | gone (d : Bytes) (new : Nat)       -- new file created, before `SendEvent(…, EVENT_REMOVED)` (L68)
  | destroy (d : Bytes) (new : Nat)    -- before `Destroy` of the old file (L69)
  | created (d : Bytes)                -- before `SendEvent(…, EVENT_CREATED)` (L72)
  | access (d : Bytes)                 -- before `GetWriteAccess` (L76)
  | notify                             -- before `SendEvent(…, EVENT_UPDATED)` (L80)
deriving Repr, DecidableEq

/-- A bound writer: `m_event_id`, `MaxDataSize` of the payload file, `m_reset`. -/
structure Wr where
  id    : Nat
  cap   : Nat
  reset : Bool := false
  pc    : Pc := .idle
deriving Repr, DecidableEq

/-- The local variables of `CMemoryFileBroadcastReader::Read` (ecal_memfile_broadcast_reader.cpp L52-125):
events not looked at yet, `handled_event_ids`, messages, `return_result`. -/
structure Work where
  todo    : List Event
  handled : List Nat
  msgs    : List (List UInt8 × Int)
  ok      : Bool

/-- The receiver of a process: the members of the reader, the `Read` under way, and the samples not applied
yet. -/
structure Rd where
  base  : Reader := ⟨[], []⟩
  work  : Option Work := none
  inbox : List RegSample := []

/-- All processes of a host.  `objs` has the content of every payload file, `linked` the ids under which one
can be opened.  `half p`: the registration thread of `p` has sent the collected samples and not yet the added
ones.  `written` records the lists handed to the senders. -/
structure SW where
  st      : Nat → PSt := fun _ => {}
  half    : Nat → Bool := fun _ => false
  chan    : Sys
  objs    : AMap Nat (List UInt8) := []
  linked  : List Nat := []
  wr      : Nat → Option Wr := fun _ => none
  rd      : Nat → Rd := fun _ => {}
  written : List (Nat × List RegSample) := []

/-- Update of one process. -/
def upd {α : Type} (f : Nat → α) (p : Nat) (a : α) : Nat → α := fun q => if q = p then a else f q

/-- `SendEvent` (ecal_memfile_broadcast.cpp L216-247); `ok`: the lock was obtained. -/
def sendEv (c : Sys) (p : Nat) (now : Int) (id : Nat) (ty : EvType) (ok : Bool) : Sys :=
  if ok then (Bcast.sendEvent c p now id ty).getD c else c

/-- `Create` of a payload file for writing (io/shm/ecal_memfile.cpp L57-162): an existing file is used as
it is. -/
def createFile (w : SW) (id : Nat) : SW :=
  if id ∈ w.linked then w else { w with objs := w.objs.set id [], linked := id :: w.linked }

/-- `Destroy(true)` of a payload file. -/
def destroyFile (w : SW) (id : Nat) : SW := { w with linked := w.linked.filter (fun x => x ≠ id) }

/-- Is the writer of `p` between two calls? -/
def idle (w : SW) (p : Nat) : Bool :=
  match w.wr p with
  | some r => r.pc = .idle
  | none => true

/-- `Write` up to L74 or L68 (ecal_memfile_broadcast_writer.cpp L55-67): without `Bind` it fails; if the data
does not fit or the last access failed, a new file is created. -/
def beginWrite (w : SW) (p : Nat) (d : Bytes) (new : Nat) (ok : Bool) : SW :=
  match w.wr p with
  | none => w
  | some r =>
    if r.cap < d.length ∨ r.reset = true then
      if ok then { createFile w new with wr := upd w.wr p (some { r with pc := .gone d new }) }
      else w
    else { w with wr := upd w.wr p (some { r with pc := .access d }) }

/-- The next access of `Write` (L68-93). -/
def contWrite (w : SW) (p : Nat) (now : Int) (ok : Bool) : SW :=
  match w.wr p with
  | none => w
  | some r =>
    match r.pc with
    | .idle => w
    | .gone d new =>
      { w with chan := sendEv w.chan p now r.id .removed ok
               wr := upd w.wr p (some { r with pc := .destroy d new }) }
    | .destroy d new =>
      { destroyFile w r.id with
          wr := upd w.wr p (some { r with id := new, cap := d.length * 2, pc := .created d }) }
    | .created d =>
      { w with chan := sendEv w.chan p now r.id .created ok
               wr := upd w.wr p (some { r with reset := false, pc := .access d }) }
    | .access d =>
      if ok then { w with objs := w.objs.set r.id d, wr := upd w.wr p (some { r with pc := .notify }) }
      else { w with wr := upd w.wr p (some { r with reset := true, pc := .idle }) }
    | .notify =>
      { w with chan := sendEv w.chan p now r.id .updated ok
               wr := upd w.wr p (some { r with pc := .idle }) }

/-- `SendSampleList` (ecal_registration_sender_shm.cpp L53-67) up to the first access: nothing is written
for an empty list. -/
def sendList (w : SW) (p : Nat) (l : List RegSample) (new : Nat) (ok : Bool) : SW :=
  let w' := { w with written := w.written ++ [(p, l)] }
  if l = [] then w' else beginWrite w' p (Wire.serializeRegList l) new ok

/-- One event of the loop of `Read` (ecal_memfile_broadcast_reader.cpp L62-123), as `Bcast.readEvent`;
`openOk` and `accOk`: the file could be opened (if it is there) and its lock was obtained. -/
def readEv (objs : AMap Nat (List UInt8)) (linked : List Nat) (openOk accOk : Bool)
    (st : Reader × List Nat × List (List UInt8 × Int) × Bool) (e : Event) :
    Reader × List Nat × List (List UInt8 × Int) × Bool :=
  if e.id ∈ st.2.1 then st else
  let isNew := (st.1.known.find e.id).isNone
  let rd1 : Reader := if isNew then { st.1 with known := st.1.known.set e.id false } else st.1
  if isNew && decide (e.type ≠ .removed) && !(openOk && decide (e.id ∈ linked)) then
    (rd1, e.id :: st.2.1, st.2.2.1, false)
  else
    let rd2 : Reader := if isNew && decide (e.type ≠ .removed)
      then { rd1 with known := rd1.known.set e.id true } else rd1
    match e.type with
    | .updated =>
      match rd2.known.find e.id, objs.find e.id, accOk with
      | some true, some c, true => (rd2, e.id :: st.2.1, st.2.2.1 ++ [(c, e.ts)], st.2.2.2)
      | _, _, _ => (rd2, e.id :: st.2.1, st.2.2.1, false)
    | .removed => ({ rd2 with known := rd2.known.erase e.id }, e.id :: st.2.1, st.2.2.1, st.2.2.2)
    | _ => (rd2, e.id :: st.2.1, st.2.2.1, st.2.2.2)

/-- What can happen. -/
inductive SIn where
  | act (x : Disc.In)                                     -- the application, and collecting (Disc)
  | bind (p id : Nat) (now : Int) (ok evOk : Bool)        -- writer L33-51
  | unbind (p : Nat) (now : Int) (evOk : Bool)            -- L95-105
  | write1 (p : Nat) (front back : List RegSample) (new : Nat) (ok : Bool)
                                -- provider L149, L161-170: the collected samples with those of the process,
                                -- its servers and clients
  | write2 (p : Nat) (new : Nat) (ok : Bool)              -- L173-177: the added samples
  | wnext (p : Nat) (now : Int) (ok : Bool)               -- next access of the writer
  | crash                                                 -- a process dies holding the lock of the broadcast file
  | attach (q : Nat)                                      -- receiver L43-56
  | pollBegin (q : Nat) (now : Int) (ok : Bool)           -- reader L58
  | pollNext (q : Nat) (openOk accOk : Bool)              -- L62-123, one event
  | pollEnd (q : Nat)                                     -- receiver L74-81
  | apply (q : Nat) (now : Int)                           -- L81-84, one sample

/-- The steps of `Disc` that do not transport anything; collecting waits for the sender. -/
def allowed (w : SW) : Disc.In → Bool
  | .collect p _ _ _ => idle w p
  | .arrive _ _ _ => false
  | .send _ => false
  | .flush _ => false
  | _ => true

/-- May the thread of `p` send the collected / the added samples? -/
def canSend (w : SW) (p : Nat) : Bool := (w.st p).out.isSome && idle w p && !w.half p
def canFlush (w : SW) (p : Nat) : Bool := (w.st p).out.isSome && idle w p && w.half p

/-- The samples that are not those of publishers and subscribers. -/
def others (l : List RegSample) : List RegSample := l.filter (fun m => !Disc.isTopic m)

/-- What the thread sends first. -/
def collected (w : SW) (p : Nat) (front back : List RegSample) : List RegSample :=
  others front ++ (w.st p).out.getD [] ++ others back

/-- One step. -/
def step (P : Nat → Proc) (w : SW) : SIn → SW
  | .act x => if allowed w x then { w with st := (Disc.step P { st := w.st } x).st } else w
  | .bind p id now ok evOk =>
    if w.wr p = none ∧ ok = true then
      { createFile w id with chan := sendEv w.chan p now id .created evOk
                             wr := upd w.wr p (some { id := id, cap := 1024 }) }
    else w
  | .unbind p now evOk =>
    match w.wr p with
    | some r =>
      if r.pc = .idle then
        { destroyFile w r.id with chan := sendEv w.chan p now r.id .removed evOk, wr := upd w.wr p none }
      else w
    | none => w
  | .write1 p front back new ok =>
    if canSend w p then
      sendList { w with st := upd w.st p { w.st p with out := some [] }, half := upd w.half p true }
        p (collected w p front back) new ok
    else w
  | .write2 p new ok =>
    if canFlush w p then
      sendList { w with st := upd w.st p { w.st p with out := none, pending := [] },
                        half := upd w.half p false }
        p (w.st p).pending new ok
    else w
  | .wnext p now ok => contWrite w p now ok
  | .crash => { w with chan := { w.chan with file := { w.chan.file with inited := false } } }
  | .attach q => { w with chan := Bcast.flushLocal w.chan q, rd := upd w.rd q {} }
  | .pollBegin q now ok =>
    if (w.rd q).work.isNone ∧ (w.rd q).inbox = [] then
      let res := if ok then (Bcast.receiveEvents w.chan q now 0 true).getD (none, w.chan) else (none, w.chan)
      let evs := res.1.getD (w.rd q).base.evs
      { w with chan := res.2
               rd := upd w.rd q { w.rd q with base := { (w.rd q).base with evs := evs }
                                              work := some ⟨evs, [], [], true⟩ } }
    else w
  | .pollNext q openOk accOk =>
    match (w.rd q).work with
    | some ⟨e :: es, handled, msgs, ok⟩ =>
      let x := readEv w.objs w.linked openOk accOk ((w.rd q).base, handled, msgs, ok) e
      { w with rd := upd w.rd q { w.rd q with base := x.1, work := some ⟨es, x.2.1, x.2.2.1, x.2.2.2⟩ } }
    | _ => w
  | .pollEnd q =>
    match (w.rd q).work with
    | some ⟨[], _, msgs, ok⟩ =>
      { w with rd := upd w.rd q { w.rd q with
          work := none, inbox := if ok then Wire.shmReceive [] (msgs.map Prod.fst) else [] } }
    | _ => w
  | .apply q now =>
    match (w.rd q).inbox with
    | m :: ms =>
      { w with
        st := upd w.st q { w.st q with
          pg := Gate.pubGateRun (w.st q).pg (Disc.popsOf (P q) now m)
          sg := Gate.subGateRun (str (P q).host) (w.st q).sg (Disc.sopsOf (P q) now m) }
        rd := upd w.rd q { w.rd q with inbox := ms } }
    | [] => w

def run (P : Nat → Proc) (w : SW) (h : List SIn) : SW := h.foldl (step P) w

/-- A freshly created channel of capacity `cap`, no process has done anything. -/
def init (cap : Nat) (t0 : Int) (cells : Nat → Event) : SW := { chan := Bcast.init cap t0 cells }

end Ecal.E2E.ShmReg
