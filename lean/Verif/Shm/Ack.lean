/-
Acknowledged sends over shared memory.

Sources (under /repo/ecal/core/src/io/shm):
* ecal_memfile_sync.cpp: `Connect` L51-91, `Disconnect` L93-113, `Write` L140-228 (order of
  writing and signalling), `SyncContent` L332-394;
* ecal_memfile_pool.cpp: `CMemFileObserver::Observe` L150-294 (waiting for the update event,
  reading, acknowledging).

One publisher with one memory file, any number of subscribing processes. A named event is a flag
that is cleared by a successful wait (see Sync/Event.lean). Every operation on an event is one
step, so that the processes interleave freely. `Connect`, `Disconnect` and `SyncContent` hold the
same lock, so no process is connected or disconnected while a send signals and waits.

Simplifications: acknowledgement is switched on for all samples; the lock of the memory file is not
modelled (in zero-copy mode it only removes interleavings); a process has one observer that lives as
long as the model runs; the memory file is not recreated (see Grow.lean); clocks of samples
increase (Writer model).
-/
namespace Ecal.Shm.Ack

/-- One subscribing process: its two events, the publisher's mark that it did not answer in time
and its observer thread. -/
structure Proc where
  snd : Bool := false
  ack : Bool := false
  /-- `event_ack_is_invalid`. -/
  invalid : Bool := false
  /-- `has_unprocessed_data`. -/
  pending : Bool := false
  /-- `last_sample_clock`. -/
  last : Nat := 0
  /-- The sample whose callback is running. -/
  busy : Option Nat := none
  /-- Samples whose callback has returned. -/
  done : List Nat := []
  deriving DecidableEq

/-- Where the publisher is. -/
inductive Phase where
  | idle
  | written (n : Nat)
  | eat (n : Nat) (todo : List Nat)
  | fire (n : Nat) (todo : List Nat)
  | wait (n : Nat) (todo : List Nat)
  deriving DecidableEq

structure St where
  /-- Clock of the sample in the memory file. -/
  file : Nat := 0
  /-- Keys of `m_event_handle_map`. -/
  conn : List Nat := []
  procs : Nat → Proc := fun _ => {}
  phase : Phase := .idle

/-- Change one process. -/
def upd (f : Nat → Proc) (p : Nat) (v : Proc) : Nat → Proc := fun q => if q = p then v else f q

/-- Steps of the publisher, of the registration thread (`connect`, `disconnect`) and of the
observers. -/
inductive Step where
  | connect (p : Nat)
  | disconnect (p : Nat)
  | write (n : Nat)
  | startSync
  /-- One wait of the loop that removes old acknowledgements. -/
  | eatOne
  | eatEnd
  | fireOne
  | fireEnd
  /-- The process is marked: no wait. -/
  | waitSkip
  | waitAck
  | waitTimeout
  | waitEnd
  | wake (p : Nat)
  | read (p : Nat)
  | finish (p : Nat)
  deriving DecidableEq

def step (s : St) : Step → Option St
  | .connect p =>
    match s.phase with
    | .idle | .written _ =>
      if p ∈ s.conn then
        some { s with procs := upd s.procs p { s.procs p with invalid := false } }
      else
        some { s with
          conn := s.conn ++ [p]
          procs := upd s.procs p { s.procs p with invalid := false } }
    | _ => none
  | .disconnect p =>
    match s.phase with
    | .idle | .written _ => some { s with conn := s.conn.erase p }
    | _ => none
  | .write n =>
    match s.phase with
    | .idle => if s.file < n then some { s with file := n, phase := .written n } else none
    | _ => none
  | .startSync =>
    match s.phase with
    | .written n => some { s with phase := .eat n s.conn }
    | _ => none
  | .eatOne =>
    match s.phase with
    | .eat n (p :: r) =>
      if (s.procs p).ack then
        some { s with procs := upd s.procs p { s.procs p with ack := false } }
      else some { s with phase := .eat n r }
    | _ => none
  | .eatEnd =>
    match s.phase with
    | .eat n [] => some { s with phase := .fire n s.conn }
    | _ => none
  | .fireOne =>
    match s.phase with
    | .fire n (p :: r) =>
      some { s with procs := upd s.procs p { s.procs p with snd := true }, phase := .fire n r }
    | _ => none
  | .fireEnd =>
    match s.phase with
    | .fire n [] => some { s with phase := .wait n s.conn }
    | _ => none
  | .waitSkip =>
    match s.phase with
    | .wait n (p :: r) => if (s.procs p).invalid then some { s with phase := .wait n r } else none
    | _ => none
  | .waitAck =>
    match s.phase with
    | .wait n (p :: r) =>
      if (s.procs p).invalid = false ∧ (s.procs p).ack = true then
        some { s with procs := upd s.procs p { s.procs p with ack := false }, phase := .wait n r }
      else none
    | _ => none
  | .waitTimeout =>
    match s.phase with
    | .wait n (p :: r) =>
      if (s.procs p).invalid = false ∧ (s.procs p).ack = false then
        some { s with procs := upd s.procs p { s.procs p with invalid := true }, phase := .wait n r }
      else none
    | _ => none
  | .waitEnd =>
    match s.phase with
    | .wait _ [] => some { s with phase := .idle }
    | _ => none
  | .wake p =>
    let q := s.procs p
    if q.busy = none ∧ q.pending = false ∧ q.snd = true then
      some { s with procs := upd s.procs p { q with snd := false, pending := true } }
    else none
  | .read p =>
    let q := s.procs p
    if q.busy = none ∧ q.pending = true then
      if q.last < s.file then
        some { s with procs := upd s.procs p { q with pending := false, last := s.file, busy := some s.file } }
      else some { s with procs := upd s.procs p { q with pending := false } }
    else none
  | .finish p =>
    let q := s.procs p
    match q.busy with
    | some m => some { s with procs := upd s.procs p { q with busy := none, done := q.done ++ [m], ack := true } }
    | none => none

/-- A run; `none` if a step is not possible. -/
def run (s : St) : List Step → Option St
  | [] => some s
  | a :: r => (step s a).bind (fun s' => run s' r)

/-- The waiting of one send, in time (`SyncContent` L362-390): the waits end after `w` units at
the latest when the remaining time at their begin; `gap` is the time lost in between. The remaining
time is never negative. -/
def timeLeft (timeout elapsed : Nat) : Nat := timeout - elapsed

/-- Time at the end of a sequence of waits; each is given as (gap before it, time it wants). A wait
ends early if the acknowledgement comes. Returned: (elapsed time, time spent waiting). -/
def waits (timeout : Nat) : Nat → Nat → List (Nat × Nat) → Nat × Nat
  | e, w, [] => (e, w)
  | e, w, (gap, want) :: r =>
    let e1 := e + gap
    let d := min want (timeLeft timeout e1)
    waits timeout (e1 + d) (w + d) r

end Ecal.Shm.Ack
