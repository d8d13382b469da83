/-!
# The client session of the old service protocol (version 0)

Code modelled: `/repo/ecal/service/ecal_service/src/client_session_impl_v0.cpp`
(`create` L51-67, `resolve_endpoint` L94-150, `connect_to_endpoint` L152-257,
`async_call_service` L263-332, `send_next_service_request` L334-361,
`receive_service_response` L363-415, `peek_for_error` L466-481,
`handle_connection_loss_error` L483-524, `call_all_callbacks_with_error` L526-553, `stop` L555-569,
`close_socket` L571-590).

Every step is one handler or one completion of an asynchronous operation; a run is any list of steps,
so any number of I/O threads is covered.  The differences from version 1
(`Verif.Service.ClientSession`): no handshake, no check of the message type, and the completion
handler of a write (L343-359) is *not* wrapped in the strand, so it runs at the same time as the
handlers of the strand.  Its parts (response callback L351, closing the socket L494, marking the
session as failed L496-518) are therefore separate steps here.

Simplifications:
* The strand runs its tasks in FIFO order.  Here the posted calls are FIFO among themselves; a
  completion handler may run before or after any of them (more interleavings than the strand has).
* The answer `ok i` carries the index `i` of the response on the connection.
* An operation on a closed socket completes with an error (asio closes cancel them).
* Calls are named by a number (request and callback are a pair that stays together in the code).
* The list of endpoints of one host is walked by `asio::async_connect`; it is one operation here.
-/

namespace Ecal.Service.ClientV0

/-- `State` (`state.h`); version 0 has no handshake. -/
inductive Net where
  | notConnected | connected | failed
deriving DecidableEq, Repr

/-- The operation of the connection set-up that is under way. -/
inductive Setup where
  | resolving (i : Nat) | connecting (i : Nat)
deriving DecidableEq, Repr

/-- Where a call is that has been handed to the socket: writing the request, reading the response,
or with its completion handler about to run. -/
inductive Phase where
  | sending | receiving
  | sendFailed               -- the write failed; its handler does not run in the strand
  | doneError                -- the read failed
  | doneOk (i : Nat)         -- the `i`-th message of the connection is the response
deriving DecidableEq, Repr

/-- Argument of the response callback. -/
inductive Answer where
  | error
  | ok (i : Nat)
deriving DecidableEq, Repr

inductive Event where
  | connected | disconnected
deriving DecidableEq, Repr

structure State where
  servers    : Nat               -- length of `server_list_`
  net        : Net               -- `state_`
  stopped    : Bool              -- `stopped_by_user_`
  isOpen     : Bool              -- the socket is connected
  setup      : Option Setup
  posted     : List Nat          -- calls posted to the strand
  queue      : List Nat          -- `service_call_queue_`
  inProgress : Bool              -- `service_call_in_progress_`
  flight     : List (Nat × Phase)
  losing     : Nat               -- write handlers between L351 and the end of L354
  flushes    : Nat               -- posted `call_all_callbacks_with_error` tasks
  peeks      : Nat               -- outstanding `peek_for_error` operations
  -- observations
  accepted   : List Nat          -- calls that returned `true`, in order
  sent       : List Nat          -- calls whose request was written to the connection, in order
  nread      : Nat               -- messages read
  answers    : List (Nat × Answer)
  events     : List Event
deriving DecidableEq, Repr

/-- `create` L51-67: the first host of a non-empty list is being resolved. -/
def init (servers : Nat) : State :=
  { servers := servers, net := .notConnected, stopped := false, isOpen := false,
    setup := some (.resolving 0), posted := [], queue := [], inProgress := false, flight := [],
    losing := 0, flushes := 0, peeks := 0, accepted := [], sent := [], nread := 0, answers := [],
    events := [] }

/-- `handle_connection_loss_error` L483-524. -/
def loss (st : State) : State :=
  let st := { st with isOpen := false }
  if st.net = .failed then st
  else
    { st with
      net := .failed
      events := if st.net = .connected then st.events ++ [.disconnected] else st.events
      flushes := if st.queue = [] then st.flushes else st.flushes + 1 }

/-- `send_next_service_request` L334-361: starts the write. -/
def startSend (st : State) (c : Nat) : State := { st with flight := st.flight ++ [(c, .sending)] }

/-- L235-254 and L387-411: next call from the queue, or wait for errors. -/
def sendNextOrPeek (st : State) : State :=
  match st.queue with
  | c :: q => startSend { st with inProgress := true, queue := q } c
  | [] => { st with inProgress := false, peeks := st.peeks + 1 }

/-- The next host of the list, or give up (L113-131, L177-194). -/
def nextHost (st : State) (i : Nat) : State :=
  if i + 1 < st.servers then { st with setup := some (.resolving (i + 1)) }
  else loss { st with setup := none }

inductive Step where
  | call (c : Nat)                       -- `async_call_service`
  | stop                                 -- `stop`
  | setupDone (ok : Bool)                -- the set-up operation completes and its handler runs
  | runCall                              -- first posted call
  | runFlush                             -- a posted `call_all_callbacks_with_error`
  | flightDone (k : Nat) (ok : Bool)     -- the operation of a call completes
  | flightRun (k : Nat)                  -- its completion handler
  | closeRun                             -- a write handler closes the socket (L494)
  | lossRun                              -- a write handler runs the rest of L354
  | peekDone (ok : Bool)
deriving DecidableEq, Repr

/-- `async_call_service` L263-332: refused after `stop`. -/
def stepCall (st : State) (c : Nat) : State :=
  if st.stopped then st
  else { st with posted := st.posted ++ [c], accepted := st.accepted ++ [c] }

/-- The handlers of the set-up chain. -/
def stepSetup (st : State) (ok : Bool) : State :=
  match st.setup with
  | none => st
  | some (.resolving i) =>
    if ok then { st with setup := some (.connecting i) } else nextHost st i
  | some (.connecting i) =>
    if ok then
      sendNextOrPeek
        { st with setup := none, isOpen := true, net := .connected, events := st.events ++ [.connected] }
    else nextHost st i

/-- The task posted by `async_call_service` L274-329. -/
def stepRunCall (st : State) : State :=
  match st.posted with
  | [] => st
  | c :: rest =>
    let st := { st with posted := rest }
    if st.net = .failed then { st with answers := st.answers ++ [(c, .error)] }
    else if !st.inProgress && st.net == .connected then startSend { st with inProgress := true } c
    else { st with queue := st.queue ++ [c] }

/-- `call_all_callbacks_with_error` L526-553: answers one call and posts itself again if more are
waiting. -/
def stepRunFlush (st : State) : State :=
  match st.flushes with
  | 0 => st
  | n + 1 =>
    let st := { st with flushes := n }
    match st.queue with
    | [] => st
    | c :: q =>
      { st with queue := q, answers := st.answers ++ [(c, .error)],
                flushes := if q = [] then n else n + 1 }

/-- Replaces the phase of the `k`-th call in flight. -/
def setPhase (st : State) (k : Nat) (c : Nat) (p : Phase) : State :=
  { st with flight := st.flight.set k (c, p) }

/-- Completion of the write (L343-359) or the read (L367-412) of a call. -/
def stepFlightDone (st : State) (k : Nat) (ok : Bool) : State :=
  match st.flight[k]? with
  | some (c, .sending) =>
    if ok && st.isOpen then { setPhase st k c .receiving with sent := st.sent ++ [c] }
    else setPhase st k c .sendFailed
  | some (c, .receiving) =>
    if ok && st.isOpen then { setPhase st k c (.doneOk st.nread) with nread := st.nread + 1 }
    else setPhase st k c .doneError
  | _ => st

/-- The completion handlers: callback, then error handling or the next call.  The handler of a failed
write only gets as far as the response callback in this step (L351). -/
def stepFlightRun (st : State) (k : Nat) : State :=
  match st.flight[k]? with
  | some (c, .sendFailed) =>
    { st with flight := st.flight.eraseIdx k, answers := st.answers ++ [(c, .error)],
              losing := st.losing + 1 }
  | some (c, .doneError) =>
    loss { st with flight := st.flight.eraseIdx k, answers := st.answers ++ [(c, .error)] }
  | some (c, .doneOk i) =>
    sendNextOrPeek
      { st with flight := st.flight.eraseIdx k, answers := st.answers ++ [(c, .ok i)] }
  | _ => st

/-- L494 in a write handler. -/
def stepCloseRun (st : State) : State :=
  if st.losing = 0 then st else { st with isOpen := false }

/-- L494-523 in a write handler. -/
def stepLossRun (st : State) : State :=
  match st.losing with
  | 0 => st
  | n + 1 => loss { st with losing := n }

/-- `peek_for_error` L466-481. -/
def stepPeek (st : State) (ok : Bool) : State :=
  match st.peeks with
  | 0 => st
  | n + 1 =>
    let st := { st with peeks := n }
    if ok then st else loss st

/-- `stop` L555-569. -/
def stepStop (st : State) : State := { st with stopped := true, isOpen := false }

def step (st : State) : Step → State
  | .call c => stepCall st c
  | .stop => stepStop st
  | .setupDone ok => stepSetup st ok
  | .runCall => stepRunCall st
  | .runFlush => stepRunFlush st
  | .flightDone k ok => stepFlightDone st k ok
  | .flightRun k => stepFlightRun st k
  | .closeRun => stepCloseRun st
  | .lossRun => stepLossRun st
  | .peekDone ok => stepPeek st ok

def run (st : State) (steps : List Step) : State := steps.foldl step st

end Ecal.Service.ClientV0
