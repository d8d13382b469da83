/-!
# The client session (service protocol version 1)

Code modelled: `/repo/ecal/service/ecal_service/src/client_session_impl_v1.cpp`
(`resolve_endpoint` L104-160, `connect_to_endpoint` L162-236, handshake L238-365,
`async_call_service` L371-440, `send_next_service_request` L442-470,
`receive_service_response` L472-542, `peek_for_error` L593-608,
`handle_connection_loss_error` L610-651, `call_all_callbacks_with_error` L653-680, `stop` L682-696,
`close_socket` L698-714).

Every step is one handler (run under the strand / with `service_state_mutex_` held) or one completion
of an asynchronous operation; a run is any list of steps, so any number of IO threads is covered.

Simplifications:
* The strand runs its tasks in FIFO order.  Here the posted calls are FIFO among themselves; a
  completion handler may run before or after any of them (more interleavings than the strand has).
* The answer `responseOk i` carries the index `i` of the response on the connection; the payload itself
  is that of the `i`-th frame (`Verif.Service.FrameProps`).
* An operation on a closed socket completes with an error (asio closes cancel them).
* Calls are named by a number (request and callback are a pair that stays together in the code).
* The list of endpoints of one host is walked by `asio::async_connect`; it is one operation here.
-/

namespace Ecal.Service.Client

/-- `State` (`state.h`). -/
inductive Net where
  | notConnected | handshake | connected | failed
deriving DecidableEq, Repr

/-- The operation of the connection set-up that is under way. -/
inductive Setup where
  | resolving (i : Nat) | connecting (i : Nat) | hsSending | hsReceiving
deriving DecidableEq, Repr

/-- Where a call is that has been handed to the socket: writing the request, reading the response,
or with its completion handler waiting in the strand. -/
inductive Phase where
  | sending | receiving
  | doneError                -- send or receive failed
  | doneBad                  -- a message of another type was received
  | doneOk (i : Nat)         -- the `i`-th message of the connection is the response
deriving DecidableEq, Repr

/-- Argument of the response callback. -/
inductive Answer where
  | error
  | ok (i : Nat)
deriving DecidableEq, Repr

inductive Event where
  | connected | disconnected
deriving DecidableEq, Repr

structure State where
  servers    : Nat               -- length of `server_list_`
  net        : Net               -- `state_`
  stopped    : Bool              -- `stopped_by_user_`
  isOpen     : Bool              -- the socket is connected
  setup      : Option Setup
  posted     : List Nat          -- calls posted to the strand
  queue      : List Nat          -- `service_call_queue_`
  inProgress : Bool              -- `service_call_in_progress_`
  flight     : List (Nat × Phase)
  flushes    : Nat               -- posted `call_all_callbacks_with_error` tasks
  peeks      : Nat               -- outstanding `peek_for_error` operations
  -- observations
  accepted   : List Nat          -- calls that returned `true`, in order
  sent       : List Nat          -- calls whose request was written to the connection, in order
  nread      : Nat               -- messages read after the handshake
  answers    : List (Nat × Answer)
  events     : List Event
deriving DecidableEq, Repr

/-- `create` L60-76: the first host of a non-empty list is being resolved. -/
def init (servers : Nat) : State :=
  { servers := servers, net := .notConnected, stopped := false, isOpen := false,
    setup := some (.resolving 0), posted := [], queue := [], inProgress := false, flight := [],
    flushes := 0, peeks := 0, accepted := [], sent := [], nread := 0, answers := [], events := [] }

/-- `handle_connection_loss_error` L610-651. -/
def loss (st : State) : State :=
  let st := { st with isOpen := false }
  if st.net = .failed then st
  else
    { st with
      net := .failed
      events := if st.net = .connected then st.events ++ [.disconnected] else st.events
      flushes := if st.queue = [] then st.flushes else st.flushes + 1 }

/-- `send_next_service_request` L442-470: starts the write. -/
def startSend (st : State) (c : Nat) : State := { st with flight := st.flight ++ [(c, .sending)] }

/-- L323-344 and L517-537: next call from the queue, or wait for errors. -/
def sendNextOrPeek (st : State) : State :=
  match st.queue with
  | c :: q => startSend { st with inProgress := true, queue := q } c
  | [] => { st with inProgress := false, peeks := st.peeks + 1 }

/-- The next host of the list, or give up (L128-146, L193-211). -/
def nextHost (st : State) (i : Nat) : State :=
  if i + 1 < st.servers then { st with setup := some (.resolving (i + 1)) }
  else loss { st with setup := none }

inductive Step where
  | call (c : Nat)                       -- `async_call_service`
  | stop                                 -- `stop`
  | setupDone (ok : Bool) (accept : Bool) -- the set-up operation completes and its handler runs
  | runCall                              -- first posted call
  | runFlush                             -- a posted `call_all_callbacks_with_error`
  | flightDone (k : Nat) (ok : Bool) (rightType : Bool)  -- the operation of a call completes
  | flightRun (k : Nat)                  -- its completion handler
  | peekDone (ok : Bool)
deriving DecidableEq, Repr

/-- `async_call_service` L371-438: refused after `stop`. -/
def stepCall (st : State) (c : Nat) : State :=
  if st.stopped then st
  else { st with posted := st.posted ++ [c], accepted := st.accepted ++ [c] }

/-- The handlers of the set-up chain. -/
def stepSetup (st : State) (ok accept : Bool) : State :=
  match st.setup with
  | none => st
  | some (.resolving i) =>
    if ok then { st with setup := some (.connecting i) } else nextHost st i
  | some (.connecting i) =>
    if ok then { st with setup := some .hsSending, isOpen := true, net := .handshake }
    else nextHost st i
  | some .hsSending =>
    if ok && st.isOpen then { st with setup := some .hsReceiving }
    else loss { st with setup := none }
  | some .hsReceiving =>
    if ok && st.isOpen && accept then
      sendNextOrPeek
        { st with setup := none, net := .connected, events := st.events ++ [.connected] }
    else loss { st with setup := none }

/-- The task posted by `async_call_service` L383-436. -/
def stepRunCall (st : State) : State :=
  match st.posted with
  | [] => st
  | c :: rest =>
    let st := { st with posted := rest }
    if st.net = .failed then { st with answers := st.answers ++ [(c, .error)] }
    else if !st.inProgress && st.net == .connected then startSend { st with inProgress := true } c
    else { st with queue := st.queue ++ [c] }

/-- `call_all_callbacks_with_error` L653-680: answers one call and posts itself again if more are
waiting. -/
def stepRunFlush (st : State) : State :=
  match st.flushes with
  | 0 => st
  | n + 1 =>
    let st := { st with flushes := n }
    match st.queue with
    | [] => st
    | c :: q =>
      { st with queue := q, answers := st.answers ++ [(c, .error)],
                flushes := if q = [] then n else n + 1 }

/-- Replaces the phase of the `k`-th call in flight. -/
def setPhase (st : State) (k : Nat) (c : Nat) (p : Phase) : State :=
  { st with flight := st.flight.set k (c, p) }

/-- Completion of the write (L455-469) or the read (L476-541) of a call. -/
def stepFlightDone (st : State) (k : Nat) (ok rightType : Bool) : State :=
  match st.flight[k]? with
  | some (c, .sending) =>
    if ok && st.isOpen then { setPhase st k c .receiving with sent := st.sent ++ [c] }
    else setPhase st k c .doneError
  | some (c, .receiving) =>
    if ok && st.isOpen then
      if rightType then { setPhase st k c (.doneOk st.nread) with nread := st.nread + 1 }
      else { setPhase st k c .doneBad with nread := st.nread + 1 }
    else setPhase st k c .doneError
  | _ => st

/-- The completion handlers in the strand: callback, then error handling or the next call. -/
def stepFlightRun (st : State) (k : Nat) : State :=
  match st.flight[k]? with
  | some (c, .doneError) =>
    loss { st with flight := st.flight.eraseIdx k, answers := st.answers ++ [(c, .error)] }
  | some (c, .doneBad) =>
    loss { st with flight := st.flight.eraseIdx k, answers := st.answers ++ [(c, .error)] }
  | some (c, .doneOk i) =>
    sendNextOrPeek
      { st with flight := st.flight.eraseIdx k, answers := st.answers ++ [(c, .ok i)] }
  | _ => st

/-- `peek_for_error` L593-608. -/
def stepPeek (st : State) (ok : Bool) : State :=
  match st.peeks with
  | 0 => st
  | n + 1 =>
    let st := { st with peeks := n }
    if ok then st else loss st

/-- `stop` L682-696. -/
def stepStop (st : State) : State := { st with stopped := true, isOpen := false }

def step (st : State) : Step → State
  | .call c => stepCall st c
  | .stop => stepStop st
  | .setupDone ok accept => stepSetup st ok accept
  | .runCall => stepRunCall st
  | .runFlush => stepRunFlush st
  | .flightDone k ok rightType => stepFlightDone st k ok rightType
  | .flightRun k => stepFlightRun st k
  | .peekDone ok => stepPeek st ok

def run (st : State) (steps : List Step) : State := steps.foldl step st

end Ecal.Service.Client
