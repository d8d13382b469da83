/-!
# The server sessions

Code modelled (`/repo/ecal/service/ecal_service/src/`):
* `server_session_impl_v1.cpp`: `receive_handshake_request` L140-211, `send_handshake_response`
  L213-257, `receive_service_request` L259-309, `send_service_response` L311-341, `stop` L116-133.
* `server_session_impl_v0.cpp`: `handle_start` L101-140, `handle_read` L163-243,
  `handle_write` L245-266.

Every step is the completion of an asynchronous operation or a handler in the strand.

Simplifications: requests, responses are abstract values in version 1 (their bytes are the subject of
`Verif.Service.Frame`); the response is chosen by the step, i.e. the service callback is arbitrary
and may keep state; `shutdown_callback_` (bookkeeping of the server) is in
`Verif.Service.ServerEvents`.
-/

namespace Ecal.Service.Server

inductive Event where
  | connected | disconnected
deriving DecidableEq, Repr

namespace V1

/-- The operation or handler a session is waiting for; there is always exactly one. -/
inductive Phase (Req Resp : Type) where
  | hsReceive | hsSend
  | receive
  | dispatch (r : Req)             -- the handler of a received request waits in the strand
  | badType                        -- the handler of a message of another type waits
  | send (r : Req) (a : Resp)
  | failed
deriving DecidableEq, Repr

structure State (Req Resp : Type) where
  phase    : Phase Req Resp := .hsReceive
  isOpen   : Bool := true
  received : List Req := []            -- requests read from the connection
  calls    : List (Req × Resp) := []   -- invocations of the service callback with their results
  written  : List Resp := []           -- responses completely handed to the connection
  events   : List Event := []
deriving DecidableEq, Repr

inductive Step (Req Resp : Type) where
  | hsReceived (ok : Bool)      -- handshake request arrives and is acceptable / error or refused
  | hsSent (ok : Bool)
  | request (r : Req)           -- a complete request was received
  | wrongType                   -- a complete message of another type was received
  | receiveError
  | runHandler (a : Resp)       -- strand handler; `a` is what the service callback returns
  | sent (ok : Bool)
  | stop
deriving DecidableEq, Repr

variable {Req Resp : Type}

/-- L267-276, L325-335: failed, event. -/
def fail (st : State Req Resp) : State Req Resp :=
  { st with phase := .failed, events := st.events ++ [.disconnected] }

def step (st : State Req Resp) : Step Req Resp → State Req Resp
  | .hsReceived ok =>
    match st.phase with
    | .hsReceive => if ok && st.isOpen then { st with phase := .hsSend } else { st with phase := .failed }
    | _ => st
  | .hsSent ok =>
    match st.phase with
    | .hsSend =>
      if ok && st.isOpen then { st with phase := .receive, events := st.events ++ [.connected] }
      else { st with phase := .failed }
    | _ => st
  | .request r =>
    match st.phase with
    | .receive =>
      if st.isOpen then { st with phase := .dispatch r, received := st.received ++ [r] } else fail st
    | _ => st
  | .wrongType =>
    match st.phase with
    | .receive => if st.isOpen then { st with phase := .badType } else fail st
    | _ => st
  | .receiveError =>
    match st.phase with
    | .receive => fail st
    | _ => st
  | .runHandler a =>
    match st.phase with
    | .dispatch r => { st with phase := .send r a, calls := st.calls ++ [(r, a)] }
    | .badType => fail st
    | _ => st
  | .sent ok =>
    match st.phase with
    | .send _ a =>
      if ok && st.isOpen then { st with phase := .receive, written := st.written ++ [a] } else fail st
    | _ => st
  | .stop => { st with isOpen := false }

def run (st : State Req Resp) (steps : List (Step Req Resp)) : State Req Resp := steps.foldl step st

end V1

namespace V0

abbrev Bytes := List UInt8

/-- What a version 0 session waits for. -/
inductive Phase where
  | reading (request : Bytes)                 -- `async_read_some`; bytes collected so far
  | handler (request : Bytes) (data : Bytes)  -- `handle_read` waits in the strand
  | writing
  | failed
deriving DecidableEq, Repr

structure State where
  phase   : Phase := .reading []
  sock    : Bytes := []           -- bytes in the receive buffer of the socket
  arrived : Bytes := []           -- all bytes that ever arrived
  calls   : List Bytes := []      -- requests given to the service callback
  events  : List Event := [.connected]
deriving DecidableEq, Repr

inductive Step where
  | arrive (bs : Bytes)      -- the network delivers bytes
  | readDone (k : Nat)       -- `async_read_some` completes with at most `k + 1` bytes
  | readError
  | runHandler
  | written (ok : Bool)
deriving DecidableEq, Repr

/-- `handle_read` L163-243 decides by `socket_.available()` whether the request is complete. -/
def step (st : State) : Step → State
  | .arrive bs => { st with sock := st.sock ++ bs, arrived := st.arrived ++ bs }
  | .readDone k =>
    match st.phase with
    | .reading req =>
      if st.sock = [] then st     -- the operation waits for data
      else { st with phase := .handler req (st.sock.take (k + 1)), sock := st.sock.drop (k + 1) }
    | _ => st
  | .readError =>
    match st.phase with
    | .reading _ => { st with phase := .failed, events := st.events ++ [.disconnected] }
    | _ => st
  | .runHandler =>
    match st.phase with
    | .handler req data =>
      if st.sock ≠ [] then { st with phase := .reading (req ++ data) }
      else { st with phase := .writing, calls := st.calls ++ [req ++ data] }
    | _ => st
  | .written ok =>
    match st.phase with
    | .writing =>
      if ok then { st with phase := .reading [] }
      else { st with phase := .failed, events := st.events ++ [.disconnected] }
    | _ => st

def run (st : State) (steps : List Step) : State := steps.foldl step st

end V0

end Ecal.Service.Server
