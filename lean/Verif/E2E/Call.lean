import Verif.Service.ClientSession
import Verif.Service.ServerSession
import Verif.Service.Frame
import Verif.Wire.Service
import Verif.Common.AMap

/-!
# A service call from the caller to the method and back

Composition of the models of the client session (`Ecal.Service.Client`), the server session
(`Ecal.Service.Server.V1`), the framing on both directions of the connection (`Ecal.Service.Rx`)
and the serialisation of requests and responses (`Ecal.Wire`), with the request handler of the
server written down at the level of bytes.

Code modelled in addition: `/repo/ecal/core/src/service/ecal_service_server_impl.cpp`
`RequestCallback` L400-480; `/repo/ecal/core/src/service/ecal_service_client_impl.cpp` the request
built by `CallBlocking` L455-462, the response callbacks L511-537 and L348-380,
`fromSerializedProtobuf` L597-612, `fromStruct` L614-635;
`/repo/ecal/service/ecal_service/src/client_session_impl_v1.cpp` L442-541 and
`server_session_impl_v1.cpp` L259-341 (which message is written and read when).

Simplifications: one connection of protocol version 1, whose byte streams begin after the handshake
(reads of the handshake take exactly its bytes, `Verif.Service.Frame`); what the application does
with the methods of the server, and what a method answers, is chosen by the steps.  The bytes of a
write may be delivered as soon as the write has begun (for a response also if the server has closed
its socket meanwhile).
-/

namespace Ecal.E2E.Call

open Ecal.Service (Rx)
open Ecal.Wire (Request Response)

abbrev Bytes := List UInt8

/-- ASCII text as bytes. -/
def lit (s : String) : Bytes := s.toList.map (fun c => UInt8.ofNat c.toNat)

/-- `SMethod` as far as a call needs it (ecal_service_server_impl.h L113-117); `callable`: the
`std::function` is not empty. -/
structure Method where
  reqType  : Bytes
  respType : Bytes
  callable : Bool
deriving Repr, DecidableEq

/-- Host, `m_service_name` and `m_service_id` of the server. -/
structure Server where
  host : Bytes
  name : Bytes
  id   : Bytes
deriving Repr, DecidableEq

/-- An execution of a method of the server by a request of this connection. -/
structure Exec where
  idx      : Nat            -- number of the request on the connection
  method   : Bytes
  reqType  : Bytes
  respType : Bytes
  request  : Bytes
  ret      : BitVec 32      -- what the function returned and stored
  response : Bytes
deriving Repr, DecidableEq

/-- Result of `RequestCallback`. -/
inductive Served where
  | reply (r : Response)
  | executed (e : Exec) (r : Response)
  | crash                                   -- `std::bad_function_call`
deriving Repr, DecidableEq

/-- `RequestCallback` L400-480 for the `idx`-th request; `ret` and `out` are what the method returns
if it is executed.  `ret_state` is an `int64_t` set from an `int`. -/
def serve (sv : Server) (methods : AMap Bytes Method) (idx : Nat) (ret : BitVec 32) (out : Bytes)
    (bs : Bytes) : Served :=
  match Wire.deserializeRequest {} bs with
  | none =>
    .reply { header := { hname := sv.host, sname := sv.name, sid := sv.id, state := 2,
                         error := lit "Service '" ++ sv.name ++ lit "' request message could not be parsed." } }
  | some rq =>
    match methods.find rq.header.mname with
    | none =>
      .reply { header := { hname := sv.host, sname := sv.name, sid := sv.id, mname := rq.header.mname,
                           state := 2,
                           error := lit "Service '" ++ sv.name ++ lit "' has no method named '" ++
                             rq.header.mname ++ lit "'" } }
    | some m =>
      if m.callable then
        .executed
          { idx := idx, method := rq.header.mname, reqType := m.reqType, respType := m.respType,
            request := rq.request, ret := ret, response := out }
          { header := { hname := sv.host, sname := sv.name, sid := sv.id, mname := rq.header.mname,
                        state := 1 },
            response := out, retState := ret.signExtend 64 }
      else .crash

/-- What a caller asks for. -/
structure Ask where
  method  : Bytes
  request : Bytes
deriving Repr, DecidableEq

/-- `CallBlocking` L457-462. -/
def payload (a : Ask) : Bytes :=
  Wire.serializeRequest { header := { mname := a.method }, request := a.request }

/-- `send_next_service_request` L446-453: message type 3, version 1. -/
def requestMsg (a : Ask) : Service.Msg := Service.mkMsg 1 3 (payload a)

/-- `send_service_response` L313-322: message type 4. -/
def responseMsg (bs : Bytes) : Service.Msg := Service.mkMsg 1 4 bs

inductive CallState where
  | none | executed | failed
deriving Repr, DecidableEq

/-- `SServiceResponse`. -/
structure SResp where
  host    : Bytes := []
  service : Bytes := []
  id      : Bytes := []
  method  : Bytes := []
  error   : Bytes := []
  ret     : BitVec 32 := 0
  state   : CallState := .none
  data    : Bytes := []
deriving Repr, DecidableEq

/-- `fromStruct` L614-635; `static_cast<int>` of the 64-bit state. -/
def fromStruct (e : SResp) (r : Response) : SResp :=
  { host := r.header.hname, service := r.header.sname, id := r.header.sid, method := r.header.mname,
    error := r.header.error, ret := r.retState.truncate 32,
    state := if r.header.state = 1 then .executed else if r.header.state = 2 then .failed else e.state,
    data := r.response }

/-- `fromSerializedProtobuf` L597-612. -/
def fromSerialized (e : SResp) (bs : Bytes) : SResp :=
  match Wire.deserializeResponse {} bs with
  | some r => fromStruct e r
  | none => { e with error := lit "Could not parse server response", ret := 0, state := .failed, data := [] }

structure Sys where
  cl       : Service.Client.State
  wrote    : List Nat := []          -- calls whose request the client has begun to write
  up       : Rx := {}                -- receiving end of the server
  upGone   : Nat := 0                -- bytes the network has delivered to the server
  sv       : Service.Server.V1.State Bytes Bytes := {}
  methods  : AMap Bytes Method := []
  crashed  : Bool := false           -- the server process has terminated
  execs    : List Exec := []
  down     : Rx := {}                -- receiving end of the client
  downGone : Nat := 0
deriving Repr, DecidableEq

def init (servers : Nat) : Sys := { cl := Service.Client.init servers }

inductive Step where
  | client (a : Service.Client.Step)              -- step of the client session
  | server (a : Service.Server.V1.Step Bytes Bytes) -- step of the server session
  | take                                          -- a complete message has been received by the server
  | handle (ret : BitVec 32) (out : Bytes)        -- strand handler of the server, result of the method
  | methods (m : AMap Bytes Method)               -- the application changes the methods of the server
  | netUp (n : Nat) | netDown (n : Nat)           -- the network delivers up to `n` bytes
  | svReceive | svRead (n : Nat)                  -- receive operation of the server
  | clReceive | clRead (n : Nat)                  -- receive operation of the client
deriving Repr, DecidableEq

/-- Bytes of the requests whose writing has begun. -/
def upBytes (ask : Nat → Ask) (s : Sys) : Bytes := (s.wrote.map (fun c => requestMsg (ask c))).flatMap (·.encode)

/-- Bytes of the responses whose writing has begun (`send_service_response` follows the callback
in the same handler, server_session_impl_v1.cpp L301-305). -/
def downBytes (s : Sys) : Bytes := (s.sv.calls.map (fun p => responseMsg p.2)).flatMap (·.encode)

/-- The call whose write is under way. -/
def sending : List (Nat × Service.Client.Phase) → Option Nat
  | (c, .sending) :: _ => some c
  | _ => none

/-- A write begun by a step of the client; a closed socket takes no bytes. -/
def begun (a b : Service.Client.State) : List Nat :=
  if b.isOpen ∧ b.flight ≠ a.flight then (sending b.flight).toList else []

def clientTo (s : Sys) (b : Service.Client.State) : Sys :=
  { s with cl := b, wrote := s.wrote ++ begun s.cl b }

/-- Is the `k`-th call in flight reading its response? -/
def reading (cl : Service.Client.State) (k : Nat) : Bool :=
  match cl.flight[k]? with
  | some (_, .receiving) => true
  | _ => false

/-- A read of the client completes with the next message of the connection
(client_session_impl_v1.cpp L488-504), everything else is up to the environment. -/
def stepClient (s : Sys) (a : Service.Client.Step) : Sys :=
  match a with
  | .flightDone k true rt =>
    if reading s.cl k then
      match s.down.out[s.cl.nread]? with
      | none => s
      | some (h, _) =>
        clientTo s (Service.Client.step s.cl (.flightDone k true (Service.messageType h == 4)))
    else clientTo s (Service.Client.step s.cl (.flightDone k true rt))
  | a => clientTo s (Service.Client.step s.cl a)

/-- Steps of the server session that are not determined by what was received. -/
def stepServer (s : Sys) (a : Service.Server.V1.Step Bytes Bytes) : Sys :=
  match a with
  | .request _ => s
  | .wrongType => s
  | .runHandler _ => s
  | a => if s.crashed then s else { s with sv := Service.Server.V1.step s.sv a }

/-- A complete message: `receive_service_request` L275-306 (the check of the type runs in the
handler). -/
def stepTake (s : Sys) : Sys :=
  if s.crashed then s
  else
    match s.up.out[s.sv.received.length]? with
    | none => s
    | some (h, p) =>
      { s with sv := Service.Server.V1.step s.sv
                       (if Service.messageType h == 3 then .request p else .wrongType) }

/-- The handler in the strand L277-305. -/
def stepHandle (sv : Server) (s : Sys) (ret : BitVec 32) (out : Bytes) : Sys :=
  if s.crashed then s
  else
    match s.sv.phase with
    | .dispatch bs =>
      match serve sv s.methods s.sv.calls.length ret out bs with
      | .crash => { s with crashed := true }
      | .reply r => { s with sv := Service.Server.V1.step s.sv (.runHandler (Wire.serializeResponse r)) }
      | .executed e r =>
        { s with sv := Service.Server.V1.step s.sv (.runHandler (Wire.serializeResponse r)),
                 execs := s.execs ++ [e] }
    | _ => { s with sv := Service.Server.V1.step s.sv (.runHandler []) }

/-- Is a call of the client reading its response? -/
def clReading : List (Nat × Service.Client.Phase) → Bool
  | [(_, .receiving)] => true
  | _ => false

/-- Is the server session waiting for a request? -/
def svReading (s : Sys) : Bool :=
  match s.sv.phase with
  | .receive => s.up.out.length == s.sv.received.length
  | _ => false

def step (sv : Server) (ask : Nat → Ask) (s : Sys) : Step → Sys
  | .client a => stepClient s a
  | .server a => stepServer s a
  | .take => stepTake s
  | .handle ret out => stepHandle sv s ret out
  | .methods m => { s with methods := m }
  | .netUp n =>
    { s with up := Service.step s.up (.arrive (((upBytes ask s).drop s.upGone).take n)),
             upGone := min (s.upGone + n) (upBytes ask s).length }
  | .netDown n =>
    { s with down := Service.step s.down (.arrive (((downBytes s).drop s.downGone).take n)),
             downGone := min (s.downGone + n) (downBytes s).length }
  | .svReceive => if svReading s then { s with up := Service.step s.up .receive } else s
  | .svRead n => { s with up := Service.step s.up (.readSome n) }
  | .clReceive =>
    if clReading s.cl.flight && s.down.out.length == s.cl.nread then
      { s with down := Service.step s.down .receive }
    else s
  | .clRead n => { s with down := Service.step s.down (.readSome n) }

def run (sv : Server) (ask : Nat → Ask) (s : Sys) (l : List Step) : Sys := l.foldl (step sv ask) s

/-- The bytes of the `i`-th message the client has read. -/
def bytesOf (s : Sys) (i : Nat) : Bytes := ((s.down.out[i]?).map (·.2)).getD []

/-- What the caller finds in its response structure, which held `e` before, once the response
callback has run (L518-533; `msg` is the text of the error). -/
def outcome (s : Sys) (e : SResp) (msg : Bytes) : Service.Client.Answer → SResp
  | .error => { e with error := msg, state := .failed, ret := 0 }
  | .ok i => fromSerialized e (bytesOf s i)

end Ecal.E2E.Call
