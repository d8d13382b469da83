import Verif.Common.AMap

/-!
# Typed service servers and clients (protobuf)

Code modelled: `/repo/ecal/core/include/ecal/msg/protobuf/server.h`: destructor L88-91, `Create`
L123-169, `Destroy` L176-180, `RequestCallback` L185-214, members L216-217;
`/repo/ecal/core/include/ecal/msg/protobuf/client.h`: `Call` L100-118, the deprecated `Call` L181-196;
`/repo/ecal/core/src/service/ecal_service_server.cpp`: `Create` L73-86, `Destroy` L93-106,
`AddDescription` L119-132, `AddMethodCallback` L144-148;
`/repo/ecal/core/src/service/ecal_service_server_impl.cpp`: `Stop` L134-173 (the map), `AddDescription`
L175-201, `AddMethodCallback` L204-236, `RequestCallback` L428-472;
`/repo/ecal/core/src/service/ecal_service_client_impl.cpp`: `SetHostName` L133-138, success of `Call`
L232-238, the filter of the hosts L342.

The server class derives from the untyped server class: the constructor of the base runs first, its
destructor last, and the members of the derived part are gone when the destructor of the base runs.

Steps: an application call on the typed server is a sequence of micro steps (`Micro`); a request of a
client runs in one of `n` threads of the service manager: it looks the method up and copies the
callback under the mutex of the map (`arrive`), then the callback runs in three steps (`rx`): the test
of `m_service`, the look up and the parsing of the request, the call of the method.

Simplifications: messages are abstract (`M`) with a codec; `SerializeAsString` gives an empty string
on failure.  The method of the user may answer anything (`resp` of a step).  Descriptions are left
out (they do not influence calls).  A write of a member of the derived part while a request is between
the look up and the end of the callback is a data race (`Ub.race`); accesses that do not overlap in this
sense count as ordered.  The base creation succeeds when the server does not exist (the refusal of a
stopped service manager is in `Verif.Life`).  One application thread.
-/

namespace Ecal.Msg.TypedSvc

abbrev Bytes := List UInt8

/-- What a message library provides; `ser` is `none` for a message that cannot be serialised (required
fields missing, too large). -/
structure Codec (Ty M : Type) where
  ser   : M → Option Bytes
  parse : Ty → Bytes → Option M

variable {Ty M : Type}

/-- `SerializeAsString`: failure gives the empty string. -/
def Codec.asString (c : Codec Ty M) (m : M) : Bytes := (c.ser m).getD []

/-- `google::protobuf::MethodDescriptor`. -/
structure MDesc (Ty : Type) where
  name  : Bytes
  inTy  : Ty
  outTy : Ty
deriving Repr, DecidableEq

/-- Micro steps of the application on the typed server. -/
inductive Micro (Ty : Type) where
  | setService (i : Nat)       -- server.h L126
  | baseCreate                 -- L129-136, result ignored
  | addMeth (d : MDesc Ty)     -- L146
  | describe (m : Bytes)       -- L159
  | bind (m : Bytes)           -- L162-166
  | clearService               -- L178
  | dropMembers                -- end of the destructor L91: members L216-217 are destroyed
  | baseClear                  -- ecal_service_server_impl.cpp L138-142
  | baseStop                   -- L150-157
deriving Repr, DecidableEq

/-- Calls of the application. -/
inductive Api where
  | create (i : Option Nat)    -- `Create`; `none` is a null pointer
  | destroy                    -- `Destroy` of the typed server
  | delete                     -- destructors of the typed server and of its base
deriving Repr, DecidableEq

/-- L141-167 for one method. -/
def methodProg (d : MDesc Ty) : List (Micro Ty) := [.addMeth d, .describe d.name, .bind d.name]

/-- The micro steps of a call on a server for a service type with methods `ms`. -/
def program (ms : List (MDesc Ty)) : Api → List (Micro Ty)
  | .create none => []
  | .create (some i) => .setService i :: .baseCreate :: ms.flatMap methodProg
  | .destroy => [.clearService]
  | .delete => [.clearService, .dropMembers, .baseClear, .baseStop]

/-- What a call returns (L125, L168, L179). -/
def result : Api → Bool
  | .create none => false
  | _ => true

inductive Ub where
  | race               -- a member is written while a callback uses it
  | useAfterFree       -- a callback uses a destroyed typed server
  | nullService        -- `m_service` has become null after the test
  | badFunction        -- `std::bad_function_call`: the method has no callback
deriving Repr, DecidableEq

/-- A thread that serves requests. -/
inductive Rx (M : Type) where
  | idle
  | looked (m : Bytes) (bs : Bytes)                 -- the callback has been copied
  | checked (m : Bytes) (bs : Bytes)                -- after L187
  | parsed (m : Bytes) (bs : Bytes) (req : M)       -- after L197
  | unknown (m : Bytes)                             -- answered: no such method (failed)
  | answered (m : Bytes) (bs : Bytes) (ret : Int) (out : Bytes)   -- answered: executed
deriving Repr, DecidableEq

/-- Does the callback run in this thread? -/
def Rx.active : Rx M → Bool
  | .looked .. => true
  | .checked .. => true
  | .parsed .. => true
  | _ => false

/-- An invocation of a method of the user's service. -/
structure Inv (M : Type) where
  inst   : Nat
  method : Bytes
  req    : M
  resp   : M
deriving Repr, DecidableEq

structure State (Ty M : Type) where
  alive   : Bool := true                          -- the members of the derived part exist
  svc     : Option Nat := none                    -- `m_service`
  meths   : AMap Bytes (MDesc Ty) := []           -- `m_methods`
  created : Bool := false                         -- `m_created` of the base
  map     : AMap Bytes Bool := []                 -- `m_method_map`; is there a callback?
  pending : List (Micro Ty) := []
  rets    : List Bool := []
  rx      : List (Rx M) := []
  log     : List (Inv M) := []
  ub      : Option Ub := none

def init (n : Nat) : State Ty M := { rx := List.replicate n .idle }

inductive Step (M : Type) where
  | api (a : Api)
  | app                                  -- the next micro step of the application
  | arrive (t : Nat) (m bs : Bytes)      -- a request for method `m` with payload `bs`
  | rx (t : Nat) (resp : M)              -- a step of the callback; `resp` is what the method answers
  | next (t : Nat)                       -- the answer has been sent
deriving Repr, DecidableEq

/-- Does the micro step write a member of the derived part? -/
def Micro.writes : Micro Ty → Bool
  | .setService _ => true
  | .addMeth _ => true
  | .clearService => true
  | .dropMembers => true
  | _ => false

/-- A micro step of the application. -/
def mexec (s : State Ty M) : Micro Ty → State Ty M
  | .setService i => { s with svc := some i }
  | .baseCreate => { s with created := true }
  | .addMeth d => { s with meths := s.meths.set d.name d }
  | .describe m =>
    if s.created then
      match s.map.find m with
      | some _ => s
      | none => { s with map := s.map.set m false }
    else s
  | .bind m => if s.created then { s with map := s.map.set m true } else s
  | .clearService => { s with svc := none }
  | .dropMembers => { s with alive := false }
  | .baseClear => { s with map := if s.created then [] else s.map }
  | .baseStop => { s with created := false }

/-- A step of the callback (server.h L185-214). -/
def cb (c : Codec Ty M) (s : State Ty M) (t : Nat) (resp : M) : State Ty M :=
  match s.rx[t]? with
  | some (.looked m bs) =>
    if s.alive then
      match s.svc with
      | none => { s with rx := s.rx.set t (.answered m bs (-1) []) }
      | some _ => { s with rx := s.rx.set t (.checked m bs) }
    else { s with ub := some .useAfterFree }
  | some (.checked m bs) =>
    if s.alive then
      match s.meths.find m with
      | none => { s with rx := s.rx.set t (.answered m bs (-1) []) }
      | some d =>
        match s.svc with
        | none => { s with ub := some .nullService }
        | some _ =>
          match c.parse d.inTy bs with
          | none => { s with rx := s.rx.set t (.answered m bs (-1) []) }
          | some req => { s with rx := s.rx.set t (.parsed m bs req) }
    else { s with ub := some .useAfterFree }
  | some (.parsed m bs req) =>
    if s.alive then
      match s.svc with
      | none => { s with ub := some .nullService }
      | some i =>
        { s with log := s.log ++ [⟨i, m, req, resp⟩], rx := s.rx.set t (.answered m bs 0 (c.asString resp)) }
    else { s with ub := some .useAfterFree }
  | _ => s

/-- `RequestCallback` of the base L428-461: the look up and the copy of the callback. -/
def look (s : State Ty M) (t : Nat) (m bs : Bytes) : State Ty M :=
  match s.map.find m with
  | none => { s with rx := s.rx.set t (.unknown m) }
  | some false => { s with ub := some .badFunction }
  | some true => { s with rx := s.rx.set t (.looked m bs) }

/-- Is the thread free? -/
def isIdle (s : State Ty M) (t : Nat) : Bool :=
  match s.rx[t]? with
  | some .idle => true
  | _ => false

def isActive (s : State Ty M) : Bool := s.rx.any Rx.active

def appStep (s : State Ty M) : State Ty M :=
  match s.pending with
  | [] => s
  | a :: rest =>
    if a.writes && isActive s then { s with ub := some .race }
    else { mexec s a with pending := rest }

def step (c : Codec Ty M) (ms : List (MDesc Ty)) (s : State Ty M) (op : Step M) : State Ty M :=
  if s.ub.isSome then s
  else
    match op with
    | .api a =>
      if s.alive && s.pending.isEmpty then
        { s with pending := program ms a, rets := s.rets ++ [result a] }
      else s
    | .app => appStep s
    | .arrive t m bs => if isIdle s t then look s t m bs else s
    | .rx t resp => cb c s t resp
    | .next t =>
      match s.rx[t]? with
      | some (.unknown _) => { s with rx := s.rx.set t .idle }
      | some (.answered ..) => { s with rx := s.rx.set t .idle }
      | _ => s

def run (c : Codec Ty M) (ms : List (MDesc Ty)) (s : State Ty M) (h : List (Step M)) : State Ty M :=
  h.foldl (step c ms) s

/-- A call and all its micro steps. -/
def whole (ms : List (MDesc Ty)) (a : Api) : List (Step M) :=
  .api a :: (program ms a).map (fun _ => .app)

/-- A request and all steps of its callback. -/
def request (t : Nat) (m bs : Bytes) (resp : M) : List (Step M) :=
  [.arrive t m bs, .rx t resp, .rx t resp, .rx t resp]

/-! ## The client -/

inductive CallState where
  | none | executed | failed
deriving Repr, DecidableEq

/-- `SServiceResponse` as far as the client looks at it. -/
structure Resp where
  host  : Bytes
  state : CallState
  ret   : Int
  data  : Bytes
deriving Repr, DecidableEq

/-- `SetHostName` L133-138 (`*` is all hosts). -/
def setHost (h : Bytes) : Bytes := if h = [42] then [] else h

/-- The servers a call is addressed to (L342): hosts of the known servers, filter of the client. -/
def addressed (filter : Bytes) (hosts : List Bytes) : List Bytes :=
  hosts.filter (fun h => filter == [] || filter == h)

/-- Result of the untyped `Call` for the responses gathered (L232-238). -/
def anyExecuted (rs : List Resp) : Bool := rs.any (fun r => r.state == .executed)

/-- The deprecated `Call` (client.h L181-196) for the responses the untyped call has gathered;
`old` is the message of the caller before the call, `mangle` what a failed `ParseFromString` leaves in
it. -/
def deprecated (c : Codec Ty M) (ty : Ty) (rs : List Resp) (old : M) (mangle : Bytes → M) :
    Bool × Option Resp × M :=
  if anyExecuted rs then
    match rs with
    | [] => (false, none, old)
    | r :: _ =>
      match c.parse ty r.data with
      | some m => (true, some r, m)
      | none => (true, some r, mangle r.data)
  else (false, none, old)

end Ecal.Msg.TypedSvc
