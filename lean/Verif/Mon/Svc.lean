import Verif.Wire.Registration

/-!
# What a server or client registers and what the monitoring shows of it

`CServiceServerImpl` (core/src/service/ecal_service_server_impl.cpp), `CServiceClientImpl`
(core/src/service/ecal_service_client_impl.cpp) and `CMonitoringImpl::RegisterServer`,
`RegisterClient` (core/src/monitoring/ecal_monitoring_impl.cpp).

Simplifications: all calls are atomic (the method maps have their mutex); a server or client
is not stopped within a history; the encodings of the types, which a registration does not
carry, and the heart beat counter are left out.
-/

namespace Ecal.MonSvc

open Ecal.Wire (Bytes RegSample Method bytesLt)

/-- A `std::map` from names: entries in iteration order. -/
abbrev Map (α : Type) := List (Bytes × α)

/-- `map[name] = value`. -/
def put {α : Type} : Map α → Bytes → α → Map α
  | [], n, v => [(n, v)]
  | q :: l, n, v => if q.1 = n then (n, v) :: l else if bytesLt n q.1 then (n, v) :: q :: l else q :: put l n v

/-- `map.find(name)`. -/
def get {α : Type} (l : Map α) (n : Bytes) : Option α :=
  match l with
  | [] => none
  | q :: l => if q.1 = n then some q.2 else get l n

/-- `map.erase(name)`. -/
def del {α : Type} (l : Map α) (n : Bytes) : Map α := l.filter (fun q => q.1 ≠ n)

/-- Name and description of a type (`SDataTypeInformation` without the encoding). -/
structure TI where
  name : Bytes := []
  desc : Bytes := []
deriving Repr, DecidableEq

/-! ## Server -/

/-- `SMethod` (ecal_service_server_impl.h L113-117): the method and whether a callback is set. -/
structure M where
  req   : TI := {}
  resp  : TI := {}
  calls : Nat := 0
  cb    : Bool := false
deriving Repr, DecidableEq

inductive SrvOp where
  | describe (n : Bytes) (req resp : TI)     -- AddDescription
  | addCb (n : Bytes) (req resp : Bytes)     -- AddMethodCallback, with a function that is not empty
  | remCb (n : Bytes)                        -- RemMethodCallback
  | call (n : Bytes)                         -- RequestCallback with a request that can be read
deriving Repr, DecidableEq

/-- How a request ends: refused, executed, or with an exception because the method has no
callback (`std::bad_function_call`, L466). -/
inductive Result where
  | refused | executed | threw
deriving Repr, DecidableEq

/-- `AddDescription` (L175-201), `AddMethodCallback` (L204-236), `RemMethodCallback`
(L239-250), `RequestCallback` (L428-466). -/
def srvStep (s : Map M) : SrvOp → Map M × Option Result
  | .describe n req resp =>
    match get s n with
    | some m => (put s n { m with req := req, resp := resp }, none)
    | none => (put s n { req := req, resp := resp }, none)
  | .addCb n req resp =>
    match get s n with
    | some m => (put s n { m with req := { m.req with name := req }, resp := { m.resp with name := resp }, cb := true }, none)
    | none => (put s n { req := { name := req }, resp := { name := resp }, cb := true }, none)
  | .remCb n => (del s n, none)
  | .call n =>
    match get s n with
    | some m => (put s n { m with calls := m.calls + 1 }, some (if m.cb then .executed else .threw))
    | none => (s, some .refused)

def srvRun : Map M → List SrvOp → Map M × List (Option Result)
  | s, [] => (s, [])
  | s, o :: h =>
    let r := srvStep s o
    let r2 := srvRun r.1 h
    (r2.1, r.2 :: r2.2)

/-- What is asked when a registration is made: process id, host, process and unit name; the
ports of the two protocols, `none` if the protocol is switched off. -/
structure Env where
  host  : Bytes := []
  pid   : BitVec 32 := 0
  pname : Bytes := []
  unit  : Bytes := []
  v0    : Option (BitVec 32) := none
  v1    : Option (BitVec 32) := none
deriving Repr, DecidableEq

/-- A method of a registration (L342-349; client L661-668). -/
def wireMethod (n : Bytes) (req resp : TI) (calls : Nat) : Method :=
  { mname := n, reqType := req.name, reqDesc := req.desc, respType := resp.name, respDesc := resp.desc, callCount := BitVec.ofNat 64 calls }

/-- `CServiceServerImpl::GetRegistrationSample` (L310-354): without a port only the command
is set; `m_server_version` is 1 (ecal_service_server_impl.h L108). -/
def srvSample (sname sid : Bytes) (e : Env) (s : Map M) : RegSample :=
  if e.v0 = some 0 then { cmd := 5 } else
  if e.v1 = some 0 then { cmd := 5 } else
  { cmd := 5, entityId := sid, processId := e.pid, hostName := e.host
    service :=
      { version := 1, pname := e.pname, uname := e.unit, sname := sname, portV0 := e.v0.getD 0, portV1 := e.v1.getD 0
        methods := s.map (fun q => wireMethod q.1 q.2.req q.2.resp q.2.calls) } }

/-! ## Client -/

/-- A method a client was told about, with its number of calls (`m_method_information_map`
and `m_method_call_count_map`, which have the same keys). -/
structure CM where
  req   : TI := {}
  resp  : TI := {}
  calls : Nat := 0
deriving Repr, DecidableEq

/-- `Start` (ecal_service_client_impl.cpp L69-95): the declared methods, none called yet; of
several declarations with one name a `std::map` keeps the first. -/
def cliNew : List (Bytes × TI × TI) → Map CM
  | [] => []
  | (n, req, resp) :: l => put (cliNew l) n { req := req, resp := resp }

/-- `IncrementMethodCallCount` (L797-806). -/
def bump (s : Map CM) (n : Bytes) : Map CM :=
  match get s n with
  | some m => put s n { m with calls := m.calls + 1 }
  | none => put s n { calls := 1 }

def bumps (s : Map CM) (n : Bytes) : Nat → Map CM
  | 0 => s
  | k + 1 => bumps (bump s n) n k

/-- A call by `Call` or `CallAsync`: for every server found, whether its session accepted the
request (L339-389, L483-560). -/
structure Call where
  name     : Bytes
  accepted : List Bool
deriving Repr, DecidableEq

/-- A call without a method name is not made (L316-321, L449-450); the same holds for a client
without service name, for which no server accepts anything. -/
def cliStep (s : Map CM) (c : Call) : Map CM :=
  if c.name = [] then s else bumps s c.name (c.accepted.filter id).length

def cliRun (s : Map CM) : List Call → Map CM
  | [] => s
  | c :: h => cliRun (cliStep s c) h

/-- `CServiceClientImpl::GetRegistrationSample` (L637-673); `m_client_version` is 1
(ecal_service_client_impl.h L127). -/
def cliSample (sname sid : Bytes) (e : Env) (s : Map CM) : RegSample :=
  { cmd := 6, entityId := sid, processId := e.pid, hostName := e.host
    client :=
      { version := 1, pname := e.pname, uname := e.unit, sname := sname
        methods := s.map (fun q => wireMethod q.1 q.2.req q.2.resp q.2.calls) } }

/-! ## Monitoring -/

/-- `SServerMon` and `SClientMon` (core/include/ecal/types/monitoring.h L144-176) without the
heart beat counter; `SMethodMon` (L134-142) has the fields of the transmitted method. -/
structure Entry where
  hname   : Bytes
  pname   : Bytes
  uname   : Bytes
  pid     : BitVec 32
  sname   : Bytes
  sid     : Bytes
  version : BitVec 32
  portV0  : BitVec 32
  portV1  : BitVec 32
  methods : List Method
deriving Repr, DecidableEq

/-- `RegisterServer` (ecal_monitoring_impl.cpp L426-476); `version` keeps its initial value. -/
def srvEntry (m : RegSample) : Entry :=
  { hname := m.hostName, pname := m.service.pname, uname := m.service.uname, pid := m.processId, sname := m.service.sname, sid := m.entityId
    version := 0, portV0 := m.service.portV0, portV1 := m.service.portV1, methods := m.service.methods }

/-- `RegisterClient` (L499-544); a client has no ports, `version` keeps its initial value. -/
def cliEntry (m : RegSample) : Entry :=
  { hname := m.hostName, pname := m.client.pname, uname := m.client.uname, pid := m.processId, sname := m.client.sname, sid := m.entityId
    version := 0, portV0 := 0, portV1 := 0, methods := m.client.methods }

end Ecal.MonSvc
