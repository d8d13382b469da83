import Verif.Service.Targets
import Verif.Registration.Applier
import Verif.Udp.Frame
import Verif.Wire.Registration
import Verif.E2E.Disc

/-!
# Clients find the servers of their service

Composition of the models of the registration thread, the serialisation of registrations (`Ecal.Wire`), the UDP
framing (`Ecal.Udp`), the filter for received registrations (`Ecal.Registration`), and the client gate with a service
client (`Ecal.Service.Targets`): any number of processes that announce their servers over UDP.

Code modelled besides the parts: `/repo/ecal/core/src/service/ecal_service_server_impl.cpp` L310-398 (registration and
unregistration of a server), `/repo/ecal/core/src/service/ecal_service_server.cpp` L73-106 (`Create`, `Destroy`),
`/repo/ecal/core/src/service/ecal_servicegate.cpp` L63-107, `/repo/ecal/core/src/service/ecal_clientgate.cpp` L100-170,
`/repo/ecal/core/src/registration/ecal_registration_provider.cpp` L141-179 (`RegisterSendThread`).

The network keeps every datagram that was sent.  A datagram can reach any process at any time, more than once, or
never.

Simplifications.
* The simplifications of `Ecal.E2E.Disc` for datagrams and the registration thread, and those of
  `Ecal.Service.Targets` for calls.
* One client per process is followed.  Clients of a process share only the table of servers, which they do not change;
  a client created later has the same table and no sessions yet, like one that did nothing so far.
* The id and the ports of the `j`-th server of a process are handed in (`sid`, `port0`, `port1`); a port that could not
  be opened is 0 (L317, L320).
* A server leaves the gate and adds its unregistration in one step.
* Registrations of processes, topics and clients are arbitrary samples with other commands.
-/

namespace Ecal.E2E.Svc

open Ecal.Wire (RegSample RService)
open Ecal.Service

/-- What is fixed for a process: names, process id, filter settings, enabled service protocols, the ids and ports its
servers get, and the service name and the described methods of its client. -/
structure Proc where
  host     : Bytes
  group    : Bytes
  pid      : BitVec 32
  network  : Bool
  loopback : Bool
  v0       : Bool
  v1       : Bool
  sid      : Nat → Bytes
  port0    : Nat → BitVec 16
  port1    : Nat → BitVec 16
  client   : Bytes
  methods  : List String

/-- The port of the server for protocol 0, L317. -/
def tcp0 (P : Proc) (j : Nat) : BitVec 16 := if P.v0 then P.port0 j else 0

/-- The port of the server for protocol 1, L320. -/
def tcp1 (P : Proc) (j : Nat) : BitVec 16 := if P.v1 then P.port1 j else 0

/-- `CServiceServerImpl::GetRegistrationSample`, L310-354; `info` are the members clients do not look at.  Without the
port of an enabled protocol the sample is sent with its command only (L318, L321). -/
def regSample (P : Proc) (info : RService) (j : Nat) (name : Bytes) : RegSample :=
  if P.v0 = true ∧ tcp0 P j = 0 then { cmd := 5 }
  else if P.v1 = true ∧ tcp1 P j = 0 then { cmd := 5 }
  else
    { cmd := 5, entityId := P.sid j, processId := P.pid, hostName := P.host,
      service := { info with version := 1, sname := name,
                             portV0 := (tcp0 P j).setWidth 32, portV1 := (tcp1 P j).setWidth 32 } }

/-- `CServiceServerImpl::GetUnregistrationSample`, L356-374. -/
def goneSample (P : Proc) (info : RService) (j : Nat) (name : Bytes) : RegSample :=
  { cmd := 15, entityId := P.sid j, processId := P.pid, hostName := P.host,
    service := { version := 1, pname := info.pname, uname := info.uname, sname := name } }

/-- The filter of a process (registration/ecal_registration_receiver.cpp L52). -/
def applier (P : Proc) : Registration.Applier := ⟨P.network, P.loopback, str P.group, P.pid.toInt⟩

/-- What the client gate reads of a sample (ecal_clientgate.cpp L102-115). -/
def regOf (m : RegSample) : Targets.Reg :=
  { sname := str m.service.sname, sid := str m.entityId, pid := m.processId.toInt, hname := str m.hostName,
    version := m.service.version.toNat, portV0 := m.service.portV0.toNat % 2 ^ 16,
    portV1 := m.service.portV1.toNat % 2 ^ 16 }

/-- A process: its servers, its client with the table of servers (`none`: undefined behaviour or an exception), the
collected samples that are not sent yet (`none`: the registration thread is waiting), and `m_applied_sample_list`. -/
structure PSt where
  servers : List (Nat × Bytes) := []
  client  : Option Targets.State
  out     : Option (List RegSample) := none
  pending : List RegSample := []

structure World where
  st  : Nat → PSt
  net : List RegSample := []

def init (P : Nat → Proc) : World :=
  { st := fun q => { client := some (Targets.start (str (P q).client) (P q).methods) } }

inductive In where
  | newServer (p j : Nat) (name : Bytes)
  | delServer (p j : Nat) (info : RService)
  | other (p : Nat) (m : RegSample)                 -- registration of a process, topic or client
  | collect (p : Nat) (info : Nat → RService)       -- `RegisterSendThread` (provider L141-167)
  | send (p : Nat)                                  -- L170
  | flush (p : Nat)                                 -- L173-177 (and what is left of L170)
  | arrive (p k : Nat) (now : Int)                  -- the `k`-th datagram reaches process `p`
  | setHost (p : Nat) (host : String)
  | call (p : Nat) (method : String) (accept : String → Bool)

/-- The sample a process gets when the `k`-th datagram arrives. -/
def delivered (w : World) (k : Nat) : Option RegSample :=
  (w.net[k]?).bind (fun m => Disc.receive (Disc.datagram m))

/-- What a received sample does to the client gate (registration/ecal_registration_sample_applier_gates.cpp
L32-72). -/
def gateOps (P : Proc) (now : Int) (m : RegSample) : List Targets.Step :=
  if Registration.apply (applier P) (Disc.smpOf m) = some .clientGateReg then [.register now (regOf m)] else []

/-- What the step does to the client of process `q`. -/
def clientOps (P : Nat → Proc) (w : World) (q : Nat) : In → List Targets.Step
  | .collect p _ => if p = q ∧ (w.st q).out = none then [.cycle] else []
  | .arrive p k now =>
    if p = q then
      match delivered w k with
      | some m => gateOps (P q) now m
      | none => []
    else []
  | .setHost p h => if p = q then [.setHost h] else []
  | .call p m accept => if p = q then [.call m accept] else []
  | _ => []

/-- The servers of `q` after the step. -/
def servers' (w : World) (q : Nat) : In → List (Nat × Bytes)
  | .newServer p j name =>
    if p = q ∧ (w.st q).servers.all (fun s => s.1 ≠ j) = true then (w.st q).servers ++ [(j, name)]
    else (w.st q).servers
  | .delServer p j _ => if p = q then (w.st q).servers.filter (fun s => s.1 ≠ j) else (w.st q).servers
  | _ => (w.st q).servers

/-- What the registration thread of `q` holds after the step. -/
def out' (P : Nat → Proc) (w : World) (q : Nat) : In → Option (List RegSample)
  | .collect p info =>
    if p = q ∧ (w.st q).out = none then
      some ((w.st q).servers.map (fun s => regSample (P q) (info s.1) s.1 s.2))
    else (w.st q).out
  | .send p => if p = q then (w.st q).out.map (fun _ => []) else (w.st q).out
  | .flush p => if p = q then none else (w.st q).out
  | _ => (w.st q).out

/-- A registration or unregistration of a server. -/
def isService (m : RegSample) : Bool := m.cmd = 5 ∨ m.cmd = 15

/-- `m_applied_sample_list` of `q` after the step. -/
def pending' (P : Nat → Proc) (w : World) (q : Nat) : In → List RegSample
  | .delServer p j info =>
    if p = q then
      (w.st q).pending ++
        ((w.st q).servers.filter (fun s => s.1 = j)).map (fun s => goneSample (P q) info s.1 s.2)
    else (w.st q).pending
  | .other p m => if p = q ∧ isService m = false then (w.st q).pending ++ [m] else (w.st q).pending
  | .flush p => if p = q ∧ (w.st q).out ≠ none then [] else (w.st q).pending
  | _ => (w.st q).pending

/-- The network after the step. -/
def net' (w : World) : In → List RegSample
  | .send p =>
    match (w.st p).out with
    | some l => w.net ++ l
    | none => w.net
  | .flush p =>
    match (w.st p).out with
    | some l => w.net ++ (l ++ (w.st p).pending)
    | none => w.net
  | _ => w.net

def step (P : Nat → Proc) (w : World) (x : In) : World :=
  { st := fun q =>
      { servers := servers' w q x
        client := (w.st q).client.bind (fun s => Targets.run s (clientOps P w q x))
        out := out' P w q x
        pending := pending' P w q x }
    net := net' w x }

def run (P : Nat → Proc) (w : World) (h : List In) : World := h.foldl (step P) w

end Ecal.E2E.Svc
