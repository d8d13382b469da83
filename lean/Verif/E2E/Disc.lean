import Verif.Gate.Model
import Verif.Registration.Applier
import Verif.Udp.Frame
import Verif.Wire.Registration
import Verif.E2E.Net

/-!
# Publishers and subscribers find each other

Composition of the models of the registration thread (`Ecal.Provider`), the serialisation of
registrations (`Ecal.Wire`), the UDP framing (`Ecal.Udp`), the filter for received registrations
(`Ecal.Registration`) and the publisher and subscriber gates (`Ecal.Gate`): any number of processes that
announce their publishers and subscribers over UDP
(core/src/registration/udp/ecal_registration_sender_udp.cpp L61-81,
ecal_registration_receiver_udp.cpp L47-57).

The network keeps every datagram that was sent.  A datagram can reach any process at any time, more than
once, or never.

Simplifications: a datagram is kept as the sample it was made from and turned into bytes when it arrives;
collecting, sending what was collected and
sending what was added are the steps of the registration thread (finer steps: `Ecal.Provider`); leaving the
gate and adding the unregistration are one step; foreign and damaged datagrams are left out (they can end
the reception, see C24); the host name of the receiving process and of its publishers and subscribers are
the same; registrations of processes, servers and clients are arbitrary samples with other commands.
-/

namespace Ecal.E2E.Disc

open Ecal.Wire (RegSample RTopic)
open Ecal.Gate (Obj CS POp SOp)

/-- What is fixed for a process: host name, host group name, process id, network mode and loopback of the
registration receiver, registration timeout, and the topic ids its publishers and subscribers get. -/
structure Proc where
  host     : Bytes
  group    : Bytes
  pid      : BitVec 32
  network  : Bool
  loopback : Bool
  timeout  : Int
  ptid     : Nat → Bytes
  stid     : Nat → Bytes

/-- The bytes of a name. -/
def unstr (s : String) : Bytes := s.toList.map (fun c => UInt8.ofNat c.toNat)

/-- `CDataReader::GetRegistrationSample` (readwrite/ecal_reader.cpp L567-644); `info` are the members that
matching does not look at. -/
def subSample (P : Proc) (info : RTopic) (o : Obj CS) : RegSample :=
  { cmd := 3, processId := P.pid, entityId := P.stid o.id, hostName := P.host,
    topic := { info with hgname := P.group, tname := unstr o.name, connLoc := 0, connExt := 0 } }

/-- The connection counts of a publisher (ecal_writer.cpp L692-706).  An undefined object counts nothing. -/
def counts (P : Proc) (o : Obj CS) : Int × Int :=
  match o.st with
  | none => (0, 0)
  | some (s, _) => Gate.connCounts (str P.host) s

/-- `CDataWriter::GetRegistrationSample` (readwrite/ecal_writer.cpp L613-709). -/
def pubSample (P : Proc) (info : RTopic) (o : Obj CS) : RegSample :=
  { cmd := 2, processId := P.pid, entityId := P.ptid o.id, hostName := P.host,
    topic := { info with hgname := P.group, tname := unstr o.name,
                         connLoc := .ofInt 32 (counts P o).1, connExt := .ofInt 32 (counts P o).2 } }

/-- `CDataReader::GetUnregistrationSample` (ecal_reader.cpp L646-664). -/
def subGone (P : Proc) (info : RTopic) (j : Nat) (topic : Bytes) : RegSample :=
  { cmd := 13, processId := P.pid, entityId := P.stid j, hostName := P.host,
    topic := { hgname := P.group, pname := info.pname, tname := topic, uname := info.uname } }

/-- `CDataWriter::GetUnregistrationSample` (ecal_writer.cpp L711-729). -/
def pubGone (P : Proc) (info : RTopic) (i : Nat) (topic : Bytes) : RegSample :=
  { cmd := 12, processId := P.pid, entityId := P.ptid i, hostName := P.host,
    topic := { hgname := P.group, pname := info.pname, tname := topic, uname := info.uname } }

/-- "reg_sample" (ecal_registration_sender_udp.cpp L68). -/
def label : Bytes := [114, 101, 103, 95, 115, 97, 109, 112, 108, 101]

/-- The datagram of a sample (`SendSample` L61-71). -/
def datagram (m : RegSample) : Bytes := Udp.encode label (Wire.serializeReg m)

/-- What the receiver makes of a datagram (ecal_registration_receiver_udp.cpp L47-57; every name is
accepted). -/
def receive (d : Bytes) : Option RegSample :=
  match Udp.decode d with
  | .sample _ payload => Wire.deserializeReg {} payload
  | _ => none

/-- `eCmdType` (serialization/ecal_struct_sample_common.h L29-43). -/
def cmdOf (c : BitVec 32) : Registration.Cmd :=
  if c = 1 then .setSample else if c = 2 then .regPublisher else if c = 3 then .regSubscriber
  else if c = 4 then .regProcess else if c = 5 then .regService else if c = 6 then .regClient
  else if c = 12 then .unregPublisher else if c = 13 then .unregSubscriber else if c = 14 then .unregProcess
  else if c = 15 then .unregService else if c = 16 then .unregClient else .none

/-- What the filter looks at. -/
def smpOf (m : RegSample) : Registration.Smp :=
  { cmd := cmdOf m.cmd, host := str m.hostName, pid := m.processId.toInt, topicHg := str m.topic.hgname,
    processHg := str m.process.hgname }

/-- The filter of a process (registration/ecal_registration_receiver.cpp L52). -/
def applier (P : Proc) : Registration.Applier := ⟨P.network, P.loopback, str P.group, P.pid.toInt⟩

/-- `eTLayerType` (ecal_struct_sample_common.h L45-52). -/
def ltype (t : BitVec 32) : Gate.LType :=
  if t = 1 then .udp else if t = 4 then .shm else if t = 5 then .tcp else .other

/-- What the gates look at (pubsub/ecal_pubgate.cpp L117-152, ecal_subgate.cpp L216-251). -/
def regOf (m : RegSample) : Gate.Reg :=
  { topic := str m.topic.tname
    peer := ⟨str m.hostName, m.processId.toInt, str m.entityId⟩
    layers := m.topic.tlayer.map (fun l => ⟨ltype l.type, l.version.toInt, l.enabled⟩)
    connLoc := m.topic.connLoc.toInt
    connExt := m.topic.connExt.toInt }

/-- The call on the publisher gate a received sample causes. -/
def popsOf (P : Proc) (now : Int) (m : RegSample) : List POp :=
  match Registration.apply (applier P) (smpOf m) with
  | some .pubGateReg => [.subReg now (regOf m)]
  | some .pubGateUnreg => [.subUnreg now (regOf m)]
  | _ => []

/-- The call on the subscriber gate a received sample causes. -/
def sopsOf (P : Proc) (now : Int) (m : RegSample) : List SOp :=
  match Registration.apply (applier P) (smpOf m) with
  | some .subGateReg => [.pubReg now (regOf m)]
  | some .subGateUnreg => [.pubUnreg now (regOf m)]
  | _ => []

/-- A process: both gates, the samples collected by the registration thread and not sent yet (`none`: the
thread is waiting), and `m_applied_sample_list`. -/
structure PSt where
  pg      : List (Obj CS) := []
  sg      : List (Obj CS) := []
  out     : Option (List RegSample) := none
  pending : List RegSample := []

/-- All processes, and the datagrams sent so far. -/
structure World where
  st  : Nat → PSt := fun _ => {}
  net : List RegSample := []

/-- What can happen. -/
inductive In where
  | newPub (p i : Nat) (topic : Bytes)
  | newSub (p j : Nat) (topic : Bytes)
  | delPub (p i : Nat) (topic : Bytes) (info : RTopic)
  | delSub (p j : Nat) (topic : Bytes) (info : RTopic)
  | again (p i : Nat) (info : RTopic)          -- `CDataWriter::Register` (a layer was started)
  | other (p : Nat) (m : RegSample)            -- registration of a process, server or client
  | collect (p : Nat) (now : Int) (infoS infoP : Nat → RTopic)
                                               -- `RegisterSendThread` (provider L141-167)
  | send (p : Nat)                             -- L170: the collected samples
  | flush (p : Nat)                            -- L173-177: what was added (and what is left of L170)
  | arrive (p k : Nat) (now : Int)             -- the `k`-th datagram reaches process `p`

/-- The sample process `p` gets when the `k`-th datagram arrives. -/
def delivered (w : World) (k : Nat) : Option RegSample := (w.net[k]?).bind (fun m => receive (datagram m))

/-- Calls on the publisher gate of process `q`. -/
def pubOps (P : Nat → Proc) (w : World) (q : Nat) : In → List POp
  | .newPub p i topic => if p = q then [.create i (str topic) (P q).timeout] else []
  | .delPub p i topic _ => if p = q then [.destroy i (str topic)] else []
  | .collect p now _ _ => if p = q ∧ (w.st q).out = none then [.cycle now] else []
  | .arrive p k now =>
    if p = q then
      match delivered w k with
      | some m => popsOf (P q) now m
      | none => []
    else []
  | _ => []

/-- Calls on the subscriber gate of process `q`. -/
def subOps (P : Nat → Proc) (w : World) (q : Nat) : In → List SOp
  | .newSub p j topic => if p = q then [.create j (str topic) (P q).timeout] else []
  | .delSub p j topic _ => if p = q then [.destroy j (str topic)] else []
  | .collect p now _ _ => if p = q ∧ (w.st q).out = none then [.cycle now] else []
  | .arrive p k now =>
    if p = q then
      match delivered w k with
      | some m => sopsOf (P q) now m
      | none => []
    else []
  | _ => []

/-- The publisher gate of `q` after the step. -/
def pg' (P : Nat → Proc) (w : World) (q : Nat) (x : In) : List (Obj CS) :=
  Gate.pubGateRun (w.st q).pg (pubOps P w q x)

/-- The subscriber gate of `q` after the step. -/
def sg' (P : Nat → Proc) (w : World) (q : Nat) (x : In) : List (Obj CS) :=
  Gate.subGateRun (str (P q).host) (w.st q).sg (subOps P w q x)

/-- Is the object in the gate? -/
def present (g : List (Obj CS)) (i : Nat) (name : String) : Bool := g.any (fun o => o.id = i ∧ o.name = name)

/-- A registration of a topic. -/
def isTopic (m : RegSample) : Bool := m.cmd = 2 ∨ m.cmd = 3 ∨ m.cmd = 12 ∨ m.cmd = 13

/-- What the registration thread holds after the step. -/
def out' (P : Nat → Proc) (w : World) (q : Nat) (x : In) : Option (List RegSample) :=
  match x with
  | .collect p _ infoS infoP =>
    if p = q ∧ (w.st q).out = none then
      some ((sg' P w q x).map (fun o => subSample (P q) (infoS o.id) o) ++
        (pg' P w q x).map (fun o => pubSample (P q) (infoP o.id) o))
    else (w.st q).out
  | .send p => if p = q then (w.st q).out.map (fun _ => []) else (w.st q).out
  | .flush p => if p = q then none else (w.st q).out
  | _ => (w.st q).out

/-- `m_applied_sample_list` after the step. -/
def pending' (P : Nat → Proc) (w : World) (q : Nat) (x : In) : List RegSample :=
  match x with
  | .delPub p i topic info =>
    if p = q ∧ present (w.st q).pg i (str topic) = true then (w.st q).pending ++ [pubGone (P q) info i topic]
    else (w.st q).pending
  | .delSub p j topic info =>
    if p = q ∧ present (w.st q).sg j (str topic) = true then (w.st q).pending ++ [subGone (P q) info j topic]
    else (w.st q).pending
  | .again p i info =>
    if p = q then (w.st q).pending ++ ((w.st q).pg.filter (fun o => o.id = i)).map (pubSample (P q) info)
    else (w.st q).pending
  | .other p m => if p = q ∧ isTopic m = false then (w.st q).pending ++ [m] else (w.st q).pending
  | .flush p => if p = q ∧ (w.st q).out ≠ none then [] else (w.st q).pending
  | _ => (w.st q).pending

/-- The network after the step. -/
def net' (w : World) (x : In) : List RegSample :=
  match x with
  | .send p =>
    match (w.st p).out with
    | some l => w.net ++ l
    | none => w.net
  | .flush p =>
    match (w.st p).out with
    | some l => w.net ++ (l ++ (w.st p).pending)
    | none => w.net
  | _ => w.net

/-- One step. -/
def step (P : Nat → Proc) (w : World) (x : In) : World :=
  { st := fun q => { pg := pg' P w q x, sg := sg' P w q x, out := out' P w q x, pending := pending' P w q x }
    net := net' w x }

def run (P : Nat → Proc) (w : World) (h : List In) : World := h.foldl (step P) w

end Ecal.E2E.Disc
