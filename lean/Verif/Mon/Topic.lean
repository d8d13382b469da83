import Verif.Writer.Model
import Verif.Reader.Model
import Verif.Wire.Registration

/-!
# What a publisher or subscriber registers and what the monitoring shows of it

`CPublisher` (core/src/pubsub/ecal_publisher.cpp) and `CDataWriter`
(core/src/readwrite/ecal_writer.cpp), `CDataReader` (core/src/readwrite/ecal_reader.cpp) and
`CMonitoringImpl::RegisterTopic` (core/src/monitoring/ecal_monitoring_impl.cpp).  Layers,
subscribers and the send counter are those of `Ecal.Writer`, reception is that of
`Ecal.Reader`; added here is what they keep for the monitoring.

Simplifications: all calls are atomic; expiry of a subscriber is a `leave`; publisher and
subscriber are not destroyed within a history; the topic filters of the monitoring (own
model, `Ecal.Mon`) let the topic pass; the heart beat counter is left out.
-/

namespace Ecal.MonTopic

open Ecal.Wire (Bytes RegSample RTopic TLayer mapInsert)

/-- `SDataTypeInformation`. -/
structure Info where
  name : Bytes := []
  enc  : Bytes := []
  desc : Bytes := []
deriving Repr, DecidableEq

/-- What is fixed with the construction (ecal_writer.cpp L96-124, ecal_reader.cpp L65-101):
host, host group, process id and name, topic name and id, and whether type and description
are shared. -/
structure Fixed where
  host      : Bytes := []
  group     : Bytes := []
  pid       : BitVec 32 := 0
  pname     : Bytes := []
  tname     : Bytes := []
  tid       : Bytes := []
  shareType : Bool := true
  shareDesc : Bool := true
deriving Repr, DecidableEq

/-- What is asked when a registration is made: `Process::GetUnitName`, the frequency (own
model, `Ecal.Util`), the parameters of the layers. -/
structure Env where
  unit     : Bytes := []
  freq     : BitVec 32 := 0
  port     : BitVec 32 := 0
  memfiles : List Bytes := []
deriving Repr, DecidableEq

/-- `m_attr.erase(name)` (ecal_writer.cpp L389, ecal_reader.cpp L269). -/
def mapErase (l : List (Bytes × Bytes)) (n : Bytes) : List (Bytes × Bytes) := l.filter (fun p => p.1 ≠ n)

/-! ## Publisher -/

structure PubSt where
  w     : Writer.State := Writer.init
  info  : Info := {}                       -- m_topic_info
  attr  : List (Bytes × Bytes) := []       -- m_attr
  setId : Int := 0                         -- CPublisher::m_id
  id    : Int := 0                         -- CDataWriter::m_id
  size  : Nat := 0                         -- m_topic_size
  udp   : Bool := false                    -- m_layers.udp.active
  shm   : Bool := false
  tcp   : Bool := false
deriving Repr, DecidableEq

/-- Calls on a publisher.  `send` carries which of the layers succeed in sending. -/
inductive PubOp where
  | setInfo (i : Info)
  | setAttr (n v : Bytes)
  | clearAttr (n : Bytes)
  | setId (i : Int)
  | join (p : Conn.Peer) (ls : List Gate.Layer)
  | leave (p : Conn.Peer)
  | send (payload : List UInt8) (time : Int) (ok : Reader.Layer → Bool)

/-- What each started layer was given to send and whether it sent it. -/
abbrev Tried := List (Reader.Layer × Bool)

/-- One call: the state after it, the attempts of the layers, the value returned by `Send`.
`SetDataTypeInformation` L363-373, `SetAttribute` L375-385, `ClearAttribute` L387-397 of
ecal_writer.cpp; `SetID` L148-152 and `Send` L160-181 of ecal_publisher.cpp: without a
subscriber only the counter moves; otherwise `Write` (L168-361) stores id and size
(`PrepareWrite` L896-913) and flags each started layer active whether or not it succeeded
(L247, L298, L340). -/
def pubStep (c : Writer.Config) (s : PubSt) : PubOp → PubSt × Tried × Nat
  | .setInfo i => ({ s with info := i }, [], 0)
  | .setAttr n v => ({ s with attr := mapInsert s.attr (n, v) }, [], 0)
  | .clearAttr n => ({ s with attr := mapErase s.attr n }, [], 0)
  | .setId i => ({ s with setId := i }, [], 0)
  | .join p ls => ({ s with w := (Writer.step c s.w (.applySub p ls)).1 }, [], 0)
  | .leave p => ({ s with w := (Writer.step c s.w (.dropSub p)).1 }, [], 0)
  | .send pl t ok =>
    let r := Writer.step c s.w (.send { payload := pl, time := t, id := s.setId })
    if s.w.subs.isEmpty then ({ s with w := r.1 }, [], pl.length)
    else
      let tried := r.2.map (fun x => (x.layer, ok x.layer))
      ({ s with w := r.1, id := s.setId, size := pl.length, udp := s.udp || s.w.udp, shm := s.shm || s.w.shm, tcp := s.tcp || s.w.tcp },
       tried, if tried.any (·.2) then pl.length else 0)

def pubRun (c : Writer.Config) : PubSt → List PubOp → PubSt × List (Tried × Nat)
  | s, [] => (s, [])
  | s, o :: h =>
    let r := pubStep c s o
    let r2 := pubRun c r.1 h
    (r2.1, r.2 :: r2.2)

/-- A created publisher with the type information it was created with. -/
def pubNew (i : Info) : PubSt := { info := i }

/-- The type information as far as it is shared (ecal_writer.cpp L628-640, ecal_reader.cpp
L582-593). -/
def shared (f : Fixed) (i : Info) : Info :=
  { name := if f.shareType then i.name else [], enc := if f.shareType then i.enc else [], desc := if f.shareDesc then i.desc else [] }

/-- A layer of a registration; `ecal_transport_layer_version` is 2
(core/src/readwrite/ecal_transport_layer.h L28). -/
def layer (type : BitVec 32) (enabled active : Bool) (port : BitVec 32 := 0) (mem : List Bytes := []) : TLayer :=
  { type := type, version := 2, enabled := enabled, active := active, tcpPort := port, memfiles := mem }

/-- `CDataWriter::GetRegistrationSample` (L613-709). -/
def pubSample (c : Writer.Config) (f : Fixed) (e : Env) (s : PubSt) : RegSample :=
  let i := shared f s.info
  let loc := (s.w.subs.filter (fun p => p.host = c.host)).length
  { cmd := 2, processId := f.pid, entityId := f.tid, hostName := f.host
    topic :=
      { hgname := f.group, tname := f.tname, dtName := i.name, dtEnc := i.enc, dtDesc := i.desc
        attr := s.attr, tsize := BitVec.ofNat 32 s.size
        tlayer := (if s.w.udp then [layer 1 true s.udp] else []) ++ (if s.w.shm then [layer 4 true s.shm 0 e.memfiles] else []) ++ (if s.w.tcp then [layer 5 true s.tcp e.port] else [])
        pname := f.pname, uname := e.unit, did := BitVec.ofInt 64 s.id, dclock := BitVec.ofNat 64 s.w.clock, dfreq := e.freq
        connLoc := BitVec.ofNat 32 loc, connExt := BitVec.ofNat 32 (s.w.subs.length - loc) } }

/-! ## Subscriber -/

structure SubSt where
  r    : Reader.State := Reader.init
  attr : List (Bytes × Bytes) := []
  pubs : List Conn.Peer := []              -- keys of m_pub_map
deriving Repr, DecidableEq

inductive SubOp where
  | data (o : Reader.Op)
  | setAttr (n v : Bytes)
  | clearAttr (n : Bytes)
  | join (p : Conn.Peer)
  | leave (p : Conn.Peer)

/-- Calls on a subscriber: reception, `SetAttribute` (ecal_reader.cpp L255-265),
`ClearAttribute` (L267-277), `ApplyPublication` (L284-304), `RemovePublication` (L306-313) or
expiry.  The second part is what the application notices. -/
def subStep (c : Reader.Config) (s : SubSt) : SubOp → SubSt × List Reader.Ev
  | .data o => ({ s with r := (Reader.step c s.r o).1 }, (Reader.step c s.r o).2)
  | .setAttr n v => ({ s with attr := mapInsert s.attr (n, v) }, [])
  | .clearAttr n => ({ s with attr := mapErase s.attr n }, [])
  | .join p => ({ s with pubs := if p ∈ s.pubs then s.pubs else p :: s.pubs }, [])
  | .leave p => ({ s with pubs := s.pubs.filter (fun q => q ≠ p) }, [])

def subRun (c : Reader.Config) : SubSt → List SubOp → SubSt × List Reader.Ev
  | s, [] => (s, [])
  | s, o :: h =>
    let r := subStep c s o
    let r2 := subRun c r.1 h
    (r2.1, r.2 ++ r2.2)

/-- `CDataReader::GetRegistrationSample` (L567-644). -/
def subSample (c : Reader.Config) (f : Fixed) (e : Env) (info : Info) (s : SubSt) : RegSample :=
  let i := shared f info
  { cmd := 3, processId := f.pid, entityId := f.tid, hostName := f.host
    topic :=
      { hgname := f.group, tname := f.tname, dtName := i.name, dtEnc := i.enc, dtDesc := i.desc
        attr := s.attr, tsize := BitVec.ofNat 32 s.r.size
        tlayer := [layer 1 c.udp (decide (Reader.Layer.udp ∈ s.r.active)), layer 4 c.shm (decide (Reader.Layer.shm ∈ s.r.active)), layer 5 c.tcp (decide (Reader.Layer.tcp ∈ s.r.active))]
        pname := f.pname, uname := e.unit, dclock := BitVec.ofNat 64 s.r.clock, dfreq := e.freq
        drops := BitVec.ofInt 32 s.r.drops, connLoc := 0, connExt := 0 } }

/-! ## Monitoring -/

/-- `Monitoring::STopicMon` (core/include/ecal/types/monitoring.h L72-97) without the heart
beat counter; the three layers are kept as three flags. -/
structure Entry where
  hname     : Bytes
  hgname    : Bytes
  pid       : BitVec 32
  pname     : Bytes
  uname     : Bytes
  tid       : Bytes
  tname     : Bytes
  publisher : Bool
  info      : Info
  udp       : Bool
  shm       : Bool
  tcp       : Bool
  tsize     : BitVec 32
  connLoc   : BitVec 32
  connExt   : BitVec 32
  drops     : BitVec 32
  did       : BitVec 64
  dclock    : BitVec 64
  dfreq     : BitVec 32
  attr      : List (Bytes × Bytes)
deriving Repr, DecidableEq

/-- A layer of this type is flagged active (`RegisterTopic` L203-211). -/
def anyActive (t : BitVec 32) (l : List TLayer) : Bool := l.any (fun x => x.type == t && x.active)

/-- `RegisterTopic` (L197-335): the entry made of a registration.  The caller chooses the map
by the command (`bct_reg_publisher` is 2). -/
def entry (m : RegSample) : Entry :=
  { hname := m.hostName, hgname := m.topic.hgname, pid := m.processId, pname := m.topic.pname, uname := m.topic.uname
    tid := m.entityId, tname := m.topic.tname, publisher := m.cmd == 2
    info := { name := m.topic.dtName, enc := m.topic.dtEnc, desc := m.topic.dtDesc }
    udp := anyActive 1 m.topic.tlayer, shm := anyActive 4 m.topic.tlayer, tcp := anyActive 5 m.topic.tlayer
    tsize := m.topic.tsize, connLoc := m.topic.connLoc, connExt := m.topic.connExt, drops := m.topic.drops
    did := m.topic.did, dclock := m.topic.dclock, dfreq := m.topic.dfreq, attr := m.topic.attr }

end Ecal.MonTopic
