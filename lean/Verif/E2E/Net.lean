import Verif.Writer.Model
import Verif.Udp.Frame
import Verif.Wire.Payload

/-!
# From `Send` to the subscriber over the network

Composition of the models of the publisher (`Ecal.Writer`), the serialisation
(`Ecal.Wire`), the UDP framing (`Ecal.Udp`) and the subscriber (`Ecal.Reader`): the bytes
that `CDataWriterUdpMC::Write` and `CDataWriterTCP::Write` hand to the network, and what the
receiving process does with bytes that come in.

Names are byte strings on the wire; the publisher and subscriber models use `String`s as
identities, `str` translates.
-/

namespace Ecal.E2E

open Ecal.Wire (PayloadSample TcpMsg)

abbrev Bytes := List UInt8

/-- A name as an identity of the other models (one character per byte). -/
def str (b : Bytes) : String := String.ofList (b.map (fun x => Char.ofNat x.toNat))

/-- Members `m_host_name`, `m_topic_name`, `m_topic_id` of the layer writers. -/
structure Names where
  host  : Bytes
  topic : Bytes
  tid   : Bytes
deriving Repr, DecidableEq

/-- The sample `CDataWriterUdpMC::Write` builds
(core/src/readwrite/udp/ecal_writer_udp.cpp L74-95): `bct_set_sample` is 1
(core/src/serialization/ecal_struct_sample_common.h L32); `content.size` is not set. -/
def udpSample (n : Names) (s : Reader.Sample) : PayloadSample :=
  { cmd := 1, hname := n.host, tname := n.topic, tid := n.tid, id := .ofInt 64 s.id,
    clock := .ofInt 64 s.clock, time := .ofInt 64 s.time, hash := .ofNat 64 s.hash,
    payload := s.payload }

/-- What it hands to the socket (L97-116 with `CSampleSender::Send`). -/
def datagram (n : Names) (s : Reader.Sample) : Bytes :=
  Udp.encode n.topic (Wire.serializePayload (udpSample n s))

/-- What `CDataWriterTCP::Write` hands to the connection
(core/src/readwrite/tcp/ecal_writer_tcp.cpp L76-152). -/
def tcpMessage (n : Names) (s : Reader.Sample) : TcpMsg :=
  Wire.tcpWrite n.topic n.tid (.ofInt 64 s.id) (.ofInt 64 s.clock) (.ofInt 64 s.time)
    (.ofNat 64 s.hash) s.payload

/-- The arguments of `CDataReader::ApplySample` taken from a parsed sample
(core/src/pubsub/ecal_subgate.cpp L131-174, core/src/readwrite/tcp/ecal_reader_tcp.cpp
L108-120). -/
def fromWire (m : PayloadSample) (payload : Bytes) (l : Reader.Layer) : Reader.Sample :=
  { tid := str m.tid, payload := payload, id := m.id.toInt, clock := m.clock.toInt,
    time := m.time.toInt, hash := m.hash.toNat, layer := l }

/-- The receiving process: the UDP receiver is listening, the header object of the TCP
reader (`m_ecal_header`, reused for every message), one subscriber and what its application
observed. -/
structure Rcv where
  armed : Bool := true
  hdr   : PayloadSample := {}
  rd    : Reader.State := Reader.init
  evs   : List Reader.Ev := []
deriving Repr, DecidableEq

/-- What happens at the receiving process. -/
inductive In where
  | udp (e : Udp.Ev)                            -- completion of the UDP receive operation
  | tcp (msg : Bytes) (left : PayloadSample)    -- a TCP message; `left`: the header object, should it fail to parse
  | app (op : Reader.Op)                        -- a call of the application, or a sample from shared memory
deriving Repr, DecidableEq

/-- A call on the subscriber. -/
def feed (rc : Reader.Config) (r : Rcv) (op : Reader.Op) : Rcv :=
  let x := Reader.step rc r.rd op
  { r with rd := x.1, evs := r.evs ++ x.2 }

/-- `CSubGate::ApplySample` for serialised samples (ecal_subgate.cpp L110-183), as far as this
subscriber is concerned; the routing by topic name is that of `Ecal.Gate`. -/
def subApply (rc : Reader.Config) (topic : Bytes) (r : Rcv) (data : Bytes) : Rcv :=
  match Wire.deserializePayload {} data with
  | none => r
  | some m =>
    if m.cmd = 1 ∧ m.tname = topic then feed rc r (.sample (fromWire m m.payload .udp)) else r

/-- `has`: topics with a subscriber in the process (`HasSample`, ecal_subgate.cpp L104-108).
`none`: undefined behaviour. -/
def step (rc : Reader.Config) (has : Bytes → Bool) (topic : Bytes) (r : Rcv) : In → Option Rcv
  | .udp e =>
    match Udp.rx has { armed := r.armed } e with
    | none => none
    | some x => some (x.applied.foldl (fun r p => subApply rc topic r p.2) { r with armed := x.armed })
  | .tcp msg left =>                                   -- OnTcpMessage, ecal_reader_tcp.cpp L89-123
    match Wire.tcpRead r.hdr msg with
    | .overread => none
    | .dropped => some { r with hdr := left }
    | .sample h p =>
      some (if h.tname = topic then feed rc { r with hdr := h } (.sample (fromWire h p .tcp))
        else { r with hdr := h })
  | .app op => some (feed rc r op)

def run (rc : Reader.Config) (has : Bytes → Bool) (topic : Bytes) : Rcv → List In → Option Rcv
  | r, [] => some r
  | r, i :: is => match step rc has topic r i with
    | none => none
    | some r' => run rc has topic r' is

/-- The copy of a sample as it arrives; `none`: the write has undefined behaviour.  Shared
memory is not modelled here: the copy arrives as it is (see `Ecal.Shm`). -/
def arrival (n : Names) (s : Reader.Sample) : Option In :=
  match s.layer with
  | .udp => some (.udp (.datagram (datagram n s)))
  | .tcp => match tcpMessage n s with
    | .ok msg => some (.tcp msg {})
    | .overflow => none
  | _ => some (.app (.sample s))

end Ecal.E2E
