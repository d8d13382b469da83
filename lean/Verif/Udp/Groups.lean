import Verif.Common.AMap

/-!
# UDP and TCP reader layers: which multicast groups / TCP readers exist

core/src/readwrite/udp/ecal_reader_udp.cpp L53-106,
core/src/readwrite/tcp/ecal_reader_tcp.cpp L56-87, L139-182.
-/

namespace Ecal.Udp

/-- What the application and the registration do: create a subscriber, destroy one. -/
inductive SubOp (T : Type) where
  | create (id : Nat) (topic : T)
  | destroy (id : Nat)
deriving Repr, DecidableEq

/-- `CUDPReaderLayer`: `m_started`, `m_local_mode`, `m_topic_name_mcast_map`; `joined` is the
kernel's membership set of the receive socket (joining a group twice is an error without
effect); `live` are the existing subscribers with their topics. -/
structure UdpLayer (T A : Type) where
  started : Bool := false
  counts  : AMap A Nat := []
  joined  : List A := []
  live    : List (Nat × T) := []
deriving Repr, DecidableEq

variable {T A : Type} [DecidableEq T] [DecidableEq A]

/-- Kernel join (`JoinMultiCastGroup`, ecal_udp_sample_receiver_asio.cpp L169-195; success
assumed). -/
def join (a : A) (l : List A) : List A := if a ∈ l then l else a :: l

/-- Kernel leave (`RemMultiCastGroup`, L79-105). -/
def leave (a : A) (l : List A) : List A := l.filter (fun x => x != a)

/-- `AddSubscription` (ecal_reader_udp.cpp L53-85), multicast mode; `addr` is
`UDP::GetTopicPayloadAddress`, `base` the address the receiver joins when it is created. -/
def udpAdd (addr : T → A) (base : A) (s : UdpLayer T A) (t : T) : UdpLayer T A :=
  let s := if s.started then s else { s with started := true, joined := join base s.joined }
  match s.counts.find (addr t) with
  | none => { s with joined := join (addr t) s.joined, counts := s.counts.set (addr t) 1 }
  | some n => { s with counts := s.counts.set (addr t) (n + 1) }

/-- `RemSubscription` (L87-106). -/
def udpRem (addr : T → A) (s : UdpLayer T A) (t : T) : UdpLayer T A :=
  match s.counts.find (addr t) with
  | none => s
  | some n =>
    if n - 1 = 0 then { s with joined := leave (addr t) s.joined, counts := s.counts.erase (addr t) }
    else { s with counts := s.counts.set (addr t) (n - 1) }

/-- The topic of a live subscriber. -/
def topicOf (live : List (Nat × T)) (id : Nat) : Option T := AMap.find live id

/-- Subscriber creation / destruction (`CDataReader::StartTransportLayer` /
`StopTransportLayer`, core/src/readwrite/ecal_reader.cpp L666-739, UDP part).  A subscriber
identity is used once at a time. -/
def udpStep (addr : T → A) (base : A) (s : UdpLayer T A) : SubOp T → UdpLayer T A
  | .create id t =>
    match topicOf s.live id with
    | some _ => s
    | none => { udpAdd addr base s t with live := (id, t) :: s.live }
  | .destroy id =>
    match topicOf s.live id with
    | none => s
    | some t => { udpRem addr s t with live := AMap.erase s.live id }

def udpRun (addr : T → A) (base : A) (s : UdpLayer T A) (h : List (SubOp T)) : UdpLayer T A :=
  h.foldl (udpStep addr base) s

/-! ### TCP -/

/-- `CTCPReaderLayer`: one `CDataReaderTCP` per topic name with its sessions
(host, port). -/
structure TcpLayer (T : Type) where
  readers : AMap T (List (String × Nat)) := []
  live    : List (Nat × T) := []
deriving Repr, DecidableEq

/-- `AddSubscription` (ecal_reader_tcp.cpp L139-150). -/
def tcpAdd (s : TcpLayer T) (t : T) : TcpLayer T :=
  match s.readers.find t with
  | some _ => s
  | none => { s with readers := s.readers.set t [] }

/-- `RemSubscription` (L152-164). -/
def tcpRem (s : TcpLayer T) (t : T) : TcpLayer T := { s with readers := s.readers.erase t }

/-- `SetConnectionParameter` (L166-182) and `AddConnectionIfNecessary` (L56-87): a publisher
of topic `t` at host:port was seen. -/
def tcpPeer (s : TcpLayer T) (t : T) (host : String) (port : Nat) : TcpLayer T :=
  match s.readers.find t with
  | none => s
  | some l =>
    if port % 65536 = 0 then s
    else if (host, port % 65536) ∈ l then s
    else { s with readers := s.readers.set t (l ++ [(host, port % 65536)]) }

inductive TcpOp (T : Type) where
  | create (id : Nat) (topic : T)
  | destroy (id : Nat)
  | peer (topic : T) (host : String) (port : Nat)
deriving Repr, DecidableEq

def tcpStep (s : TcpLayer T) : TcpOp T → TcpLayer T
  | .create id t =>
    match topicOf s.live id with
    | some _ => s
    | none => { tcpAdd s t with live := (id, t) :: s.live }
  | .destroy id =>
    match topicOf s.live id with
    | none => s
    | some t => { tcpRem s t with live := AMap.erase s.live id }
  | .peer t host port => tcpPeer s t host port

def tcpRun (s : TcpLayer T) (h : List (TcpOp T)) : TcpLayer T := h.foldl tcpStep s

/-- Messages of the publisher at host:port on topic `t` reach this process by TCP. -/
def tcpReceives (s : TcpLayer T) (t : T) (host : String) (port : Nat) : Prop :=
  ∃ l, s.readers.find t = some l ∧ (host, port) ∈ l

/-! ### Concurrent `AddSubscription` in the UDP layer

`CUDPReaderLayer` has no lock.  Two application threads create subscribers of the same
topic; the statements of L79-84 are separate steps: the check with the join, reading the
counter, writing it back. -/

inductive Pc where
  | start | checked | read (v : Nat) | done
deriving Repr, DecidableEq

/-- One multicast address: its counter and membership, and the two threads. -/
structure Race where
  count  : Option Nat := none
  joined : Bool := false
  pc1    : Pc := .start
  pc2    : Pc := .start
deriving Repr, DecidableEq

/-- The next statement of a thread in state `pc` (L79-84). -/
def addStmt (s : Race) : Pc → Race × Pc
  | .start => (match s.count with
      | none => { s with count := some 0, joined := true }
      | some _ => s, .checked)
  | .checked => (s, .read (s.count.getD 0))
  | .read v => ({ s with count := some (v + 1) }, .done)
  | .done => (s, .done)

/-- A step of thread 1 (`false`) or 2 (`true`). -/
def raceStep (s : Race) (second : Bool) : Race :=
  if second then
    let (s', pc) := addStmt s s.pc2
    { s' with pc2 := pc }
  else
    let (s', pc) := addStmt s s.pc1
    { s' with pc1 := pc }

/-- `RemSubscription` (L87-106) without interference. -/
def raceRem (s : Race) : Race :=
  match s.count with
  | none => s
  | some n => if n - 1 = 0 then { s with count := none, joined := false } else { s with count := some (n - 1) }

end Ecal.Udp
