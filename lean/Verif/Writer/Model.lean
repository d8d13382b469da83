import Verif.Gate.Model

/-!
# Publisher side: `CDataWriter` (core/src/readwrite/ecal_writer.cpp) and `CPublisher::Send`

Layer selection, send counter, sample hash and the sending of one sample over the started
layers.  The transport layers themselves are modelled elsewhere; here they are a list of
copies handed to them.
-/

namespace Ecal.Writer

/-- `TLayer::eTransportLayer` (core/include/ecal/ecal_tlayer.h); `none` and anything unknown
may appear in a configured priority list. -/
inductive TL where
  | udp | shm | tcp | unknown
deriving Repr, DecidableEq

/-- `Publisher::Configuration` as far as used here (core/include/ecal/config/publisher.h). -/
structure Config where
  udp        : Bool          -- layer.udp.enable
  shm        : Bool          -- layer.shm.enable
  tcp        : Bool          -- layer.tcp.enable
  prioLocal  : List TL       -- layer_priority_local
  prioRemote : List TL       -- layer_priority_remote
  zeroCopy   : Bool          -- layer.shm.zero_copy_mode
  host       : String        -- m_host_name
  tid        : String        -- m_topic_id
  tidHash    : BitVec 64     -- std::hash<std::string>()(m_topic_id); the hash function is a parameter
deriving Repr

/-- Subscriber side layer states from a registration (`CPubGate::ApplySubRegistration`
L128-153, core/src/pubsub/ecal_pubgate.cpp): a layer counts as enabled if the flag is set or
the announced version is below 2. -/
def readEnabled (ls : List Gate.Layer) (t : Gate.LType) : Bool :=
  ls.any (fun l => l.type == t && (l.enabled || decide (l.version < 2)))

/-- The lists `pub_layers` and `sub_layers` of `ApplySubscription` (L437-457). -/
def pubLayers (c : Config) : List TL :=
  (if c.udp then [.udp] else []) ++ (if c.shm then [.shm] else []) ++ (if c.tcp then [.tcp] else [])

def subLayers (ls : List Gate.Layer) : List TL :=
  (if readEnabled ls .udp then [.udp] else []) ++ (if readEnabled ls .shm then [.shm] else [])
    ++ (if readEnabled ls .tcp then [.tcp] else [])

/-- `DetermineTransportLayer2Start` (L931-949): the first layer of the priority list that is
in both lists, `none` for `tlayer_none`. -/
def determine (prio pub sub : List TL) : Option TL :=
  prio.find? (fun l => pub.contains l && sub.contains l)

/-- Members of `CDataWriter` used here.  `subs` is the key set of `m_sub_map`; its expiry is
modelled in `Ecal.Conn`, here expiry is an arbitrary `dropSub`. -/
structure State where
  created : Bool
  clock   : Nat              -- m_clock (long long, initially 0)
  udp     : Bool             -- m_writer_udp exists / write_enabled
  shm     : Bool
  tcp     : Bool
  subs    : List Conn.Peer
deriving Repr, DecidableEq

def init : State :=
  { created := true, clock := 0, udp := false, shm := false, tcp := false, subs := [] }

/-- `StartUdpLayer`, `StartShmLayer`, `StartTcpLayer` (L791-867): create the writer unless
started already. -/
def start (st : State) : Option TL → State
  | some .udp => { st with udp := true }
  | some .shm => { st with shm := true }
  | some .tcp => { st with tcp := true }
  | _ => st

/-- Sample hash `std::hash<SSndHash>` (L54-66): `h1 ^ (h2 << 1)` in 64 bit, where
`std::hash<long long>` is the identity (libstdc++). -/
def sndHash (c : Config) (clock : Nat) : BitVec 64 :=
  c.tidHash ^^^ (BitVec.ofNat 64 clock <<< 1)

/-- What the application hands to `CPublisher::Send`. -/
structure Msg where
  payload : List UInt8
  time    : Int
  id      : Int
deriving Repr, DecidableEq

inductive Op where
  | applySub (p : Conn.Peer) (ls : List Gate.Layer)  -- ApplySubscription (L433-504)
  | dropSub (p : Conn.Peer)                          -- RemoveSubscription (L506-529) or expiry
  | send (m : Msg)                                   -- CPublisher::Send (core/src/pubsub/ecal_publisher.cpp L160-181)
  | stop                                             -- Stop (L136-166)
deriving Repr, DecidableEq

/-- A copy of a sample handed to a transport layer. -/
def copyOf (c : Config) (clock : Nat) (m : Msg) (l : Reader.Layer) : Reader.Sample :=
  { tid := c.tid, payload := m.payload, id := m.id, clock := clock, time := m.time,
    hash := (sndHash c clock).toNat, layer := l }

/-- `Write` (L168-361) without interruption by `ApplySubscription`: counter and hash
(`PrepareWrite` L896-913), then the started layers in the order shm, udp, tcp.  The layers
succeed or fail on their own; only the hand-over is modelled. -/
def write (c : Config) (st : State) (m : Msg) : State × List Reader.Sample :=
  let k := st.clock + 1
  ({ st with clock := k },
   (if st.shm then [copyOf c k m .shm] else []) ++ (if st.udp then [copyOf c k m .udp] else [])
     ++ (if st.tcp then [copyOf c k m .tcp] else []))

def step (c : Config) (st : State) : Op → State × List Reader.Sample
  | .applySub p ls =>
    let prio := if c.host = p.host then c.prioLocal else c.prioRemote
    let st := start st (determine prio (pubLayers c) (subLayers ls))
    ({ st with subs := if p ∈ st.subs then st.subs else p :: st.subs }, [])
  | .dropSub p => ({ st with subs := st.subs.filter (fun q => q ≠ p) }, [])
  | .send m =>
    if !st.created then (st, []) else
    if st.subs.isEmpty then ({ st with clock := st.clock + 1 }, [])   -- RefreshSendCounter (L531-544)
    else write c st m
  | .stop => ({ st with created := false, udp := false, shm := false, tcp := false, subs := [] }, [])

/-- A history; the copies handed over by each call. -/
def run (c : Config) : State → List Op → State × List (List Reader.Sample)
  | st, [] => (st, [])
  | st, op :: h =>
    let r := step c st op
    let r2 := run c r.1 h
    (r2.1, r.2 :: r2.2)

/-! ## `Write` interleaved with the start of layers

`Write` reads `m_writer_udp`, `m_writer_tcp` several times without a lock while the
registration thread may create them (`ApplySubscription` → `StartUdpLayer`). -/

/-- Program counter of the sending thread inside `Write`. -/
inductive WPc where
  | idle
  | decided (m : Msg) (zc : Bool)    -- L176-185 done: zero copy decision
  | filled (m : Msg) (zc : Bool)     -- L188-195 done: payload buffer filled unless zero copy
  | shmDone (m : Msg) (zc : Bool)
  | udpDone (m : Msg) (zc : Bool)
deriving Repr, DecidableEq

/-- What a layer is given: the bytes, or `none` if it reads beyond the payload buffer. -/
structure Emit where
  layer : TL
  msg   : Msg
  bytes : Option (List UInt8)
deriving Repr, DecidableEq

structure WState where
  pc  : WPc
  buf : List UInt8       -- m_payload_buffer
  udp : Bool
  shm : Bool
  tcp : Bool
deriving Repr, DecidableEq

/-- `m_writer_xxx->Write(m_payload_buffer.data(), attr)` with `attr.len` the payload size
(L281, L297; L332, L339). -/
def fromBuf (buf : List UInt8) (m : Msg) : Option (List UInt8) :=
  if buf.length < m.payload.length then none else some (buf.take m.payload.length)

inductive WOp where
  | begin (m : Msg)      -- sending thread enters Write
  | next                 -- sending thread executes its next part
  | start (l : TL)       -- registration thread creates a layer writer
deriving Repr, DecidableEq

def wstep (zeroCopyMode : Bool) (s : WState) : WOp → WState × List Emit
  | .begin m =>
    match s.pc with
    | .idle => ({ s with pc := .decided m (zeroCopyMode && !s.udp && !s.tcp) }, [])
    | _ => (s, [])
  | .next =>
    match s.pc with
    | .idle => (s, [])
    | .decided m zc => ({ s with pc := .filled m zc, buf := if zc then s.buf else m.payload }, [])
    | .filled m zc =>
      ({ s with pc := .shmDone m zc },
       if s.shm then [⟨.shm, m, if zc then some m.payload else some s.buf⟩] else [])
    | .shmDone m zc =>
      ({ s with pc := .udpDone m zc }, if s.udp then [⟨.udp, m, fromBuf s.buf m⟩] else [])
    | .udpDone m _ =>
      ({ s with pc := .idle }, if s.tcp then [⟨.tcp, m, fromBuf s.buf m⟩] else [])
  | .start .udp => ({ s with udp := true }, [])
  | .start .shm => ({ s with shm := true }, [])
  | .start .tcp => ({ s with tcp := true }, [])
  | .start .unknown => (s, [])

def wrun (zc : Bool) : WState → List WOp → WState × List Emit
  | s, [] => (s, [])
  | s, op :: h =>
    let r := wstep zc s op
    let r2 := wrun zc r.1 h
    (r2.1, r.2 ++ r2.2)

def winit : WState := { pc := .idle, buf := [], udp := false, shm := false, tcp := false }

end Ecal.Writer
