import Verif.E2E.Disc
import Verif.E2E.Net

/-!
# From discovery to delivery

Composition of everything between a publisher and a subscriber: any number of processes find each other
(`Ecal.E2E.Disc`), every arriving registration of a subscriber makes a publisher choose and start a transport
layer (`Ecal.Writer`), `Send` hands copies of the message to the started layers, the copies travel (as bytes on
UDP and TCP, `Ecal.E2E.Net`) and reach the subscribers (`Ecal.Reader`).

The network keeps every copy.  A copy can reach any process at any time, more than once, or never; anything
else can come in as well (`noise`).

Simplifications: those of the parts; a connection map and the set of subscribers in the publisher model are the
same member `m_sub_map` and kept in step here; the UDP receiver of a process listens from the beginning; copies
on shared memory arrive as they are and only at subscribers of the topic (see `Ecal.E2E.Shm` for the way in
between); a UDP datagram is applied to all subscribers of the process in one step.
-/

namespace Ecal.E2E.Flow

open Ecal.Wire (RTopic TLayer)
open Ecal.Gate (Obj CS POp)
open Ecal.E2E.Disc (Proc)

/-- Configurations of the publishers and subscribers of all processes. -/
structure Cfg where
  wc : Nat → Nat → Writer.Config
  rc : Nat → Nat → Reader.Config

/-- A publisher has the host name of its process and its own id (readwrite/ecal_writer.cpp L72-134). -/
def wcfg (C : Cfg) (P : Nat → Proc) (p i : Nat) : Writer.Config :=
  { C.wc p i with host := str (P p).host, tid := str ((P p).ptid i) }

/-- The layers a subscriber announces (`GetRegistrationSample`, readwrite/ecal_reader.cpp L596-632): those it is
configured for (`StartTransportLayer` L666-700), version 2 (ecal_transport_layer.h L28).  Whether a layer is
active is taken from `old`. -/
def annLayers (c : Reader.Config) (old : List TLayer) : List TLayer :=
  [{ type := 1, version := 2, enabled := c.udp, active := (old[0]?.map TLayer.active).getD false },
   { type := 4, version := 2, enabled := c.shm, active := (old[1]?.map TLayer.active).getD false },
   { type := 5, version := 2, enabled := c.tcp, active := (old[2]?.map TLayer.active).getD false }]

/-- A registration cycle announces the layers. -/
def fix (C : Cfg) : Disc.In → Disc.In
  | .collect p now iS iP => .collect p now (fun j => { iS j with tlayer := annLayers (C.rc p j) (iS j).tlayer }) iP
  | x => x

/-- A publisher: its topic, its state and (for the specification only) all calls so far. -/
structure Pub where
  topic : Bytes
  st    : Writer.State := Writer.init
  log   : List Writer.Op := []

/-- A subscriber: its topic and its state. -/
structure Sub where
  topic : Bytes
  rcv   : Rcv := {}

/-- All processes; `net`: the copies handed to a layer so far; `armed`: the UDP receiver of the process is
listening. -/
structure World where
  disc  : Disc.World := {}
  pub   : Nat → Nat → Option Pub := fun _ _ => none
  sub   : Nat → Nat → Option Sub := fun _ _ => none
  net   : List (Names × Reader.Sample) := []
  armed : Nat → Bool := fun _ => true

/-- What can happen. -/
inductive In where
  | disc (x : Disc.In)                     -- creation, destruction, registration
  | send (p i : Nat) (m : Writer.Msg)      -- `Send` of publisher `i` of process `p`
  | arrive (p j k : Nat)                   -- the `k`-th copy reaches process `p` (if not UDP: subscriber `j`)
  | noise (p j : Nat) (i : E2E.In)         -- anything else comes in; calls of the application on a subscriber

/-- The subscribers a publisher knows according to the gate. -/
def peersOf (g : List (Obj CS)) (i : Nat) (name : String) : List Conn.Peer :=
  (g.filter (fun o => o.id = i ∧ o.name = name)).flatMap
    (fun o => match o.st with | some (s, _) => s.map.map.keys | none => [])

/-- What a call on the publisher gate means for the publisher: `ApplySubscription`, `RemoveSubscription`,
`CheckConnections` (the subscribers that are gone afterwards), `Stop`. -/
def wop (before after : List Conn.Peer) (i : Nat) (name : String) : POp → List Writer.Op
  | .create _ _ _ => []
  | .destroy i' n => if i' = i ∧ n = name then [.stop] else []
  | .subReg _ r => if r.topic ≠ "" ∧ r.topic = name then [.applySub r.peer r.layers] else []
  | .subUnreg _ r => if r.topic ≠ "" ∧ r.topic = name then [.dropSub r.peer] else []
  | .cycle _ => (before.filter (fun q => q ∉ after)).map .dropSub

/-- The calls on publisher `i` of process `p`. -/
def wops (P : Nat → Proc) (w : World) (x : Disc.In) (p i : Nat) (b : Pub) : List Writer.Op :=
  if b.st.created then
    (Disc.pubOps P w.disc p x).flatMap
      (wop (peersOf (w.disc.st p).pg i (str b.topic)) (peersOf (Disc.pg' P w.disc p x) i (str b.topic)) i
        (str b.topic))
  else []

/-- The publisher after these calls. -/
def Pub.calls (c : Writer.Config) (b : Pub) (ops : List Writer.Op) : Pub :=
  { b with st := (Writer.run c b.st ops).1, log := b.log ++ ops }

/-- Publisher `i` of process `p` after a step of discovery. -/
def pub' (C : Cfg) (P : Nat → Proc) (w : World) (x : Disc.In) (p i : Nat) : Option Pub :=
  match x with
  | .newPub p' i' t =>
    if p' = p ∧ i' = i then some { topic := t }
    else (w.pub p i).map (fun b => b.calls (wcfg C P p i) (wops P w x p i b))
  | x => (w.pub p i).map (fun b => b.calls (wcfg C P p i) (wops P w x p i b))

/-- Subscriber `j` of process `p` after a step of discovery (destruction: `Stop`, ecal_reader.cpp L114-144). -/
def sub' (C : Cfg) (w : World) (x : Disc.In) (p j : Nat) : Option Sub :=
  match x with
  | .newSub p' j' t => if p' = p ∧ j' = j then some { topic := t } else w.sub p j
  | .delSub p' j' t _ =>
    (w.sub p j).map (fun b =>
      if p' = p ∧ j' = j ∧ t = b.topic then { b with rcv := feed (C.rc p j) b.rcv .stop } else b)
  | _ => w.sub p j

/-- The names a publisher puts on its samples. -/
def names (P : Nat → Proc) (p i : Nat) (topic : Bytes) : Names :=
  { host := (P p).host, topic := topic, tid := (P p).ptid i }

/-- `HasSample` of the subscriber gate of process `p` (pubsub/ecal_subgate.cpp L104-108). -/
def has (w : World) (p : Nat) (topic : Bytes) : Bool :=
  (w.disc.st p).sg.any (fun o => o.name = str topic)

/-- What subscriber `j` of process `p` makes of an input (`none`: undefined behaviour). -/
def take (C : Cfg) (w : World) (p j : Nat) (b : Sub) (i : E2E.In) : Option Sub :=
  (E2E.step (C.rc p j) (has w p) b.topic { b.rcv with armed := w.armed p } i).map
    (fun r => { b with rcv := r })

/-- An input at process `p`: a UDP datagram is for all subscribers, the rest for subscriber `j`. -/
def input (C : Cfg) (w : World) (p j : Nat) (i : E2E.In) : Option World :=
  match i with
  | .udp e =>
    match Udp.rx (has w p) { armed := w.armed p } e with
    | none => none
    | some x =>
      some { w with
        armed := fun q => if q = p then x.armed else w.armed q
        sub := fun q j' => if q = p then (w.sub p j').bind (fun b => take C w p j' b (.udp e)) else w.sub q j' }
  | i =>
    match w.sub p j with
    | none => some w
    | some b =>
      match take C w p j b i with
      | none => none
      | some b' => some { w with sub := fun q j' => if q = p ∧ j' = j then some b' else w.sub q j' }

/-- The `k`-th copy reaches process `p`. -/
def arriveAt (C : Cfg) (w : World) (p j k : Nat) : Option World :=
  match w.net[k]? with
  | none => some w
  | some (n, s) =>
    match arrival n s with
    | none => some w
    | some i =>
      if s.layer = .udp ∨ s.layer = .tcp ∨ (w.sub p j).map Sub.topic = some n.topic then input C w p j i
      else some w

/-- One step; `none`: undefined behaviour. -/
def step (C : Cfg) (P : Nat → Proc) (w : World) : In → Option World
  | .disc x =>
    some { w with
      disc := Disc.step P w.disc (fix C x)
      pub := fun p i => pub' C P w (fix C x) p i
      sub := fun p j => sub' C w (fix C x) p j }
  | .send p i m =>
    match w.pub p i with
    | none => some w
    | some b =>
      let r := Writer.step (wcfg C P p i) b.st (.send m)
      if r.2.any (fun s => (arrival (names P p i b.topic) s).isNone) then none
      else some { w with
        pub := fun q i' => if q = p ∧ i' = i then some { b with st := r.1, log := b.log ++ [.send m] }
          else w.pub q i'
        net := w.net ++ r.2.map (fun s => (names P p i b.topic, s)) }
  | .arrive p j k => arriveAt C w p j k
  | .noise p j i => input C w p j i

def run (C : Cfg) (P : Nat → Proc) : World → List In → Option World
  | w, [] => some w
  | w, x :: h => match step C P w x with
    | none => none
    | some w' => run C P w' h

end Ecal.E2E.Flow
