import Verif.Conn.Model
import Verif.Reader.Model

/-!
# Publisher gate and subscriber gate

`CPubGate` (core/src/pubsub/ecal_pubgate.cpp) and `CSubGate` (core/src/pubsub/
ecal_subgate.cpp) keep all publishers/subscribers of the process in a multimap by topic
name and hand registrations and samples to those with the right name.  Both maps are
protected by a shared mutex; each call is one atomic step (a sample is handed to the readers
after the mutex is released; as every reader has its own lock, the step can be split into
one step per reader, which changes nothing for a single reader).
-/

namespace Ecal.Gate

/-! ## The multimap (both gates) -/

/-- An entry of `m_topic_name_datawriter_map` / `m_topic_name_datareader_map`; `id` stands
for the object identity (the `shared_ptr`). -/
structure Obj (σ : Type) where
  id   : Nat
  name : String
  st   : σ
deriving Repr

/-- Effect of a call on the gate.  `ω`: operations of the objects. -/
inductive GOp (σ ω : Type) where
  | register (id : Nat) (name : String) (s0 : σ)   -- Register (pubgate L82-91, subgate L73-82)
  | unregister (id : Nat) (name : String)          -- Unregister (L93-111 / L84-102)
  | toTopic (name : String) (op : ω)               -- loop over equal_range(name)
  | toAll (op : ω)                                 -- loop over the whole map

/-- Erase the first entry with this object under this name. -/
def eraseFirst {σ : Type} (id : Nat) (name : String) : List (Obj σ) → List (Obj σ)
  | [] => []
  | o :: g => if o.id = id ∧ o.name = name then g else o :: eraseFirst id name g

def gstep {σ ω : Type} (f : σ → ω → σ) (g : List (Obj σ)) : GOp σ ω → List (Obj σ)
  | .register id name s0 => g ++ [{ id, name, st := s0 }]
  | .unregister id name  => eraseFirst id name g
  | .toTopic name op     => g.map (fun o => if o.name = name then { o with st := f o.st op } else o)
  | .toAll op            => g.map (fun o => { o with st := f o.st op })

/-! ## Registrations -/

/-- Announced layer: type, version, enabled flag. -/
inductive LType where
  | udp | shm | tcp | other
deriving Repr, DecidableEq

structure Layer where
  type    : LType
  version : Int
  enabled : Bool
deriving Repr, DecidableEq

/-- The parts of a publisher/subscriber registration used by the gates. -/
structure Reg where
  topic   : String
  peer    : Conn.Peer
  layers  : List Layer
  connLoc : Int
  connExt : Int
deriving Repr, DecidableEq

/-- Object state of both gates as far as connections are concerned: the connection state
and the notifications given so far (`none`: undefined behaviour in the expiring map, shown
unreachable). -/
abbrev CS := Option (Conn.State × List Conn.Ev)

def cstep (s : CS) (x : Int × Conn.Op) : CS :=
  s.bind (fun r => (Conn.step r.1 x.1 x.2).map (fun r2 => (r2.1, r.2 ++ r2.2)))

/-- Calls on the publisher gate. -/
inductive POp where
  | create (id : Nat) (name : String) (timeout : Int)
  | destroy (id : Nat) (name : String)
  | subReg (now : Int) (r : Reg)            -- ApplySubRegistration (L113-172)
  | subUnreg (now : Int) (r : Reg)          -- ApplySubUnregistration (L174-197)
  | cycle (now : Int)                       -- GetRegistrations (L199-210)
deriving Repr, DecidableEq

/-- What a call on the publisher gate does to the multimap (`[]`: nothing).  The clock is
read by each writer; one value per call is a simplification. -/
def pubGateOps : POp → List (GOp CS (Int × Conn.Op))
  | .create id name timeout => [.register id name (some (Conn.init timeout, []))]
  | .destroy id name => [.unregister id name]
  | .subReg now r   => if r.topic = "" then [] else [.toTopic r.topic (now, .apply r.peer)]
  | .subUnreg now r => if r.topic = "" then [] else [.toTopic r.topic (now, .remove r.peer)]
  | .cycle now      => [.toAll (now, .check)]

def pubGateRun (g : List (Obj CS)) (h : List POp) : List (Obj CS) :=
  (h.flatMap pubGateOps).foldl (gstep cstep) g

/-- Calls on the subscriber gate concerning registrations; `myHost` is the name of the own
host. -/
inductive SOp where
  | create (id : Nat) (name : String) (timeout : Int)
  | destroy (id : Nat) (name : String)
  | pubReg (now : Int) (r : Reg)            -- ApplyPubRegistration (L212-274)
  | pubUnreg (now : Int) (r : Reg)          -- ApplyPubUnregistration (L276-299)
  | cycle (now : Int)
deriving Repr, DecidableEq

/-- The condition of L262-266. -/
def confirmed (myHost : String) (r : Reg) : Bool :=
  (r.peer.host == myHost && r.connLoc > 0) || (r.peer.host != myHost && r.connExt > 0)

def subGateOps (myHost : String) : SOp → List (GOp CS (Int × Conn.Op))
  | .create id name timeout => [.register id name (some (Conn.init timeout, []))]
  | .destroy id name => [.unregister id name]
  | .pubReg now r   =>
    if r.topic = "" then [] else
    if confirmed myHost r then [.toTopic r.topic (now, .apply r.peer)] else []
  | .pubUnreg now r => if r.topic = "" then [] else [.toTopic r.topic (now, .remove r.peer)]
  | .cycle now      => [.toAll (now, .check)]

def subGateRun (myHost : String) (g : List (Obj CS)) (h : List SOp) : List (Obj CS) :=
  (h.flatMap (subGateOps myHost)).foldl (gstep cstep) g

/-- `connections_loc`/`connections_ext` in a publisher's registration
(readwrite/ecal_writer.cpp L691-706). -/
def connCounts (myHost : String) (s : Conn.State) : Int × Int :=
  let loc := (s.map.map.filter (fun e => e.1.host == myHost)).length
  (loc, s.map.map.length - loc)

/-! ## Samples -/

/-- `CSubGate::ApplySample` (L110-210): every reader of the topic gets the sample.  Object
state: reader state and its observable effects so far.  Other calls of the application on
one reader are `call`. -/
inductive DOp where
  | create (id : Nat) (name : String)
  | destroy (id : Nat) (name : String)
  | sample (topic : String) (s : Reader.Sample)
deriving Repr, DecidableEq

def rstep (c : Reader.Config) (s : Reader.State × List Reader.Ev) (op : Reader.Op) :
    Reader.State × List Reader.Ev :=
  let r := Reader.step c s.1 op
  (r.1, s.2 ++ r.2)

def dataOps : DOp → List (GOp (Reader.State × List Reader.Ev) Reader.Op)
  | .create id name => [.register id name (Reader.init, [])]
  | .destroy id name => [.unregister id name]
  | .sample topic s => [.toTopic topic (.sample s)]

def dataRun (c : Reader.Config) (g : List (Obj (Reader.State × List Reader.Ev))) (h : List DOp) :
    List (Obj (Reader.State × List Reader.Ev)) :=
  (h.flatMap dataOps).foldl (gstep (rstep c)) g

/-- Return value of `ApplySample`: the result of the *last* reader only
(`applied_size = reader->ApplySample(...)`, L163, L206); the size of the payload if that
reader took the sample, so empty payloads count as not applied. -/
def appliedResult (accepted : List Bool) (size : Nat) : Bool :=
  match accepted.getLast? with
  | some true => decide (size > 0)
  | _ => false

end Ecal.Gate
