import Verif.Life.Init

/-!
# API objects and the gates they are registered with

Code modelled: `/repo/ecal/core/src/pubsub/ecal_publisher.cpp` L38-128 (`CPublisher` construction, moving, `Create`,
`Destroy`), L160-181 (`Send`), L201-209 (`IsSubscribed`); `/repo/ecal/core/src/pubsub/ecal_subscriber.cpp` L37-122,
L143-160, L175-179; `/repo/ecal/core/src/service/ecal_service_server.cpp` L73-106;
`/repo/ecal/core/src/service/ecal_service_client.cpp` L95-128; the gates
`/repo/ecal/core/src/pubsub/ecal_pubgate.cpp` L39-111, L199-209, `/repo/ecal/core/src/pubsub/ecal_subgate.cpp` L43-102,
`/repo/ecal/core/src/service/ecal_servicegate.cpp` L35-107, `/repo/ecal/core/src/service/ecal_clientgate.cpp` L38-98,
L131-141; starting and stopping of what an object owns: `/repo/ecal/core/src/readwrite/ecal_writer.cpp` L96-166,
`/repo/ecal/core/src/readwrite/ecal_reader.cpp` L65-144, `/repo/ecal/core/src/service/ecal_service_server_impl.cpp` L63-79,
L128-173, `/repo/ecal/core/src/service/ecal_service_client_impl.cpp` L69-131;
`/repo/ecal/core/src/service/ecal_service_singleton_manager.cpp` L125-187 (`stopped`);
`/repo/ecal/core/src/ecal_globals.cpp` L101-153, L214-223 (creating and starting the gates), L286-301, L326-335
(stopping and destroying them).  Initialising and finalising itself is the model `Ecal.Life` (`Verif.Life.Init`).

An API object (`CPublisher`, `CSubscriber`, `CServiceServer`, `CServiceClient`) owns an implementation object.  The gate of
its kind holds a pointer to that as well: a shared one for publishers and subscribers, a raw one for servers and clients.
Every access through a pointer to an implementation that was freed, and the call of a member function of a gate that does
not exist, is the outcome `none`.

Simplifications: the calls of the application and the work of the registration threads on a gate are atomic steps (threads
that run during `Finalize` are the subject of `Verif.Life.Finalize`, the locks of the gates that of `Verif.Sync`); of
an implementation only its kind, its name, whether it is started (`m_created`) and its counterparts (`m_sub_map`,
`m_pub_map`, `m_connected_services_map`) are kept.  Constructors with a name are `create` on a new object.
-/

namespace Ecal.Life.Obj

abbrev Name := List Char

inductive Kind where
  | pub | sub | srv | cli
deriving DecidableEq, Repr

/-- Publishers and subscribers: shared pointers in the gate, movable objects, the name must not be empty. -/
def Kind.topic : Kind → Bool
  | .pub | .sub => true
  | .srv | .cli => false

/-- The component that brings the gate of a kind (`ecal_globals.cpp` L105, L119, L130; `ecal_init.h` L31-36). -/
def Kind.bit : Kind → Nat
  | .pub => 0
  | .sub => 1
  | .srv => 2
  | .cli => 2

/-- What an API object owns: `CDataWriter`, `CDataReader`, `CServiceServerImpl`, `CServiceClientImpl`. -/
structure Impl where
  kind : Kind
  name : Name
  /-- its `m_created` -/
  run : Bool
  /-- the counterparts it knows -/
  peers : List Nat
deriving DecidableEq, Repr

/-- An API object: its `m_created` and its pointer. -/
structure Obj where
  created : Bool := false
  impl : Option Nat := none
deriving DecidableEq, Repr

structure World where
  life : Life.State
  /-- the static `m_created` of the gate of a kind -/
  flag : Kind → Bool
  /-- the pointers in the gate of a kind -/
  gate : Kind → List Nat
  /-- `ServiceManager::stopped` -/
  mgrStopped : Bool
  /-- the memory: implementations that were not freed -/
  impls : Nat → Option Impl
  /-- the next address -/
  next : Nat
  objs : Kind → Nat → Obj

/-- After the start of the program. -/
def start : World :=
  { life := Life.start, flag := fun _ => false, gate := fun _ => [], mgrStopped := false, impls := fun _ => none,
    next := 0, objs := fun _ _ => {} }

/-- The gate of a kind exists (`g_pubgate() != nullptr` …). -/
def up (w : World) (k : Kind) : Bool :=
  match w.life.ctx with
  | none => false
  | some c => c.inst.testBit k.bit

def setGate (w : World) (k : Kind) (l : List Nat) : World :=
  { w with gate := fun q => if q = k then l else w.gate q }

def setObj (w : World) (k : Kind) (o : Nat) (x : Obj) : World :=
  { w with objs := fun q p => if q = k ∧ p = o then x else w.objs q p }

def setImpl (w : World) (i : Nat) (m : Option Impl) : World :=
  { w with impls := fun j => if j = i then m else w.impls j }

/-- `Stop()` of an implementation.  The reader keeps the publishers it knows (`ecal_reader.cpp` L114-144), the writer drops
the subscribers (`ecal_writer.cpp` L148-151); of a server or client nothing is reported any more once it is stopped. -/
def stopped (m : Impl) : Impl :=
  if m.run then { m with run := false, peers := if m.kind = .sub then m.peers else [] } else m

/-- `ptr->Stop()`. -/
def stopAt (w : World) (i : Nat) : Option World :=
  match w.impls i with
  | none => none
  | some m => some (setImpl w i (some (stopped m)))

/-- `for (…) service->Stop()` -/
def stopEach : World → List Nat → Option World
  | w, [] => some w
  | w, i :: l => match stopAt w i with
    | none => none
    | some w' => stopEach w' l

/-- A server is started unless the service manager was stopped (`ecal_service_server_impl.cpp` L76-79), the others always. -/
def starts (w : World) (k : Kind) : Bool := if k = .srv then !w.mgrStopped else true

/-- `Create(name)`: the result and the new state.  `CPublisher` and `CSubscriber` do not check whether the gate exists. -/
def create (w : World) (k : Kind) (o : Nat) (n : Name) : Option (World × Bool) :=
  if (w.objs k o).created then some (w, false)
  else if k.topic ∧ n = [] then some (w, false)
  else if k.topic ∧ up w k = false then none
  else
    let i := w.next
    let w1 := { setImpl w i (some ⟨k, n, starts w k, []⟩) with next := w.next + 1 }
    let w2 := if up w k ∧ w.flag k then setGate w1 k (w.gate k ++ [i]) else w1
    some (setObj w2 k o ⟨true, some i⟩, true)

/-- The object gives its pointer up.  The last shared pointer frees the writer or reader; server and client are freed. -/
def release (w : World) (k : Kind) (i : Nat) : World :=
  if k.topic ∧ i ∈ w.gate k then w else setImpl w i none

/-- `Destroy()` -/
def destroy (w : World) (k : Kind) (o : Nat) : Option (World × Bool) :=
  if (w.objs k o).created = false then some (w, false)
  else match (w.objs k o).impl with
    | none => none
    | some i =>
      let w1 := if up w k ∧ w.flag k then setGate w k ((w.gate k).erase i) else w
      match stopAt w1 i with
      | none => none
      | some w2 => some (setObj (release w2 k i) k o {}, true)

/-- `dst = std::move(src)`; with a new `dst` the move constructor. -/
def move (w : World) (k : Kind) (dst src : Nat) : Option World :=
  if k.topic = false then some w
  else match destroy w k dst with
    | none => none
    | some (w', _) => some (setObj (setObj w' k dst (w'.objs k src)) k src {})

/-- The kind's part of `CGlobals::Finalize`: `Stop()` of the gate. -/
def stopGate (w : World) (k : Kind) : Option World :=
  if up w k ∧ w.flag k then
    match stopEach w (w.gate k) with
    | none => none
    | some w' =>
      some { (if k.topic then setGate w' k [] else w') with flag := fun q => if q = k then false else w'.flag q }
  else some w

/-- `CGlobals::Finalize` (`ecal_globals.cpp` L286-301, L326-335): the service manager, the gates in this order, then the
gates are destroyed. -/
def finalizeAll (w : World) : Option World :=
  match stopGate { w with mgrStopped := true } .cli with
  | none => none
  | some w1 => match stopGate w1 .srv with
    | none => none
    | some w2 => match stopGate w2 .pub with
      | none => none
      | some w3 => match stopGate w3 .sub with
        | none => none
        | some w4 => some { w4 with gate := fun _ => [] }

/-- `Finalize()` goes on to `CGlobals::Finalize`, and that does not return at once. -/
def finalizes (st : Life.State) : Bool :=
  match st.ctx with
  | none => false
  | some c => c.initialized && decide (¬ st.ref - 1 > 0)

/-- What `CGlobals::Initialize` does besides creating the instances (`ecal_globals.cpp` L133, L214-223). -/
def started (w : World) (comps : Nat) : World :=
  { w with
    flag := fun k => if comps.testBit k.bit then true else w.flag k
    mgrStopped := if comps.testBit 2 then false else w.mgrStopped }

def lifeStep (w : World) (c : Life.Call) : Option World :=
  match Life.step w.life c with
  | none => none
  | some st => match c with
    | .finalize =>
      match (if finalizes w.life then finalizeAll w else some w) with
      | none => none
      | some w' => some { w' with life := st }
    | .initArgs comps => some { started w comps with life := st }
    | .initCfg comps => some { started w comps with life := st }
    | .newConfig => some { w with life := st }
    | .utilGetMonitoring => some { w with life := st }

/-- A counterpart with this name registers: the gate goes through its pointers. -/
def applyPeer (n : Name) (p : Nat) : World → List Nat → Option World
  | w, [] => some w
  | w, i :: l => match w.impls i with
    | none => none
    | some m =>
      applyPeer n p (if m.name = n then setImpl w i (some { m with peers := if p ∈ m.peers then m.peers else p :: m.peers })
        else w) l

/-- A counterpart unregisters or expires. -/
def losePeer (w : World) (k : Kind) (i p : Nat) : Option World :=
  if i ∈ w.gate k then
    match w.impls i with
    | none => none
    | some m => some (setImpl w i (some { m with peers := m.peers.filter (· ≠ p) }))
  else some w

/-- `GetRegistrations` of a gate: what the registration thread announces. -/
def announced (w : World) (k : Kind) : Option (List Name) :=
  if up w k ∧ w.flag k then (w.gate k).mapM (fun i => (w.impls i).map (·.name)) else some []

inductive Label where
  | life (c : Life.Call)
  | create (k : Kind) (o : Nat) (n : Name)
  | destroy (k : Kind) (o : Nat)
  | move (k : Kind) (dst src : Nat)
  | peer (k : Kind) (n : Name) (p : Nat)
  | lost (k : Kind) (i p : Nat)
  | announce (k : Kind)
deriving DecidableEq, Repr

def step (w : World) : Label → Option World
  | .life c => lifeStep w c
  | .create k o n => (create w k o n).map (·.1)
  | .destroy k o => (destroy w k o).map (·.1)
  | .move k d s => move w k d s
  | .peer k n p => if up w k then applyPeer n p w (w.gate k) else some w
  | .lost k i p => if up w k then losePeer w k i p else some w
  | .announce k => (announced w k).map (fun _ => w)

def run : World → List Label → Option World
  | w, [] => some w
  | w, a :: l => match step w a with
    | some w' => run w' l
    | none => none

/-- `CPublisher::Send` of `len` bytes: the result, and whether the data goes on to the transport layers. -/
def send (w : World) (o len : Nat) : Option (Nat × Bool) :=
  if (w.objs .pub o).created = false then some (0, false)
  else match (w.objs .pub o).impl with
    | none => none
    | some i => match w.impls i with
      | none => none
      | some m => if m.peers = [] then some (len, false) else some (len, true)

/-- `IsSubscribed` and `IsPublished`. -/
def hasPeers (w : World) (k : Kind) (o : Nat) : Option Bool :=
  match (w.objs k o).impl with
  | none => some false
  | some i => match w.impls i with
    | none => none
    | some m => some (decide (m.peers ≠ []))

/-- `AddReceiveCallback` of a subscriber. -/
def addCallback (w : World) (o : Nat) : Option Bool :=
  match (w.objs .sub o).impl with
  | none => some false
  | some i => match w.impls i with
    | none => none
    | some m => some m.run

end Ecal.Life.Obj
