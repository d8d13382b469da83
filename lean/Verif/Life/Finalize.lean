/-!
# Finalising while background threads run

Code modelled: `/repo/ecal/core/src/ecal_globals.cpp` L275-349 (`CGlobals::Finalize`), `/repo/ecal/core/src/ecal.cpp`
L192-201 (`Finalize`), and the way background threads and callbacks reach the parts of the library:
`if (g_subgate() != nullptr) g_subgate()->…` (`/repo/ecal/core/src/readwrite/udp/ecal_reader_udp.cpp` L107-117,
`/repo/ecal/core/src/readwrite/tcp/ecal_reader_tcp.cpp` L105-111, `/repo/ecal/core/src/readwrite/shm/ecal_reader_shm.cpp`
L66-68, `/repo/ecal/core/src/registration/ecal_registration_sample_applier_gates.cpp` L43-65,
`/repo/ecal/core/src/registration/ecal_registration_provider.cpp` L153-166, `/repo/ecal/core/src/logging/ecal_log.cpp`
L61), with `g_subgate()` etc. of `/repo/ecal/core/src/ecal_global_accessors.cpp` L91-186: the pointer is fetched, then
used, without a lock.

A *visit* is the time from fetching the pointer of a part until the last access through it.  A thread of a kind can
begin a visit as long as it was not joined and the pointer is not null; any number of threads of a kind can have any
number of visits.  Joining a thread waits until it has no visit.  An access through the pointer of a destroyed part is
the outcome `freed`.

Simplifications: stopping the parts before their destruction is not modelled, only the joins of threads it contains;
threads of the application that call the library during `Finalize` are left out.
-/

namespace Ecal.Life.Fin

/-- An action of `Finalize` on threads of kind `K` and parts `G`. -/
inductive Act (K G : Type) where
  /-- wait for the end of the threads of a kind -/
  | join (k : K)
  /-- destroy a part -/
  | del (g : G)
deriving DecidableEq, Repr

structure State (K G : Type) where
  /-- the actions still to come -/
  prog : List (Act K G)
  /-- the parts that were destroyed -/
  deleted : List G
  /-- the kinds that were joined -/
  joined : List K
  /-- the visits -/
  visits : List (K × G)
deriving DecidableEq, Repr

inductive Label (K G : Type) where
  /-- a thread of kind `k` fetches the pointer of part `g` -/
  | enter (k : K) (g : G)
  /-- the `i`-th visit accesses its part -/
  | access (i : Nat)
  /-- the `i`-th visit ends -/
  | leave (i : Nat)
  /-- the next action of `Finalize` -/
  | fin
deriving DecidableEq, Repr

inductive Out (K G : Type) where
  | ok (s : State K G)
  /-- not possible (now) -/
  | blocked
  /-- access to a destroyed part -/
  | freed
deriving DecidableEq, Repr

variable {K G : Type} [DecidableEq K] [DecidableEq G]

/-- One step; `uses k g`: threads of kind `k` use part `g`. -/
def step (uses : K → G → Bool) (s : State K G) : Label K G → Out K G
  | .enter k g =>
    if uses k g = true ∧ k ∉ s.joined ∧ g ∉ s.deleted then .ok { s with visits := (k, g) :: s.visits } else .blocked
  | .access i =>
    match s.visits[i]? with
    | none => .blocked
    | some v => if v.2 ∈ s.deleted then .freed else .ok s
  | .leave i => if i < s.visits.length then .ok { s with visits := s.visits.eraseIdx i } else .blocked
  | .fin =>
    match s.prog with
    | [] => .blocked
    | .join k :: r => if k ∈ s.visits.map (·.1) then .blocked else .ok { s with prog := r, joined := k :: s.joined }
    | .del g :: r => .ok { s with prog := r, deleted := g :: s.deleted }

def run (uses : K → G → Bool) : State K G → List (Label K G) → Out K G
  | s, [] => .ok s
  | s, l :: ls => match step uses s l with
    | .ok s' => run uses s' ls
    | .blocked => .blocked
    | .freed => .freed

/-- Before `Finalize`. -/
def start (prog : List (Act K G)) : State K G := ⟨prog, [], [], []⟩

/-! ## The threads and parts of the library -/

/-- The parts, in the order of `ecal_globals.h`; `ctx` is the object that holds them (`g_globals_ctx`). -/
inductive Part
  | monitoring | timegate | servicegate | clientgate | pubgate | subgate | regReceiver | regProvider | descgate | memPool | memMap
  | log | ctx
deriving DecidableEq, Repr

/-- The background threads. -/
inductive Kind
  /-- the four threads of services and clients -/
  | service
  /-- the thread that receives registrations -/
  | regReceive
  /-- the thread that sends registrations -/
  | regSend
  /-- the threads that observe memory files -/
  | observer
  /-- the thread that receives log messages -/
  | logReceive
  /-- the thread that receives UDP payloads -/
  | udp
  /-- the threads that receive TCP payloads -/
  | tcpReader
  /-- the threads that send TCP payloads -/
  | tcpWriter
deriving DecidableEq, Repr

/-- Threads that run callbacks of the application can use every part; the log receiver uses the log only, the TCP
senders only write log messages (`ecal_tcp_pubsub_logger.h` L31-56). -/
def uses : Kind → Part → Bool
  | .logReceive, g => g = .log
  | .tcpWriter, g => g = .log ∨ g = .ctx
  | _, _ => true

/-- `CGlobals::Finalize` and `Finalize`: the joins are in `ServiceManager::stop` (L292; `ecal_service_singleton_manager.cpp`
L174-175), `CRegistrationReceiver::Stop` (L310), `CRegistrationProvider::Stop` (L311), `CMemFileThreadPool::Stop` (L314;
`ecal_memfile_pool.cpp` L360), and in the destructor of the log (L345; its receiver, `ecal_log_impl.h` L119).  The parts
are destroyed in L321-345, the context in `ecal.cpp` L198.  Nothing joins the UDP and TCP payload threads: they belong
to function-local static objects (`ecal_reader_layer.h` L66-74) and to `g_tcp_writer_executor`
(`ecal_writer_tcp.cpp` L44-49). -/
def finalize : List (Act Kind Part) :=
  [.join .service, .join .regReceive, .join .regSend, .join .observer,
   .del .monitoring, .del .timegate, .del .servicegate, .del .clientgate, .del .pubgate, .del .subgate, .del .regReceiver,
   .del .regProvider, .del .descgate, .del .memPool, .del .memMap, .join .logReceive, .del .log, .del .ctx]

end Ecal.Life.Fin
