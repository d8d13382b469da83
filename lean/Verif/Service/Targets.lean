import Verif.ExpMap.Model

/-!
# Which servers a service call goes to

Code modelled: `/repo/ecal/core/src/service/ecal_clientgate.cpp`: `ApplyServiceRegistration` L100-142 (the key, the
table of servers and its expiry), `GetServiceAttr` L144-158;
`/repo/ecal/core/src/service/ecal_clientgate.h` L67-69: the table is an expiration map that is constructed without a
timeout, i.e. with 5000 ms (`/repo/ecal/core/src/util/ecal_expmap.h` L182), whatever timeout is configured;
`/repo/ecal/core/src/service/ecal_service_client_impl.cpp`: `Start` L69-95 (methods), `SetHostName` L133-138, the
loops of `CallAsync` L338-391 and `CallBlocking` L483-563 over the servers, `CheckForNewServices` L711-749,
`GetRegistrationSample` L653-670, `IncrementMethodCallCount` L797-806.
Unregistrations of services are ignored
(`/repo/ecal/core/src/registration/ecal_registration_sample_applier_gates.cpp` L46-47).

One client of the process.  Time is in milliseconds and given to the steps that read the clock.
Simplifications.
* A call is one step: no registration arrives between `CheckForNewServices` and the loop of the same call.
* Servers are visited in the order of the table of the model (the code: in the order of their keys).
* The client manager is running (`CheckForNewServices` L723-724 gives up otherwise).
* The user and process names of a registration are left out.
* Numbers are those of the decoded sample: `pid` 32 bit signed, `version` unsigned, ports 16 bit.
-/

namespace Ecal.Service.Targets

open Ecal

/-- A service registration (L102-115). -/
structure Reg where
  sname   : String
  sid     : String
  pid     : Int
  hname   : String
  version : Nat
  portV0  : Nat
  portV1  : Nat
deriving DecidableEq, Repr, Inhabited

/-- The key of a server, L118. -/
def key (r : Reg) : String := r.sname ++ ":" ++ r.sid ++ "@" ++ toString r.pid ++ "@" ++ r.hname

/-- A session as it is created, L735-744: the protocol version as `uint8_t`, the port, the hosts to try. -/
structure Session where
  protocol : Nat
  port     : Nat
  hosts    : List String
deriving DecidableEq, Repr

/-- L735-744. -/
def connectTo (r : Reg) : Session :=
  let protocol := if r.portV1 ≠ 0 then r.version else 0
  let port := if protocol = 0 then r.portV0 else r.portV1
  { protocol := protocol % 256, port := port, hosts := [r.hname, r.hname ++ ".local"] }

structure State where
  servers  : ExpMap.State String Reg := ExpMap.init String Reg 5000
  name     : String                           -- the service name of the client
  host     : String := ""                     -- the host filter
  sessions : AMap String Session := []        -- `m_client_map`
  methods  : AMap String Unit                 -- `m_method_information_map` (the types are left out)
  counts   : AMap String Nat                  -- `m_method_call_count_map`

/-- `Start`: a client with the described methods. -/
def start (name : String) (described : List String) : State :=
  { name := name
    methods := described.foldl (fun m x => m.set x ()) []
    counts := described.foldl (fun m x => m.set x 0) [] }

/-- `ApplyServiceRegistration`, L121-129.  `none`: undefined behaviour of the expiration map. -/
def register (s : State) (now : Int) (r : Reg) : Option State :=
  match ExpMap.assign s.servers now default (key r) r with
  | none => none
  | some m => some { s with servers := (ExpMap.eraseExpired m now).1 }

/-- `GetServiceAttr` of the client's own service name, with the keys. -/
def attrs (s : State) : List (String × Reg) :=
  (s.servers.map.filter (fun e => e.2.1.sname = s.name)).map (fun e => (e.1, e.2.1))

/-- `CheckForNewServices`: one iteration. -/
def checkNew (m : AMap String Session) (e : String × Reg) : AMap String Session :=
  match m.find e.1 with
  | none => m.set e.1 (connectTo e.2)
  | some _ => m

/-- `CheckForNewServices`. -/
def check (s : State) : State := { s with sessions := (attrs s).foldl checkNew s.sessions }

/-- The servers a call goes to: host filter and session (L342-346, L486-493). -/
def targets (s : State) : List (String × Session) :=
  (attrs s).filterMap (fun e =>
    if s.host = "" ∨ s.host = e.2.hname then (s.sessions.find e.1).map (fun x => (e.1, x)) else none)

/-- `IncrementMethodCallCount`; `none`: the exception of `at`. -/
def increment (s : State) (method : String) : Option State :=
  let s := match s.methods.find method with
    | none => { s with methods := s.methods.set method (), counts := s.counts.set method 0 }
    | some _ => s
  match s.counts.find method with
  | none => none
  | some n => some { s with counts := s.counts.set method (n + 1) }

def incrementBy (s : State) (method : String) : Nat → Option State
  | 0 => some s
  | n + 1 => match increment s method with
    | none => none
    | some s => incrementBy s method n

inductive Step where
  | register (now : Int) (r : Reg)
  | setHost (host : String)
  | cycle                                             -- `GetRegistration` of the client, once per second
  | call (method : String) (accept : String → Bool)   -- `accept k`: the session of server `k` takes the call

/-- A call: the servers it was handed to, with their sessions, and the new state; `none`: an exception. -/
def call (s : State) (method : String) (accept : String → Bool) : Option (List (String × Session) × State) :=
  let s := check s
  let ts := targets s
  match incrementBy s method (ts.filter (fun t => accept t.1)).length with
  | none => none
  | some s => some (ts, s)

def step (s : State) : Step → Option State
  | .register now r => register s now r
  | .setHost h => some { s with host := if h = "*" then "" else h }
  | .cycle => some (check s)
  | .call m accept => if m = "" ∨ s.name = "" then some s else (call s m accept).map Prod.snd

def run : State → List Step → Option State
  | s, [] => some s
  | s, e :: es => match step s e with
    | none => none
    | some s => run s es

/-- The methods part of the registration of the client, L653-670; `none`: the exception of `at`. -/
def sample (s : State) : Option (List (String × Nat)) :=
  s.methods.foldr (fun e acc => match acc, s.counts.find e.1 with
    | some l, some n => some ((e.1, n) :: l)
    | _, _ => none) (some [])

end Ecal.Service.Targets
