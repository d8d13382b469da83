import Verif.E2E.Svc
import Verif.E2E.Call

/-!
# From finding a server to the result of a call

Composition of `Ecal.E2E.Svc` (clients learn of servers) and `Ecal.E2E.Call` (a connection between a client session and
a server session): any number of processes with servers and clients; every session of a client has its connection, and
a call of the client is handed to the sessions of its targets.

Code modelled besides the parts: `/repo/ecal/core/src/service/ecal_service_client_impl.cpp` L338-391, L483-563 (a call
is handed to the session of each target); `/repo/ecal/core/src/service/ecal_service_server_impl.cpp` L119, L125 (the
operating system chooses the port of a server); `/repo/ecal/service/ecal_service/src/client_session_impl_v1.cpp`
L104-236 (the session connects to the first host of its list that answers at its port) and L238-365 (the handshake
compares protocol versions; nothing tells which service answers).

Who answers: a server listens at its host and port as long as it exists.  A session whose connecting succeeds is
connected to a server that listens there at that time.  A session connects successfully at most once
(`Ecal.Service.Client`), so the server it gets is a parameter: `peer q k` for the session `k` of the client of process
`q`; connecting succeeds only while that server listens at the address of the session.

Simplifications: those of the parts.  The host names `h` and `h.local` lead to the host that calls itself `h` only (or
to one that calls itself `h.local`).  Sessions of protocol version 0 are never connected here (see C92), nor are
sessions of version 1 to a port of version 0: their handshake fails.  A connection may break at any time; that it
breaks when the server is destroyed is not used.
-/

namespace Ecal.E2E.SvcCall

open Ecal.Service

/-- A server: its process, its number there, and its service. -/
structure Peer where
  proc : Nat
  num  : Nat
  name : Bytes
deriving DecidableEq, Repr

structure World where
  svc  : Svc.World
  conn : Nat → String → Call.Sys         -- of a process and a key of its client

/-- A session has two host names to try (ecal_service_client_impl.cpp L739-743). -/
def init (P : Nat → Svc.Proc) : World := { svc := Svc.init P, conn := fun _ _ => Call.init 2 }

inductive In where
  | svc (x : Svc.In)                             -- finding servers; calls are made by `call`
  | call (q c : Nat)                             -- the client of process `q` makes call `c`
  | conn (q : Nat) (k : String) (a : Call.Step)  -- a step of a connection, other than a call

/-- What the server tells about itself in its answers (ecal_service_server_impl.cpp L405-407). -/
def server (P : Nat → Svc.Proc) (p : Peer) : Call.Server :=
  { host := (P p.proc).host, name := p.name, id := (P p.proc).sid p.num }

/-- The session of the client of `q` for the key `k`. -/
def session (w : World) (q : Nat) (k : String) : Option Targets.Session :=
  (w.svc.st q).client.bind (fun s => s.sessions.find k)

/-- The names of a host. -/
def isHost (B : Svc.Proc) (host : String) : Bool := host == str B.host || host == str B.host ++ ".local"

/-- The server exists, and listens at the port of the session, on the `i`-th host of the session. -/
def listens (P : Nat → Svc.Proc) (w : World) (p : Peer) (x : Targets.Session) (i : Nat) : Bool :=
  (w.svc.st p.proc).servers.contains (p.num, p.name) && x.protocol == 1 && (P p.proc).v1 &&
  x.port == ((P p.proc).port1 p.num).toNat && (x.hosts[i]?).any (isHost (P p.proc))

/-- The steps a connection can take: there is a session; connecting succeeds if the server listens. -/
def allowed (P : Nat → Svc.Proc) (peer : Nat → String → Peer) (w : World) (q : Nat) (k : String) (a : Call.Step) : Bool :=
  match session w q k with
  | none => false
  | some x =>
    match a with
    | .client (.call _) => false
    | .client (.setupDone true _) =>
      match (w.conn q k).cl.setup with
      | some (.connecting i) => listens P w (peer q k) x i
      | _ => true
    | _ => true

/-- The sessions that take a call (`async_call_service`, client_session_impl_v1.cpp L371-438). -/
def accepts (w : World) (q : Nat) (k : String) : Bool := !(w.conn q k).cl.stopped

/-- The keys of the sessions a call is handed to. -/
def called (ask : Nat → Call.Ask) (w : World) (q c : Nat) : List String :=
  match (w.svc.st q).client with
  | none => []
  | some s =>
    if str (ask c).method = "" ∨ s.name = "" then []
    else
      match Targets.call s (str (ask c).method) (accepts w q) with
      | none => []
      | some (ts, _) => ts.map Prod.fst

def isCall : Svc.In → Bool
  | .call _ _ _ => true
  | _ => false

/-- What a step does in `Svc`. -/
def svcOps (ask : Nat → Call.Ask) (w : World) : In → List Svc.In
  | .svc x => if isCall x then [] else [x]
  | .call q c => [.call q (str (ask c).method) (accepts w q)]
  | .conn _ _ _ => []

/-- What a step does to the connection of the session `k` of `q`. -/
def connOps (P : Nat → Svc.Proc) (ask : Nat → Call.Ask) (peer : Nat → String → Peer) (w : World) (q : Nat) (k : String) :
    In → List Call.Step
  | .svc _ => []
  | .call q' c => if q' = q ∧ k ∈ called ask w q c then [.client (.call c)] else []
  | .conn q' k' a => if q' = q ∧ k' = k ∧ allowed P peer w q k a = true then [a] else []

def step (P : Nat → Svc.Proc) (ask : Nat → Call.Ask) (peer : Nat → String → Peer) (w : World) (x : In) : World :=
  { svc := Svc.run P w.svc (svcOps ask w x)
    conn := fun q k => Call.run (server P (peer q k)) ask (w.conn q k) (connOps P ask peer w q k x) }

def run (P : Nat → Svc.Proc) (ask : Nat → Call.Ask) (peer : Nat → String → Peer) (w : World) (h : List In) : World :=
  h.foldl (step P ask peer) w

end Ecal.E2E.SvcCall
