import Verif.ExpMap.Model

/-!
# Connection state of publishers and subscribers

`CDataWriter` (core/src/readwrite/ecal_writer.cpp) keeps the subscribers it is connected to
in an expiring map and notifies the application; `CDataReader`
(core/src/readwrite/ecal_reader.cpp) does the same with publishers.  The code of the two is
identical up to names, so one model covers both; the citations give both places.
-/

namespace Ecal.Conn

/-- `SSubscriptionInfo` (ecal_writer.h L77-88) / `SPublicationInfo` (ecal_reader.h): host
name, process id, topic id of the other side. -/
structure Peer where
  host : String
  pid  : Int
  tid  : String
deriving Repr, DecidableEq

/-- `m_connected` and `m_sub_map`/`m_pub_map`.  The mapped value (data type information and
layer states) is not used by the notifications and left out. -/
structure State where
  connected : Bool
  map       : ExpMap.State Peer Unit
deriving Repr

/-- Notifications (`pub_event_*` / `sub_event_*`). -/
inductive Ev where
  | connected (tid : String)
  | update (tid : String)
  | disconnected
deriving Repr, DecidableEq

/-- Constructor: not connected, empty map with the configured timeout. -/
def init (timeout : Int) : State := { connected := false, map := ExpMap.init Peer Unit timeout }

/-- `FireConnectEvent` (ecal_writer.cpp L731-767, ecal_reader.cpp L738-774). -/
def fireConnect (connected : Bool) (tid : String) : List Ev :=
  (if connected then [] else [.connected tid]) ++ [.update tid]

/-- `ApplySubscription` (ecal_writer.cpp L433-504) / `ApplyPublication` (ecal_reader.cpp
L284-304): fire, then `map[peer] = ...`.  Starting transport layers is modelled
separately. -/
def applyPeer (s : State) (now : Int) (p : Peer) : Option (State × List Ev) :=
  (ExpMap.assign s.map now () p ()).map
    (fun m => ({ connected := true, map := m }, fireConnect s.connected p.tid))

/-- `RemoveSubscription` (ecal_writer.cpp L506-529) / `RemovePublication` (ecal_reader.cpp
L306-313). -/
def removePeer (s : State) (p : Peer) : Option (State × List Ev) :=
  (ExpMap.erase s.map p).map (fun r => ({ s with map := r.1 }, []))

/-- `CheckConnections` (ecal_writer.cpp L594-603, ecal_reader.cpp L547-556) with
`FireDisconnectEvent` (L769-789 / L776-796).  Runs in every registration cycle
(`GetRegistration`). -/
def check (s : State) (now : Int) : State × List Ev :=
  let m := (ExpMap.eraseExpired s.map now).1
  if m.map.isEmpty && s.connected then ({ connected := false, map := m }, [.disconnected])
  else ({ s with map := m }, [])

/-- `GetSubscriberCount`/`GetPublisherCount`: size of the map. -/
def count (s : State) : Nat := s.map.map.length

/-- Calls, each executed without interruption by another one on the same object.  The
interleaved case is `MState` below. -/
inductive Op where
  | apply (p : Peer)
  | remove (p : Peer)
  | check
deriving Repr, DecidableEq

def step (s : State) (now : Int) : Op → Option (State × List Ev)
  | .apply p  => applyPeer s now p
  | .remove p => removePeer s p
  | .check    => some (check s now)

/-- A history of calls with the clock values they read; all notifications in order. -/
def run : State → List (Int × Op) → Option (State × List Ev)
  | s, [] => some (s, [])
  | s, (now, op) :: h =>
    (step s now op).bind (fun r => (run r.1 h).map (fun r2 => (r2.1, r.2 ++ r2.2)))

/-! ## Interleaved execution

Registrations are applied by the registration receiver threads, `CheckConnections` runs in
the registration sending thread.  `m_connected` is atomic, but reading it, setting it and
calling the application are separate actions; the map is protected by its mutex, which
`CheckConnections` holds from `erase_expired` to the end of the notification. -/

/-- Where a thread inside `ApplySubscription`/`ApplyPublication` is. -/
inductive Pc where
  | idle
  | loaded (p : Peer) (b : Bool)    -- m_connected was read as b
  | stored (p : Peer)               -- m_connected was set, notification pending
  | fired (p : Peer)                -- notifications done, insertion pending
deriving Repr, DecidableEq

/-- Where the thread inside `CheckConnections` is. -/
inductive Chk where
  | idle
  | locked        -- holds the map mutex, map was found empty
  | loaded        -- m_connected was read as true
  | stored        -- m_connected was set to false, notification pending
deriving Repr, DecidableEq

/-- Shared state plus program counters (`app t` for the receiver thread `t`). -/
structure MState where
  st  : State
  app : Nat → Pc
  chk : Chk

inductive MOp where
  | load (t : Nat) (p : Peer)
  | store (t : Nat)
  | fire (t : Nat)
  | insert (t : Nat) (now : Int)
  | chkLock (now : Int)
  | chkLoad
  | chkStore
  | chkFire
deriving Repr, DecidableEq

def setPc (f : Nat → Pc) (t : Nat) (pc : Pc) : Nat → Pc := fun u => if u = t then pc else f u

/-- One action of one thread; `none`: the action is not possible in this state. -/
def mstep (s : MState) : MOp → Option (MState × List Ev)
  | .load t p =>
    match s.app t with
    | .idle => some ({ s with app := setPc s.app t (.loaded p s.st.connected) }, [])
    | _ => none
  | .store t =>
    match s.app t with
    | .loaded p false => some ({ s with st := { s.st with connected := true },
                                        app := setPc s.app t (.stored p) }, [])
    | .loaded p true => some ({ s with app := setPc s.app t (.fired p) }, [.update p.tid])
    | _ => none
  | .fire t =>
    match s.app t with
    | .stored p => some ({ s with app := setPc s.app t (.fired p) }, [.connected p.tid, .update p.tid])
    | _ => none
  | .insert t now =>
    match s.app t, s.chk with
    | .fired p, .idle =>
      (ExpMap.assign s.st.map now () p ()).map
        (fun m => ({ s with st := { s.st with map := m }, app := setPc s.app t .idle }, []))
    | _, _ => none
  | .chkLock now =>
    match s.chk with
    | .idle =>
      let m := (ExpMap.eraseExpired s.st.map now).1
      some ({ s with st := { s.st with map := m }, chk := if m.map.isEmpty then .locked else .idle }, [])
    | _ => none
  | .chkLoad =>
    match s.chk with
    | .locked => some ({ s with chk := if s.st.connected then .loaded else .idle }, [])
    | _ => none
  | .chkStore =>
    match s.chk with
    | .loaded => some ({ s with st := { s.st with connected := false }, chk := .stored }, [])
    | _ => none
  | .chkFire =>
    match s.chk with
    | .stored => some ({ s with chk := .idle }, [.disconnected])
    | _ => none

def mrun : MState → List MOp → Option (MState × List Ev)
  | s, [] => some (s, [])
  | s, op :: h =>
    (mstep s op).bind (fun r => (mrun r.1 h).map (fun r2 => (r2.1, r.2 ++ r2.2)))

def minit (timeout : Int) : MState := { st := init timeout, app := fun _ => .idle, chk := .idle }

end Ecal.Conn
