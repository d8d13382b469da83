import Verif.Common.AMap

/-!
# Notifications of a service client

Code modelled: `/repo/ecal/core/src/service/ecal_service_client_impl.cpp`: `AddEventCallback` L157-172, `RemEventCallback` L175-190, the
timeout notifications of the two `Call` L212-230, L269-287, `RegisterService` L405-427, `CheckForNewServices` L711-749,
`CheckForDisconnectedServices` L751-780, `Stop` L97-131; `/repo/ecal/core/src/service/ecal_clientgate.cpp`: `ApplyServiceRegistration`
L100-142.

Removing a callback stores an empty `std::function` (L186), the places that notify only look whether there is an entry (L217, L274, L416,
L767).  Calling an empty `std::function` throws `std::bad_function_call`: through `Call` to the application, but out of the threads of the
library that receive registrations and run the registration cycle, where nothing catches it and the process is terminated.

Simplifications: as in `Verif/Service/ClientConn.lean`; callbacks of the application return and throw nothing; a call is represented by its
result (C38): for each addressed server whether it answered.
-/

namespace Ecal.Service.ClientNotify

open Ecal

inductive Sess where
  | connecting | connected | failed
deriving DecidableEq, Repr

/-- The kinds of events, `eCAL_Client_Event`. -/
inductive Kind where
  | connected | disconnected | timeout
deriving DecidableEq, Repr

/-- An event as the application sees it. -/
inductive Event where
  | connected (key : Nat)
  | disconnected (key : Nat)
  | timeout
deriving DecidableEq, Repr

def Event.kind : Event → Kind
  | .connected _ => .connected
  | .disconnected _ => .disconnected
  | .timeout => .timeout

/-- Entry of `m_event_callback_map`: none, an empty function, or callback number `c`. -/
inductive Handler where
  | absent
  | empty
  | fn (c : Nat)
deriving DecidableEq, Repr

structure State where
  created   : Bool := true
  known     : List Nat := []                 -- keys in the service map of the gate
  sessions  : AMap Nat Sess := []            -- `m_client_map`
  connected : List Nat := []                 -- keys of `m_connected_services_map`
  handler   : Kind → Handler := fun _ => .absent
  log       : List (Nat × Event) := []       -- which callback was told what, oldest first

inductive Step where
  | add (k : Kind) (c : Nat)
  | rem (k : Kind)
  | announce (key : Nat)                     -- a registration of a server of the service arrives
  | expire (key : Nat)                       -- the gate drops the server
  | cycle                                    -- the registration cycle
  | established (key : Nat)
  | failed (key : Nat)
  | call (limit : Bool) (answers : List Bool)  -- a blocking call ended; `limit`: it had a positive time limit
  | stop
deriving DecidableEq, Repr

/-- `thrown`: the exception reaches the application. -/
inductive Out where
  | ok (s : State)
  | thrown (s : State)
  | terminated

/-- L217, L274, L416, L767: an entry is called, whatever it holds. -/
def notify (s : State) (e : Event) : Option State :=
  match s.handler e.kind with
  | .absent => some s
  | .empty => none
  | .fn c => some { s with log := s.log ++ [(c, e)] }

/-- One iteration of `CheckForNewServices`. -/
def checkNew (s : State) (key : Nat) : State :=
  match s.sessions.find key with
  | none => { s with sessions := s.sessions.set key .connecting }
  | some _ => s

/-- One iteration of `CheckForDisconnectedServices`. -/
def checkGone (s : State) (x : Nat × Sess) : Option State :=
  if x.2 = .failed then
    if x.1 ∈ s.connected then
      match notify s (.disconnected x.1) with
      | none => none
      | some s => some { s with connected := s.connected.filter (fun k => k != x.1) }
    else some s
  else some s

def checkGoneAll : List (Nat × Sess) → State → Option State
  | [], s => some s
  | x :: xs, s =>
    match checkGone s x with
    | none => none
    | some s => checkGoneAll xs s

/-- The timeout notifications of a call, one for each server that did not answer. -/
def timeouts : Nat → State → Option State
  | 0, s => some s
  | n + 1, s =>
    match notify s .timeout with
    | none => none
    | some s => timeouts n s

def setHandler (s : State) (k : Kind) (h : Handler) : State :=
  { s with handler := fun k' => if k' = k then h else s.handler k' }

/-- `RegisterService`. -/
def registerService (s : State) (key : Nat) : Option State :=
  if key ∈ s.connected then some s
  else
    match notify s (.connected key) with
    | none => none
    | some s => some { s with connected := key :: s.connected }

/-- What an exception in a thread of the library leads to. -/
def inLibrary : Option State → Out
  | some s => .ok s
  | none => .terminated

/-- After `Stop` the name of the client is empty (L126): registrations do not reach it any more and it looks for no servers. -/
def step (s : State) : Step → Out
  | .add k c => if s.created then .ok (setHandler s k (.fn c)) else .ok s
  | .rem k => if s.created then .ok (setHandler s k .empty) else .ok s
  | .announce key =>
    let s := { s with known := if key ∈ s.known then s.known else key :: s.known }
    if s.created then inLibrary (registerService s key) else .ok s
  | .expire key => .ok { s with known := s.known.filter (fun k => k != key) }
  | .cycle =>
    if s.created then
      let s := s.known.foldl checkNew s
      inLibrary (checkGoneAll s.sessions s)
    else .ok s
  | .established key =>
    match s.sessions.find key with
    | some .connecting => .ok { s with sessions := s.sessions.set key .connected }
    | _ => .ok s
  | .failed key =>
    match s.sessions.find key with
    | some _ => .ok { s with sessions := s.sessions.set key .failed }
    | none => .ok s
  | .call limit answers =>
    if s.created ∧ limit = true then
      match timeouts (answers.count false) s with
      | none => .thrown s
      | some s => .ok s
    else .ok s
  | .stop =>
    if s.created then .ok { s with created := false, sessions := [], handler := fun _ => .absent } else .ok s

def run (s : State) : List Step → Out
  | [] => .ok s
  | a :: as =>
    match step s a with
    | .ok s => run s as
    | .thrown s => run s as
    | .terminated => .terminated

end Ecal.Service.ClientNotify
