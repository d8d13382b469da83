import Verif.Sync.Races
import Verif.Sync.ApiLocks
import Verif.Registration.UserCb

/-!
# Registration callbacks and threads

What the threads of a process touch when registrations arrive and the application sets registration callbacks or the loopback mode
(for data races), and which locks are held while a registration callback runs (for deadlocks).

Simplifications: as in `Verif/Sync/ApiLocks.lean`; the variables of the gates are the subject of C87-C89.
-/

namespace Ecal.Sync.RegCbRaces
open Ecal.Sync.Races
open Ecal.Registration.UserCb (Event)

/-- `m_callback_custom_apply_sample_map_mtx` (ecal/core/src/registration/ecal_registration_sample_applier.cpp L53, L121, L127). -/
inductive Lk where
  | applier
deriving DecidableEq, Repr

/-- The five callbacks (ecal_registration_sample_applier_user.h L48-52), `m_callback_custom_apply_sample_map` and `m_loopback`
(ecal_registration_sample_applier.h L63-69). -/
inductive Var where
  | cb (e : Event)
  | customers
  | loopback
deriving DecidableEq, Repr

inductive Op where
  /-- `AddRegistrationCallback`: ecal_registration_sample_applier_user.cpp L27-49 -/
  | add (e : Event)
  /-- `RemRegistrationCallback`: L51-73 -/
  | rem (e : Event)
  /-- `Util::EnableLoopback`: ecal/core/src/ecal_util.cpp L163-168, ecal_registration_sample_applier.cpp L38-41 -/
  | loopback
  /-- A registration arrives; `own`: it comes from this host group and process (only then the loopback mode is read, L110);
  `e`: its kind. -/
  | sample (own : Bool) (e : Event)
  /-- Monitoring and descriptions are attached and detached: L119-133. -/
  | customer
deriving DecidableEq, Repr

def assigns (e : Event) : List (Act Lk Var) := if e = .none then [] else [.wr (.cb e)]

/-- `sample`: ecal_registration_sample_applier.cpp L43-60, L110, ecal_registration_sample_applier_user.cpp L75-118; a discarded sample
touches less. -/
def Op.acts : Op → List (Act Lk Var)
  | .add e => assigns e
  | .rem e => assigns e
  | .loopback => [.wr .loopback]
  | .sample own e =>
    (if own then [.rd .loopback] else []) ++
      sect .applier .excl ([.rd .customers] ++ (if e = .none then [] else [.rd (.cb e)]))
  | .customer => sect .applier .excl [.wr .customers]

def startAll (ts : List (List Op)) : Sys Lk Var := start (ts.map (fun ops => ops.flatMap Op.acts))

/-! ## Locks -/

open Ecal.Sync.Locks in
/-- What the gates do with a sample, after the registration callback: the entries of the map are visited in the order of their names,
"custom_registration" before "descgate", "gates" and "monitoring" (ecal_registration_receiver.cpp L55-62). -/
inductive Rest where
  | nothing
  | regPub (ps : List ApiLocks.PubSeen)
  | unregPub (rs : List Nat)
  | regSub (ps : List ApiLocks.SubSeen)
  | unregSub (ws : List Nat)

/-- The part of `ApiLocks.Work.acts` inside the lock of the applier. -/
def Rest.acts : Rest → List (Locks.Act ApiLocks.Lk)
  | .nothing => []
  | .regPub ps => ApiLocks.sect .subGate .shared (ps.flatMap ApiLocks.seePub)
  | .unregPub rs => ApiLocks.sect .subGate .shared (rs.flatMap (fun i => ApiLocks.touch (.rMap i)))
  | .regSub ps => ApiLocks.sect .pubGate .shared (ps.flatMap ApiLocks.seeSub)
  | .unregSub ws => ApiLocks.sect .pubGate .shared (ws.flatMap (fun j => ApiLocks.touch (.wMap j)))

/-- A registration with a registration callback that makes the calls `ops`: ecal_registration_sample_applier.cpp L52-58. -/
structure Told where
  ops  : List ApiLocks.Op
  rest : Rest

def Told.acts (t : Told) : List (Locks.Act ApiLocks.Lk) := ApiLocks.sect .applier .excl (ApiLocks.opsActs t.ops ++ t.rest.acts)

/-- Threads of all kinds. -/
def startBoth (ws : List ApiLocks.Work) (ts : List Told) : Locks.Sys ApiLocks.Lk :=
  Locks.start (ws.map ApiLocks.Work.acts ++ ts.map Told.acts)

end Ecal.Sync.RegCbRaces
