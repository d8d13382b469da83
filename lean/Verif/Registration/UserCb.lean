import Verif.E2E.Disc

/-!
# Registration callbacks of the application

`Process::AddRegistrationCallback` / `RemRegistrationCallback` (core/src/ecal_process.cpp L302-318) and
core/src/registration/ecal_registration_sample_applier_user.cpp.

Simplifications: single steps are atomic (the callbacks are not protected against concurrent use, see
`Verif/Sync/RegCbRaces.lean`); the library is initialised; one thread receives registrations
(registration/ecal_registration_receiver.cpp L83-95 creates one receiver).  A callback is a number.
-/

namespace Ecal.Registration.UserCb

open Ecal.Wire (RegSample Bytes)
open Ecal.E2E.Disc (smpOf cmdOf)

/-- `eCAL_Registration_Event` (core/include/ecal/cimpl/ecal_callback_cimpl.h L77-85). -/
inductive Event where
  | none | publisher | subscriber | service | client | process
deriving DecidableEq, Repr

/-- The members (ecal_registration_sample_applier_user.h L48-52), the copy `reg_callback` of the thread that is in `ApplySample` with the
buffer it hands over (L77, L112-113), and the calls made so far. -/
structure St where
  pub     : Option Nat := .none
  sub     : Option Nat := .none
  service : Option Nat := .none
  client  : Option Nat := .none
  process : Option Nat := .none
  running : Option (Nat × Bytes) := .none
  calls   : List (Nat × Bytes) := []
deriving DecidableEq, Repr

/-- Both functions: L27-49 (`c` is the callback), L51-73 (`c = none`); the result is 0 for `true` (ecal_process.cpp L306, L315). -/
def assign (s : St) (e : Event) (c : Option Nat) : St × Bool :=
  match e with
  | .publisher => ({ s with pub := c }, true)
  | .subscriber => ({ s with sub := c }, true)
  | .service => ({ s with service := c }, true)
  | .client => ({ s with client := c }, true)
  | .process => ({ s with process := c }, true)
  | .none => (s, false)

/-- The switch of `ApplySample` (L78-107). -/
def chosen (s : St) : Cmd → Option Nat
  | .none | .setSample => .none
  | .regProcess | .unregProcess => s.process
  | .regService | .unregService => s.service
  | .regClient | .unregClient => s.client
  | .regSubscriber | .unregSubscriber => s.sub
  | .regPublisher | .unregPublisher => s.pub

inductive In where
  /-- `AddRegistrationCallback`; an empty function is allowed. -/
  | add (e : Event) (c : Option Nat)
  | rem (e : Event)
  /-- The receiving thread has a sample: filter (ecal_registration_sample_applier.cpp L45-49) and `ApplySample` up to the call. -/
  | sample (m : RegSample)
  /-- The copied callback is called (L115). -/
  | call
deriving DecidableEq, Repr

/-- One step; `none`: not possible (the receiving thread is busy, or has nothing to call). -/
def step (a : Applier) (s : St) : In → Option St
  | .add e c => some (assign s e c).1
  | .rem e => some (assign s e .none).1
  | .sample m =>
    match s.running with
    | some _ => .none
    | .none =>
      if accept a (smpOf m) then some { s with running := (chosen s (cmdOf m.cmd)).map (fun c => (c, Wire.serializeReg m)) }
      else some s
  | .call =>
    match s.running with
    | some r => some { s with running := .none, calls := s.calls ++ [r] }
    | .none => .none

def run (a : Applier) (s : St) : List In → Option St
  | [] => some s
  | i :: h => (step a s i).bind (fun s' => run a s' h)

end Ecal.Registration.UserCb
