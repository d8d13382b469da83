import Verif.E2E.Disc
import Verif.Mon.Monitor

/-!
# What a monitoring application sees

Composition of the network of publishers and subscribers (`Ecal.E2E.Disc`) with the monitoring tables (`Ecal.Mon`): any number of
processes announce their publishers and subscribers, and a process looks at its monitoring
(core/src/monitoring/ecal_monitoring_impl.cpp L62 attaches it to the registration receiver, L120-195 `ApplySample`, L197-356 topics,
L582-707 `GetMonitoring`).

Simplifications: the monitoring is created before the first datagram arrives and its filters do not change (C46 is about changes);
the other three tables are filled by registrations of no interest here.  The content of an entry is modelled as the number of the
datagram it was taken from; the fields are copied one by one in L283-335.
-/

namespace Ecal.E2E.Disc.MonNet

open Ecal.Wire (RegSample RTopic)
open Ecal.E2E.Disc (Proc World In applier smpOf delivered)
open Ecal.Mon (Ident Entity MOp Kind)

/-- The two topic tables. -/
inductive Side where
  | pub | sub
deriving DecidableEq, Repr

def Side.kind : Side → Kind
  | .pub => .publisher
  | .sub => .subscriber

/-- `eCmdType` of a registration (serialization/ecal_struct_sample_common.h L29-43). -/
def Side.reg : Side → BitVec 32
  | .pub => 2
  | .sub => 3

/-- `eCmdType` of an unregistration. -/
def Side.unreg : Side → BitVec 32
  | .pub => 12
  | .sub => 13

/-- The characters of a name. -/
def chars (b : Bytes) : List Char := (str b).toList

/-- The identity in a sample: L199-201, L256-260, L343-345. -/
def identOf (m : RegSample) : Ident :=
  { host := chars m.hostName, name := chars m.topic.tname, id := chars m.entityId, pid := m.processId.toNat }

/-- `ApplySample` L166-189 behind the filter of the registration receiver (registration/ecal_registration_sample_applier.cpp L43-60):
`pass` are the topic filters (L219-243, registrations only). -/
def monOp (Q : Proc) (pass : Bytes → Bool) (side : Side) (k : Nat) (m : RegSample) : Option MOp :=
  if Registration.accept (applier Q) (smpOf m) = false then none
  else if m.cmd = side.reg then (if pass m.topic.tname then some (.register ⟨identOf m, k⟩) else none)
  else if m.cmd = side.unreg then some (.unregister (identOf m))
  else none

/-- What happens: something on the network, or process `q` calls `GetMonitoring`. -/
inductive MIn where
  | net (x : In)
  | look (q : Nat) (now : Int)

/-- The world does not change when somebody looks. -/
def mstep (P : Nat → Proc) (w : World) : MIn → World
  | .net x => Disc.step P w x
  | .look _ _ => w

def mrunW (P : Nat → Proc) (w : World) (h : List MIn) : World := h.foldl (mstep P) w

/-- The call on a table of the monitoring of process `q` that a step causes. -/
def monEv (P : Nat → Proc) (pass : Bytes → Bool) (side : Side) (q : Nat) (w : World) : MIn → Option (Int × MOp)
  | .net (.arrive p k now) =>
    if p = q then (delivered w k).bind (fun m => (monOp (P q) pass side k m).map (fun o => (now, o))) else none
  | .look p now => if p = q then some (now, .snapshot) else none
  | _ => none

/-- All calls in a history. -/
def monHist (P : Nat → Proc) (pass : Bytes → Bool) (side : Side) (q : Nat) : World → List MIn → List (Int × MOp)
  | _, [] => []
  | w, x :: h => (monEv P pass side q w x).toList ++ monHist P pass side q (mstep P w x) h

/-- What process `q` gets from `GetMonitoring` at time `now` after the history, for one table; `none`: undefined behaviour. -/
def seen (P : Nat → Proc) (pass : Bytes → Bool) (side : Side) (q : Nat) (timeout : Int) (h : List MIn) (now : Int) :
    Option (List Entity) :=
  (Mon.mrun side.kind (ExpMap.init _ _ timeout) (monHist P pass side q {} h)).map (fun s => Mon.listing s now)

end Ecal.E2E.Disc.MonNet
