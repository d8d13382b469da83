/-!
# Filter for received registrations: `CSampleApplier`

core/src/registration/ecal_registration_sample_applier.cpp
-/

namespace Ecal.Registration

/-- `eCmdType` (core/src/serialization/ecal_struct_sample_registration.h). -/
inductive Cmd where
  | none | setSample
  | regPublisher | unregPublisher | regSubscriber | unregSubscriber
  | regService | unregService | regClient | unregClient
  | regProcess | unregProcess
deriving Repr, DecidableEq

/-- The parts of a registration sample the filter looks at: command, `identifier.host_name`,
`identifier.process_id`, `topic.hgname`.  `process.hgname` is in the sample but not used by
the filter. -/
structure Smp where
  cmd       : Cmd
  host      : String
  pid       : Int
  topicHg   : String
  processHg : String
deriving Repr, DecidableEq

/-- Constructor arguments (L29-36). -/
structure Applier where
  network   : Bool
  loopback  : Bool
  hostGroup : String
  pid       : Int
deriving Repr, DecidableEq

/-- The switch over the command in `IsHostGroupMember` (L66-84). -/
def sampleHg (s : Smp) : String :=
  match s.cmd with
  | .regPublisher | .unregPublisher | .regSubscriber | .unregSubscriber => s.topicHg
  | _ => ""

/-- `IsHostGroupMember` (L62-94). -/
def isHostGroupMember (a : Applier) (s : Smp) : Bool :=
  let g := if sampleHg s = "" then s.host else sampleHg s
  if g = "" ∨ a.hostGroup = "" then false
  else if g ≠ a.hostGroup then false
  else true

/-- `IsSameProcess` (L96-101). -/
def isSameProcess (a : Applier) (s : Smp) : Bool := s.pid == a.pid

/-- `AcceptRegistrationSample` (L103-117). -/
def accept (a : Applier) (s : Smp) : Bool :=
  if isHostGroupMember a s then !isSameProcess a s || a.loopback else a.network

/-- `CGatesApplier::ApplySample` (core/src/registration/
ecal_registration_sample_applier_gates.cpp L32-72): which gate handles a sample. -/
inductive Target where
  | pubGateReg | pubGateUnreg | subGateReg | subGateUnreg | clientGateReg | ignored
deriving Repr, DecidableEq

def gateTarget : Cmd → Target
  | .regService => .clientGateReg
  | .regSubscriber => .pubGateReg
  | .unregSubscriber => .pubGateUnreg
  | .regPublisher => .subGateReg
  | .unregPublisher => .subGateUnreg
  | _ => .ignored

/-- `ApplySample` (L43-60) for the gates: what a received sample causes. -/
def apply (a : Applier) (s : Smp) : Option Target :=
  if accept a s then some (gateTarget s.cmd) else none

end Ecal.Registration
