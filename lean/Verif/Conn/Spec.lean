import Verif.Conn.Model

/-! # Specification of connection notifications (C13, C14, C17) -/

namespace Ecal.Conn

/-- Effect of a call on the registration time of peer `p`. -/
def seen (p : Peer) (acc : Option Int) (x : Int × Op) : Option Int :=
  match x.2 with
  | .apply q  => if q = p then some x.1 else acc
  | .remove q => if q = p then none else acc
  | .check    => acc

/-- The peer was registered last at this time and not unregistered since. -/
def lastSeen (p : Peer) (h : List (Int × Op)) : Option Int :=
  h.foldl (seen p) none

/-- Peer `p` is registered, not unregistered and not silent for longer than the timeout. -/
def Alive (timeout now : Int) (h : List (Int × Op)) (p : Peer) : Prop :=
  ∃ r, lastSeen p h = some r ∧ now - timeout ≤ r

/-- 'connected' and 'disconnected' alternate; `c` tells whether the last one was
'connected'. -/
def Alternates : Bool → List Ev → Prop
  | _, [] => True
  | c, .connected _ :: l => c = false ∧ Alternates true l
  | c, .disconnected :: l => c = true ∧ Alternates false l
  | c, .update _ :: l => Alternates c l

/-- The effect of a notification on "the last one was 'connected'". -/
def after (c : Bool) : Ev → Bool
  | .connected _ => true
  | .disconnected => false
  | .update _ => c

/-- The last of the 'connected'/'disconnected' notifications is 'connected'. -/
def lastIsConnected (evs : List Ev) : Bool :=
  evs.foldl after false

/-- Clock values do not go backwards. -/
def Monotone (t0 : Int) : List (Int × Op) → Prop
  | [] => True
  | (now, _) :: h => t0 ≤ now ∧ Monotone now h

end Ecal.Conn
