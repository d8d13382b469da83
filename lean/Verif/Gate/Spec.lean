import Verif.Gate.Model

/-! # Specification of matching (C17, C57, C58) -/

namespace Ecal.Gate

/-- Time of the last subscriber registration of `p` for topic `n`, `none` if there was none
or the subscriber was unregistered afterwards. -/
def pubSeen (n : String) (p : Conn.Peer) (acc : Option Int) : POp → Option Int
  | .subReg now r   => if r.topic = n ∧ r.peer = p then some now else acc
  | .subUnreg _ r   => if r.topic = n ∧ r.peer = p then none else acc
  | _ => acc

/-- A subscriber that publishers of topic `n` know: registered, not unregistered, seen
within the timeout. -/
def SubAlive (timeout now : Int) (n : String) (h : List POp) (p : Conn.Peer) : Prop :=
  ∃ r, h.foldl (pubSeen n p) none = some r ∧ now - timeout ≤ r

/-- The clock value of a call (calls without clock keep the previous one). -/
def POp.mono (t0 : Int) : List POp → Prop
  | [] => True
  | .subReg now _ :: h => t0 ≤ now ∧ POp.mono now h
  | .subUnreg now _ :: h => t0 ≤ now ∧ POp.mono now h
  | .cycle now :: h => t0 ≤ now ∧ POp.mono now h
  | _ :: h => POp.mono t0 h

/-- The history does not create or destroy object `id`. -/
def POp.Untouched (id : Nat) (h : List POp) : Prop :=
  ∀ op ∈ h, (∀ n t, op ≠ .create id n t) ∧ (∀ n, op ≠ .destroy id n)

/-- Time of the last *confirmed* publisher registration for topic `n`. -/
def subSeen (myHost n : String) (p : Conn.Peer) (acc : Option Int) : SOp → Option Int
  | .pubReg now r   =>
    if r.topic = n ∧ r.peer = p ∧
        ((p.host = myHost ∧ r.connLoc > 0) ∨ (p.host ≠ myHost ∧ r.connExt > 0))
    then some now else acc
  | .pubUnreg _ r   => if r.topic = n ∧ r.peer = p then none else acc
  | _ => acc

def PubAlive (myHost : String) (timeout now : Int) (n : String) (h : List SOp) (p : Conn.Peer) : Prop :=
  ∃ r, h.foldl (subSeen myHost n p) none = some r ∧ now - timeout ≤ r

def SOp.mono (t0 : Int) : List SOp → Prop
  | [] => True
  | .pubReg now _ :: h => t0 ≤ now ∧ SOp.mono now h
  | .pubUnreg now _ :: h => t0 ≤ now ∧ SOp.mono now h
  | .cycle now :: h => t0 ≤ now ∧ SOp.mono now h
  | _ :: h => SOp.mono t0 h

def SOp.Untouched (id : Nat) (h : List SOp) : Prop :=
  ∀ op ∈ h, (∀ n t, op ≠ .create id n t) ∧ (∀ n, op ≠ .destroy id n)

/-- The samples of topic `n` in a history. -/
def samplesOf (n : String) (h : List DOp) : List Reader.Sample :=
  h.filterMap (fun op => match op with | .sample t s => if t = n then some s else none | _ => none)

def DOp.Untouched (id : Nat) (h : List DOp) : Prop :=
  ∀ op ∈ h, (∀ n, op ≠ .create id n) ∧ (∀ n, op ≠ .destroy id n)

end Ecal.Gate
