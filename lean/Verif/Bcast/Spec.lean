import Verif.Bcast.Model

/-!
# Specification of the broadcast channel

Written over the list of calls only; `pend` is the list of events sent since process `p`
last looked, in send order.
-/

namespace Ecal.Bcast

/-- What process `p` should get over a history: at each of its polls all events sent since
its previous poll, without its own ones unless loopback is on.  Flushing (and the loss of
the file content by a crash inside the lock) discards what is pending. -/
def expected (p : Nat) : List Event → List Op → List Event
  | _, [] => []
  | pend, .send q ts id ty :: h => expected p (pend ++ [⟨q, ts, id, ty⟩]) h
  | pend, .poll q _ _ lb :: h =>
    if q = p then pend.filter (fun e => lb || e.pid != p) ++ expected p [] h
    else expected p pend h
  | pend, .flushLocal q :: h => if q = p then expected p [] h else expected p pend h
  | _, .flushGlobal _ :: h => expected p [] h
  | _, .crash :: h => expected p [] h

/-- At each poll of `p` at most `cap` events are pending and none of them is older than the
timeout of the poll (0 = no timeout; the unit of the timeout is 1000 clock ticks). -/
def InTime (p cap : Nat) : List Event → List Op → Prop
  | _, [] => True
  | pend, .send q ts id ty :: h => InTime p cap (pend ++ [⟨q, ts, id, ty⟩]) h
  | pend, .poll q now timeout _ :: h =>
    if q = p then pend.length ≤ cap ∧
        (∀ e ∈ pend, timeout = 0 ∨ now - timeout * 1000 < e.ts) ∧ InTime p cap [] h
    else InTime p cap pend h
  | pend, .flushLocal q :: h => if q = p then InTime p cap [] h else InTime p cap pend h
  | _, .flushGlobal _ :: h => InTime p cap [] h
  | _, .crash :: h => InTime p cap [] h

/-- Clock values of sends strictly increase (and lie after the creation of the file). -/
def StrictClock : Int → List Op → Prop
  | _, [] => True
  | c, .send _ ts _ _ :: h => c < ts ∧ StrictClock ts h
  | c, .flushGlobal now :: h => c ≤ now ∧ StrictClock now h
  | c, _ :: h => StrictClock c h

end Ecal.Bcast
