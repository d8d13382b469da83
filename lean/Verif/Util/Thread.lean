/-!
# The background thread

Code modelled: `/repo/ecal/core/src/util/ecal_thread.h` L35-145 (`CCallbackThread`: `start`, `stop`,
`trigger`, `callbackFunction`).

One controlling thread and the background thread, interleaved at the granularity of the critical sections:
`stop` is two steps (raise the flag under the lock; join), the background thread's turn of the loop is two
steps (leave the wait; the end of the callback).  The wait ends when a flag is set (`wake`) or by its timeout,
which may come at any time; `wait_for` with a predicate evaluates the flags under the lock in both cases.
-/

namespace Ecal.Util.Thread

/-- The background thread. -/
inductive Thr where
  | off                    -- no thread object (`!joinable()`)
  | waiting
  | inCallback
  | ended                  -- function returned, not joined
deriving DecidableEq, Repr

structure St where
  thr     : Thr := .off
  stop    : Bool := false
  trig    : Bool := false
  joining : Bool := false        -- the controlling thread is inside `stop()`
  begun   : Nat := 0             -- callbacks started
  ended   : Nat := 0             -- callbacks finished
deriving DecidableEq, Repr

inductive Step where
  | start | stopBegin | stopEnd | trigger      -- controlling thread
  | wake | timeout | finish                    -- background thread
  | selfTrigger | selfStop                     -- from inside the callback
deriving DecidableEq, Repr

inductive Out where
  | ok (s : St)
  | blocked                  -- this step cannot happen now
  | terminate                -- a running thread object is overwritten
  | selfJoin                 -- a thread joins itself: exception out of the thread
deriving DecidableEq, Repr

/-- The thread leaves its wait (L120-143). -/
def leave (s : St) : St :=
  if s.stop then { s with thr := .ended }
  else { s with thr := .inCallback, trig := false, begun := s.begun + 1 }

def step (s : St) : Step → Out
  | .start =>
    if s.joining then .blocked
    else match s.thr with
      | .off => .ok { s with thr := .waiting }
      | _ => .terminate
  | .stopBegin => if s.joining then .blocked else .ok { s with stop := true, joining := true }
  | .stopEnd =>
    if s.joining then
      match s.thr with
      | .off => .ok { s with joining := false }
      | .ended => .ok { s with thr := .off, joining := false }
      | _ => .blocked
    else .blocked
  | .trigger => if s.joining then .blocked else .ok { s with trig := true }
  | .wake =>
    match s.thr with
    | .waiting => if s.stop = true ∨ s.trig = true then .ok (leave s) else .blocked
    | _ => .blocked
  | .timeout =>
    match s.thr with
    | .waiting => .ok (leave s)
    | _ => .blocked
  | .finish =>
    match s.thr with
    | .inCallback => .ok { s with thr := .waiting, ended := s.ended + 1 }
    | _ => .blocked
  | .selfTrigger =>
    match s.thr with
    | .inCallback => .ok { s with trig := true }
    | _ => .blocked
  | .selfStop =>
    match s.thr with
    | .inCallback => .selfJoin
    | _ => .blocked

/-- A run of possible steps. -/
def run (s : St) : List Step → Option St
  | [] => some s
  | a :: r =>
    match step s a with
    | .ok s' => run s' r
    | _ => none

end Ecal.Util.Thread
