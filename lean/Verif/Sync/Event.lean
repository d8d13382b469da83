import Verif.Common.AMap

/-!
# Events: named (shared between processes) and unnamed (within one process)

Code modelled: `/repo/ecal/core/src/ecal_event.cpp` L137-175 (creation), L202-212 (`named_event_set`),
L214-259 (`named_event_wait`), L261-277 (`named_event_trywait`), L282-318 (`CEvent`, the unnamed event).

A step is one critical section of the event's mutex: the entry of a wait up to the first
`pthread_cond_wait`, one wake-up inside the loop, a time-out, a `set`.  A signal goes to one sleeping
waiter (`pick` chooses it; if `pick` is not asleep another sleeper is signalled); spurious wake-ups are
`wake` steps of any sleeper.  As POSIX demands, a waiter the signal was given to does not report a time-out.

`init` is the tail of the creation: the shared object is visible under its name before mutex, condition
variable and flag are initialised (L141 against L167-172), so another process may use it earlier.
`dieInside` is the death of a process while it holds the event's (not recoverable) mutex.
-/

namespace Ecal.Sync.Event

open Ecal

/-! ### Named event -/

structure Named where
  set     : Bool := false
  dead    : Bool := false                 -- mutex held by a dead process
  waiting : AMap Nat Bool := []           -- sleeping waiters; `true`: a signal was given to this one
deriving Repr

inductive Step where
  | set (pick : Nat)
  | wait (w : Nat)          -- a call to wait with a positive or infinite time-out
  | trywait (w : Nat)       -- a call to wait with time-out 0
  | wake (w : Nat)          -- sleeper `w` returns from the condition wait without time-out
  | timeout (w : Nat)       -- sleeper `w` returns from the condition wait with a time-out
  | init                    -- the creating process finishes the initialisation
  | dieInside               -- a process dies inside a critical section of the event
deriving DecidableEq, Repr

/-- `pthread_cond_signal`: give the signal to `pick` if it sleeps unsignalled, else to some other such
sleeper, if any. -/
def signal (ws : AMap Nat Bool) (pick : Nat) : AMap Nat Bool :=
  if ws.find pick = some false then ws.set pick true
  else match ws.find? (fun p => !p.2) with
    | some p => ws.set p.1 true
    | none => ws

/-- One step; the result, if any, is the waiter that returned and what it reported. -/
def step (st : Named) : Step → Named × Option (Nat × Bool)
  | .set pick =>
    if st.dead then (st, none)
    else ({ st with set := true, waiting := signal st.waiting pick }, none)
  | .wait w =>
    if st.dead ∨ (st.waiting.find w).isSome then (st, none)
    else if st.set then ({ st with set := false }, some (w, true))
    else ({ st with waiting := st.waiting.set w false }, none)
  | .trywait w =>
    if st.dead ∨ (st.waiting.find w).isSome then (st, none)
    else if st.set then ({ st with set := false }, some (w, true))
    else (st, some (w, false))
  | .wake w =>
    if st.dead ∨ st.waiting.find w = none then (st, none)
    else if st.set then ({ st with set := false, waiting := st.waiting.erase w }, some (w, true))
    else ({ st with waiting := st.waiting.set w false }, none)
  | .timeout w =>
    if st.dead ∨ st.waiting.find w ≠ some false then (st, none)
    else ({ st with waiting := st.waiting.erase w }, some (w, false))
  | .init => ({ st with set := false, dead := false, waiting := st.waiting.map (fun p => (p.1, false)) }, none)
  | .dieInside => ({ st with dead := true }, none)

/-- A history: final state and the list of what the returning waiters reported. -/
def run : Named → List Step → Named × List (Nat × Bool)
  | st, [] => (st, [])
  | st, a :: l =>
    let r := step st a
    let rest := run r.1 l
    (rest.1, r.2.toList ++ rest.2)

/-! ### Unnamed event -/

structure Counting where
  n       : Nat := 0                      -- `unsigned int m_sigcount` (32 bits)
  waiting : List Nat := []
deriving Repr

inductive CStep where
  | set
  | wait (w : Nat)          -- entry: predicate true → consume; else sleep
  | wake (w : Nat)          -- predicate evaluated again
  | timeout (w : Nat)       -- `wait_for` gives up: it evaluates the predicate a last time
deriving DecidableEq, Repr

def cstep (st : Counting) : CStep → Counting × Option (Nat × Bool)
  | .set => ({ st with n := (st.n + 1) % 2 ^ 32 }, none)
  | .wait w =>
    if w ∈ st.waiting then (st, none)
    else if st.n > 0 then ({ st with n := st.n - 1 }, some (w, true))
    else ({ st with waiting := w :: st.waiting }, none)
  | .wake w =>
    if w ∈ st.waiting ∧ st.n > 0 then
      ({ n := st.n - 1, waiting := st.waiting.erase w }, some (w, true))
    else (st, none)
  | .timeout w =>
    if w ∈ st.waiting then
      if st.n > 0 then ({ n := st.n - 1, waiting := st.waiting.erase w }, some (w, true))
      else ({ st with waiting := st.waiting.erase w }, some (w, false))
    else (st, none)

def crun : Counting → List CStep → Counting × List (Nat × Bool)
  | st, [] => (st, [])
  | st, a :: l =>
    let r := cstep st a
    let rest := crun r.1 l
    (rest.1, r.2.toList ++ rest.2)

end Ecal.Sync.Event
