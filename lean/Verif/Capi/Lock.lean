/-!
# Callbacks of the C interface run under one lock

Code modelled: `/repo/ecal/core/src/cimpl/ecal_server_cimpl.cpp` (`g_method_callback_mtx`, `g_method_callback`,
L35-47): every method callback that was registered through the C interface runs with one lock of the process
held, for all servers and methods.  (Subscriber, publisher, client and timer callbacks have locks of the same
kind: ecal_subscriber_cimpl.cpp L35-38, L48-51, ecal_publisher_cimpl.cpp L35-38, ecal_client_cimpl.cpp L35-38,
L52-55, ecal_timer_cimpl.cpp L32-37.)

A call is to a C service of the same process; it is taken by one of the four io threads
(ecal_service_singleton_manager.h L72), which then waits for the lock.  The lock is recursive for the thread that
holds it, but the callback of a nested call runs on another thread.  Simplifications: as in
`Verif/Service/Pool.lean`; nested calls have no time limit.
-/

namespace Ecal.Capi.Lock

inductive Call where
  | pending                    -- waiting for an io thread
  | atLock                     -- on an io thread, waiting for the lock
  | running                    -- in the callback
  | blocked (child : Nat)      -- in the callback, waiting for its own call
  | answered
  | finished
deriving DecidableEq, Repr

/-- The call occupies an io thread. -/
def Call.busy : Call → Bool
  | .atLock => true
  | .running => true
  | .blocked _ => true
  | _ => false

/-- The call holds the lock. -/
def Call.holds : Call → Bool
  | .running => true
  | .blocked _ => true
  | _ => false

def threads : Nat := 4

/-- The caller of `j` goes on. -/
def unblock (j : Nat) : Call → Call
  | .blocked c => if c = j then .running else .blocked c
  | x => x

inductive Step where
  | call
  | serve (i : Nat)
  | enter (i : Nat)            -- the lock is taken (L38)
  | nest (i : Nat)
  | ret (i : Nat)              -- the callback returns, the lock is released
  | deliver (i : Nat)
deriving DecidableEq, Repr

def step (cs : List Call) : Step → Option (List Call)
  | .call => some (cs ++ [.pending])
  | .serve i => if cs[i]? = some .pending ∧ cs.countP Call.busy < threads then some (cs.set i .atLock) else none
  | .enter i => if cs[i]? = some .atLock ∧ cs.countP Call.holds = 0 then some (cs.set i .running) else none
  | .nest i => if cs[i]? = some .running then some (cs.set i (.blocked cs.length) ++ [.pending]) else none
  | .ret i => if cs[i]? = some .running then some (cs.set i .answered) else none
  | .deliver i =>
    if cs[i]? = some .answered ∧ cs.countP Call.busy < threads then some ((cs.set i .finished).map (unblock i)) else none

def run (cs : List Call) : List Step → Option (List Call)
  | [] => some cs
  | a :: r => (step cs a).bind (fun cs' => run cs' r)

end Ecal.Capi.Lock
