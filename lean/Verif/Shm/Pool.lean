/-!
# The pool of shared memory observers of a process

Code modelled: `/repo/ecal/core/src/io/shm/ecal_memfile_pool.cpp`:
`CMemFileObserver` — constructor L40-46, `Start` L99-119, `Stop` L122-139, `ResetTimeout` L141-148, the loop of
`Observe` L161-278 and its end L292-293; `CMemFileThreadPool` — `Start` L333-342, `Stop` L344-366,
`ObserveFile` L368-409, `CleanupPoolThread` L411-428, `CleanupPool` L430-451.
`ObserveFile` is called for every registration of a publisher on this host
(`/repo/ecal/core/src/readwrite/shm/ecal_reader_shm.cpp` L41-62).

Threads: any number of callers of `ObserveFile`, one thread that calls `Start`/`Stop` of the pool (initialisation
and finalisation), the cleanup thread, and one thread per observer.  A run is any list of steps of these threads
and of the clock.

Simplifications.
* What an observer reads (`/verif/lean/Verif/Shm/Observer.lean`) is left out: a step `access` with `true` stands
  for one processed content.
* The environment decides whether a wait of 20 ms ends with a signal and whether the memory file can be locked.
* A read of the clock and of the last life signal (L162) is one step.
* `IsObserving` and `ResetTimeout` (L384-387), both under the pool lock, are one step.
* `Stop` of the pool stops the observers one after the other; here in any order.
-/

namespace Ecal.Shm.Pool

/-- Where the thread of an observer is. -/
inductive Phase where
  | off          -- no thread (before `Start`, or joined)
  | check        -- at the loop condition, L162-163
  | wait         -- in `gWaitForEvent`, L169
  | last         -- "last chance to stop", L182
  | access       -- at `GetReadAccess` and, if granted, the processing, L185-276
  | leaving      -- after the loop, L280-293
  | ended        -- `m_is_observing` cleared, can be joined
deriving DecidableEq, Repr

structure Obs where
  phase     : Phase := .off
  pending   : Bool := false      -- `has_unprocessed_data`
  observing : Bool := false      -- `m_is_observing`
  doStop    : Bool := false      -- `m_do_stop`
  life      : Nat                -- `m_time_of_last_life_signal`
  timeout   : Nat := 0           -- `timeout_`
deriving DecidableEq, Repr

/-- One step of the thread of an observer; `none` if there is nothing to do.  The second component tells whether a
content was processed. -/
def Obs.run (now : Nat) (env : Bool) (o : Obs) : Option (Obs × Bool) :=
  match o.phase with
  | .off | .ended => none
  | .check =>
    if now - o.life < o.timeout ∧ o.doStop = false then
      some ({ o with phase := if o.pending then .last else .wait }, false)
    else some ({ o with phase := .leaving }, false)
  | .wait =>
    if env then some ({ o with phase := .last, pending := true, life := now }, false)
    else some ({ o with phase := .check }, false)
  | .last => if o.doStop then some ({ o with phase := .leaving }, false) else some ({ o with phase := .access }, false)
  | .access =>
    if env then some ({ o with phase := .check, pending := false }, true)
    else some ({ o with phase := .check }, false)
  | .leaving => some ({ o with phase := .ended, observing := false }, false)

/-- What starting a thread can lead to. -/
inductive Started where
  | ok (o : Obs)
  | terminate                    -- `std::thread` assigned while joinable: `std::terminate`
deriving DecidableEq, Repr

/-- `CMemFileObserver::Start`, L99-119 (the observer has been created). -/
def Obs.start (timeout : Nat) (o : Obs) : Started :=
  if o.observing then .ok o
  else if o.phase = .off then
    .ok { o with observing := true, phase := .check, pending := false, timeout := timeout }
  else .terminate

/-- The signal of `CMemFileObserver::Stop`, L126-133. -/
def Obs.signal (o : Obs) : Obs := if o.observing then { o with doStop := true } else o

/-- The join of `CMemFileObserver::Stop`, L136: `none` while the thread is running. -/
def Obs.join (o : Obs) : Option Obs :=
  match o.phase with
  | .off => some o
  | .ended => some { o with phase := .off }
  | _ => none

/-- A caller of `ObserveFile`. -/
inductive Call where
  | idle
  | admitted (name : String) (timeout : Nat)   -- behind L370-371, before the lock L374
  | done (result : Bool)
deriving DecidableEq, Repr

/-- The thread that starts and stops the pool. -/
inductive Stopper where
  | idle
  | joining      -- L354
  | stopping     -- L357-363, holds the pool lock
deriving DecidableEq, Repr

/-- The cleanup thread. -/
inductive Cleaner where
  | off
  | waiting      -- L415-424
  | cleaning     -- before L433
  | ended
deriving DecidableEq, Repr

structure State where
  now     : Nat := 0
  created : Bool := false
  cleanup : Bool := false                     -- `m_do_cleanup`
  pool    : String → Option Obs := fun _ => none
  calls   : Nat → Call := fun _ => .idle
  stopper : Stopper := .idle
  cleaner : Cleaner := .off
  seen    : List String := []                 -- the memory files whose content was processed, in order
  crashed : Bool := false

/-- Function update. -/
def upd {α β : Type} [DecidableEq α] (f : α → β) (a : α) (b : β) : α → β := fun x => if x = a then b else f x

inductive Step where
  | tick (d : Nat)
  | enter (c : Nat) (name : String) (timeout : Nat)
  | observe (c : Nat)
  | thread (name : String) (env : Bool)
  | start
  | stop
  | joinCleaner
  | signal (name : String)
  | clear
  | wake
  | clean
deriving DecidableEq, Repr

/-- The observer of a new memory file, L399-402: constructed at time `now`. -/
def fresh (now : Nat) : Obs := { life := now }

/-- `ObserveFile` behind the lock, L374-408. -/
def observe (s : State) (c : Nat) (name : String) (timeout : Nat) : Option State :=
  let s := { s with calls := upd s.calls c (.done true) }
  match s.pool name with
  | some o =>
    if o.observing then some { s with pool := upd s.pool name (some { o with life := s.now }) }
    else
      match o.signal.join with
      | none => none
      | some o =>
        match o.start timeout with
        | .ok o => some { s with pool := upd s.pool name (some o) }
        | .terminate => some { s with crashed := true }
  | none =>
    match (fresh s.now).start timeout with
    | .ok o => some { s with pool := upd s.pool name (some o) }
    | .terminate => some { s with crashed := true }

/-- One step; `none` if it is not possible. -/
def step (s : State) : Step → Option State
  | .tick d => some { s with now := s.now + d }
  | .enter c name timeout =>
    match s.calls c with
    | .admitted _ _ => none
    | _ =>
      if s.created = false ∨ name = "" then some { s with calls := upd s.calls c (.done false) }
      else some { s with calls := upd s.calls c (.admitted name timeout) }
  | .observe c =>
    if s.stopper = .stopping then none
    else
      match s.calls c with
      | .admitted name timeout => observe s c name timeout
      | _ => none
  | .thread name env =>
    match s.pool name with
    | none => none
    | some o =>
      match o.run s.now env with
      | none => none
      | some (o, p) => some { s with pool := upd s.pool name (some o), seen := if p then s.seen ++ [name] else s.seen }
  | .start =>
    if s.stopper ≠ .idle then none
    else if s.created then some s
    else some { s with cleanup := true, cleaner := .waiting, created := true }
  | .stop =>
    if s.stopper ≠ .idle then none
    else if s.created then some { s with cleanup := false, stopper := .joining }
    else some s
  | .joinCleaner =>
    if s.stopper = .joining ∧ s.cleaner = .ended then some { s with cleaner := .off, stopper := .stopping } else none
  | .signal name =>
    if s.stopper = .stopping then
      match s.pool name with
      | none => none
      | some o => some { s with pool := upd s.pool name (some o.signal) }
    else none
  | .clear => some { s with pool := fun _ => none, created := false, stopper := .idle }
  | .wake =>
    if s.cleaner = .waiting then
      if s.cleanup then some { s with cleaner := .cleaning } else some { s with cleaner := .ended }
    else none
  | .clean =>
    if s.cleaner = .cleaning ∧ s.stopper ≠ .stopping then
      some { s with pool := fun n => (s.pool n).filter (·.observing), cleaner := .waiting }
    else none

/-- The join of all observers (L360): possible once every thread has ended.  `clear` is the rest of `Stop`. -/
def Quiet (s : State) : Prop := ∀ n o, s.pool n = some o → o.phase = .off ∨ o.phase = .ended

/-- A run: `clear` is taken only by a stopping pool whose observers have all ended. -/
inductive Run : State → List Step → State → Prop where
  | nil (s : State) : Run s [] s
  | cons {s s' s'' : State} {e : Step} {es : List Step} (h : step s e = some s')
      (hc : e = .clear → s.stopper = .stopping ∧ Quiet s) (hr : Run s' es s'') : Run s (e :: es) s''

/-- The states of the pool. -/
def Reach (s : State) : Prop := ∃ es, Run {} es s

end Ecal.Shm.Pool
