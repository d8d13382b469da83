/-!
# Receivers that wait for a sample

Code modelled: `/repo/ecal/core/src/readwrite/ecal_reader.cpp`: `Read` with its three kinds of timeout (L146-185),
the end of `ApplySample` (L453-492), `AddReceiveCallback` / `RemReceiveCallback` (L187-219), `Stop` (L114-144) and
the destructor (L104-112); `CSubscriber::Destroy` (`/repo/ecal/core/src/pubsub/ecal_subscriber.cpp`) calls `Stop`
and gives up the object.

The condition variable is modelled as the standard describes it: a waiting thread sleeps until it is notified,
until its time has come, or for no reason; then it takes the lock and tests the predicate.  `notify_one` wakes one
of the sleeping threads, any of them.  Destroying the condition variable while a thread is blocked on it is
undefined behaviour and a distinct outcome.

Simplifications: the sections under `m_read_buf_mtx` are atomic; the test of `m_created` at the entry of `Read`
(L148, outside the lock) is made together with the first section; the checks of `ApplySample` before L453 (layer,
hash, id, clock) have been passed: they are the subject of `Verif/Reader/Model.lean`.  Payload and time are one
value.  Time is a number of milliseconds.
-/

namespace Ecal.Reader.Wait

/-- A thread in `Read`.  The limit is the moment up to which it waits; `none` is an unlimited wait. -/
inductive Recv (α : Type) where
  | asleep (limit : Option Nat)
  | awake (limit : Option Nat)          -- left the wait, has not taken the lock yet
  | done (result : Option α)            -- `Read` has returned
deriving DecidableEq, Repr

/-- What can be observed of the samples. -/
inductive Obs (α : Type) where
  | stored (x : α)                      -- put into the receive buffer
  | called (x : α)                      -- given to the receive callback
  | handed (i : Nat) (x : α)            -- returned by the call `i` of `Read`
deriving DecidableEq, Repr

structure State (α : Type) where
  created  : Bool                       -- m_created
  callback : Bool                       -- a receive callback is set
  box      : Option α                   -- m_read_buf with m_read_buf_received
  now      : Nat
  recvs    : List (Recv α)              -- all calls of `Read`, in the order of their entry
  log      : List (Obs α)
deriving DecidableEq, Repr

def init (α : Type) : State α :=
  { created := true, callback := false, box := none, now := 0, recvs := [], log := [] }

inductive Outcome (α : Type) where
  | ok (s : State α)
  | impossible                          -- the step does not exist in this state
  | ub                                  -- undefined behaviour
deriving DecidableEq, Repr

inductive Step (α : Type) where
  | call (timeout : Int)                -- a thread calls `Read`
  | sample (x : α) (woken : Nat)        -- a sample has passed the checks; `woken`: whom `notify_one` wakes
  | wake (i : Nat)                      -- the end of the wait without a notification (time or spurious)
  | resume (i : Nat)                    -- the thread takes the lock and tests the predicate
  | advance (d : Nat)
  | addCallback
  | remCallback
  | stop
  | destroy
deriving DecidableEq, Repr

def Recv.isAsleep {α : Type} : Recv α → Bool
  | .asleep _ => true
  | _ => false

def Recv.isDone {α : Type} : Recv α → Bool
  | .done _ => true
  | _ => false

/-- The wait of L153-163 for a buffer that is empty. -/
def begin {α : Type} (now : Nat) (timeout : Int) : Recv α :=
  if timeout < 0 then .asleep none
  else if 0 < timeout then .asleep (some (now + timeout.toNat))
  else .done none

/-- Entry of `Read` (L148-184). -/
def enter {α : Type} (s : State α) (timeout : Int) : State α :=
  match s.created, s.box with
  | false, _ => { s with recvs := s.recvs ++ [.done none] }
  | true, some x =>
    { s with box := none, recvs := s.recvs ++ [.done (some x)], log := s.log ++ [.handed s.recvs.length x] }
  | true, none => { s with recvs := s.recvs ++ [begin s.now timeout] }

/-- The time limit has been reached. -/
def over (now : Nat) : Option Nat → Bool
  | none => false
  | some d => d ≤ now

/-- The predicate is tested after the wait (L157, L161) and, when the wait ends, L166-184. -/
def test {α : Type} (s : State α) (i : Nat) (limit : Option Nat) : State α :=
  match s.box with
  | some x => { s with box := none, recvs := s.recvs.set i (.done (some x)), log := s.log ++ [.handed i x] }
  | none => { s with recvs := s.recvs.set i (bif over s.now limit then .done none else .asleep limit) }

/-- The thread leaves the wait. -/
def rouse {α : Type} (rs : List (Recv α)) (i : Nat) : Option (List (Recv α)) :=
  match rs[i]? with
  | some (.asleep l) => some (rs.set i (.awake l))
  | _ => none

/-- `notify_one` (L487): one of the sleeping threads; nothing if nobody sleeps. -/
def notify {α : Type} (rs : List (Recv α)) (i : Nat) : Option (List (Recv α)) :=
  bif rs.any Recv.isAsleep then rouse rs i else some rs

/-- `m_read_buf` is filled and somebody is notified (L477-492). -/
def put {α : Type} (s : State α) (x : α) (i : Nat) : Outcome α :=
  match notify s.recvs i with
  | some rs => .ok { s with box := some x, recvs := rs, log := s.log ++ [.stored x] }
  | none => .impossible

def step {α : Type} (s : State α) : Step α → Outcome α
  | .call t => .ok (enter s t)
  | .sample x i =>
    bif s.created then
      bif s.callback then .ok { s with log := s.log ++ [.called x] } else put s x i
    else .ok s                                                                       -- L372
  | .wake i =>
    match rouse s.recvs i with
    | some rs => .ok { s with recvs := rs }
    | none => .impossible
  | .resume i =>
    match s.recvs[i]? with
    | some (.awake l) => .ok (test s i l)
    | _ => .impossible
  | .advance d => .ok { s with now := s.now + d }
  | .addCallback => .ok (bif s.created then { s with callback := true } else s)      -- L189, L198
  | .remCallback => .ok (bif s.created then { s with callback := false } else s)     -- L206, L215
  | .stop => .ok { s with created := false, callback := false }                      -- L128, L138; nobody is notified
  | .destroy => bif s.recvs.all Recv.isDone then .ok { s with created := false, callback := false } else .ub

def run {α : Type} (s : State α) : List (Step α) → Outcome α
  | [] => .ok s
  | a :: r =>
    match step s a with
    | .ok s' => run s' r
    | o => o

end Ecal.Reader.Wait
