/-!
# Typed subscribers as objects: callbacks, moves and destruction while samples arrive

Code modelled: `/repo/ecal/core/include/ecal/msg/subscriber.h`: `CMessageSubscriber` (destructor L266-269,
move constructor L284-298, move assignment L303-323, `Destroy` L330-334, `AddReceiveCallback` L372-382,
`RemReceiveCallback` L389-397, `ReceiveCallback` L400-416) and the older `CMsgSubscriber` (destructor L67);
`/repo/ecal/core/src/pubsub/ecal_subscriber.cpp`: destructor L53-56, moves L58-76, `Create` L78-92, `Destroy`
L99-122, `AddReceiveCallback` L149-154, `RemReceiveCallback` L156-160;
`/repo/ecal/core/src/readwrite/ecal_reader.cpp`: `AddReceiveCallback` L187-202, `RemReceiveCallback` L204-219,
`ApplySample` L368-372 and L453-474 (the callback runs under the lock that adding and removing takes).

One application thread performs operations on subscriber objects, each a short program of steps; for every
data reader a receiving thread takes samples through the callback bound to the reader.  All steps of all
threads interleave.  A data reader's callback is bound to an *object* (`std::bind(&ReceiveCallback, this)`).
The outcome `freed` means that a receiving thread touched a destroyed object, `race` that the callback
member of an object was moved while a receiving thread was copying it (both undefined).

Simplifications: a moved-from `std::function` is empty (true of the common implementations); the user's
callback does not itself operate on subscribers; one sample per reader at a time (the lock of the reader);
deserialisation succeeds (`Verif.Msg.Typed`); a sample that finds no bound callback goes to the read buffer
and is not counted here; the gate's own lock is left out.
-/

namespace Ecal.Msg.Owner

/-- A subscriber object. -/
structure Obj where
  alive  : Bool := false
  reader : Option Nat := none      -- `m_datareader`, with `m_created`
  cb     : Option Nat := none      -- `m_cb_callback`
deriving DecidableEq, Repr

/-- The objects, and for every data reader the object its callback is bound to. -/
structure Core where
  obj   : Nat → Obj := fun _ => {}
  bound : Nat → Option Nat := fun _ => none
  next  : Nat := 0                 -- number of data readers made so far

def Core.setObj (c : Core) (o : Nat) (x : Obj) : Core :=
  { c with obj := fun k => if k = o then x else c.obj k }

def Core.setBound (c : Core) (r : Nat) (b : Option Nat) : Core :=
  { c with bound := fun k => if k = r then b else c.bound k }

/-- The steps of the application thread. -/
inductive Micro where
  | born (o : Nat)                    -- an object is constructed
  | make (o : Nat)                    -- `CSubscriber::Create`: a new data reader
  | rem (o : Nat)                     -- `CSubscriber::RemReceiveCallback`
  | clear (o : Nat)                   -- `m_cb_callback = nullptr` under its lock
  | set (o : Nat) (cb : Option Nat)   -- `m_cb_callback = callback_` under its lock
  | add (o : Nat)                     -- `CSubscriber::AddReceiveCallback(bind(this))`
  | drop (o : Nat)                    -- the rest of `CSubscriber::Destroy`
  | moveBase (dst src : Nat)          -- `CSubscriber(std::move(rhs))`
  | moveCb (dst src : Nat)            -- `m_cb_callback = std::move(rhs.m_cb_callback)`, no lock
  | remIf (o : Nat)                   -- `if (has_callback) RemReceiveCallback()`
  | addIf (o : Nat)                   -- `if (has_callback) AddReceiveCallback(bind(this))`
  | kill (o : Nat)                    -- the memory of the object ends
deriving DecidableEq, Repr

/-- The effect of a step on objects and bindings. -/
def mexec (c : Core) : Micro → Core
  | .born o => c.setObj o { alive := true }
  | .make o => { c.setObj o { c.obj o with reader := some c.next } with next := c.next + 1 }
  | .rem o =>
    match (c.obj o).reader with
    | none => c
    | some r => c.setBound r none
  | .clear o => c.setObj o { c.obj o with cb := none }
  | .set o cb => c.setObj o { c.obj o with cb := cb }
  | .add o =>
    match (c.obj o).reader with
    | none => c
    | some r => c.setBound r (some o)
  | .drop o => c.setObj o { c.obj o with reader := none }
  | .moveBase dst src =>
    (c.setObj dst { c.obj dst with reader := (c.obj src).reader }).setObj src
      { c.obj src with reader := none }
  | .moveCb dst src =>
    (c.setObj dst { c.obj dst with cb := (c.obj src).cb }).setObj src { c.obj src with cb := none }
  | .remIf o =>
    if (c.obj o).cb = none then c
    else match (c.obj o).reader with
      | none => c
      | some r => c.setBound r none
  | .addIf o =>
    if (c.obj o).cb = none then c
    else match (c.obj o).reader with
      | none => c
      | some r => c.setBound r (some o)
  | .kill o => c.setObj o { c.obj o with alive := false }

/-- The operations of the application. -/
inductive Api where
  | new (o : Nat)                      -- construct and create
  | addCb (o : Nat) (cb : Option Nat)  -- `AddReceiveCallback`; `none` is an empty `std::function`
  | remCb (o : Nat)
  | destroy (o : Nat)
  | delete (o : Nat)                   -- `~CMessageSubscriber`
  | deleteOld (o : Nat)                -- `~CMsgSubscriber`: members first, then `~CSubscriber`
  | moveNew (dst src : Nat)            -- move constructor
  | moveTo (dst src : Nat)             -- move assignment
deriving DecidableEq, Repr

/-- `Destroy`. -/
def destroyProg (o : Nat) : List Micro := [.rem o, .clear o, .drop o]

/-- The program of an operation. -/
def program : Api → List Micro
  | .new o => [.born o, .make o]
  | .addCb o cb => [.rem o, .clear o, .set o cb, .add o]
  | .remCb o => [.rem o, .clear o]
  | .destroy o => destroyProg o
  | .delete o => destroyProg o ++ [.kill o]
  | .deleteOld o => [.kill o, .rem o, .drop o]
  | .moveNew dst src => [.born dst, .moveBase dst src, .moveCb dst src, .remIf dst, .addIf dst]
  | .moveTo dst src =>
    destroyProg dst ++ [.moveBase dst src, .moveCb dst src, .remIf dst, .addIf dst]

/-- A receiving thread, holding the lock of its reader unless idle. -/
inductive Rx where
  | idle
  | entered (o x : Nat)                       -- inside the callback bound to object `o`, sample `x`
  | copying (o x : Nat)                       -- holding the object's lock, copying its callback
  | copied (o : Nat) (cb : Option Nat) (x : Nat)
deriving DecidableEq, Repr

inductive Ub where
  | freed | race
deriving DecidableEq, Repr

structure State where
  core : Core := {}
  rx   : Nat → Rx := fun _ => .idle
  prog : List Micro := []
  ub   : Option Ub := none
  log  : List (Nat × Nat × Nat) := []       -- user callbacks: reader, callback, sample
  lost : List (Nat × Nat) := []             -- samples that found a bound object without callback

inductive Step where
  | call (a : Api)          -- the application thread starts an operation
  | app                     -- the application thread performs its next step
  | arrive (r x : Nat)      -- a sample arrives at a reader
  | rx (r : Nat)            -- its receiving thread performs its next step

/-- The receiving thread of `r` is inside the callback. -/
def busy (s : State) (r : Nat) : Bool := s.rx r ≠ .idle

/-- May the application thread perform the step now? Adding and removing waits for the lock of the reader,
changing the callback member for the lock of the object. -/
def enabled (s : State) : Micro → Bool
  | .rem o | .add o => match (s.core.obj o).reader with | none => true | some r => !busy s r
  | .remIf o | .addIf o =>
    if (s.core.obj o).cb = none then true
    else match (s.core.obj o).reader with | none => true | some r => !busy s r
  | .clear o | .set o _ =>
    (List.range s.core.next).all (fun r => match s.rx r with | .copying p _ => p ≠ o | _ => true)
  | _ => true

/-- Is a receiving thread copying the callback of this object? -/
def copies (s : State) (o : Nat) : Bool :=
  (List.range s.core.next).any (fun r => match s.rx r with | .copying p _ => p = o | _ => false)

/-- Does the step write a callback member that a receiving thread is copying? -/
def races (s : State) : Micro → Bool
  | .moveCb dst src => copies s src || copies s dst
  | .clear o | .set o _ => copies s o
  | _ => false

/-- Is the operation one the application may perform: on living objects, a new object where none is,
two different objects for a move. -/
def allowed (c : Core) : Api → Bool
  | .new o => !(c.obj o).alive
  | .addCb o _ | .remCb o | .destroy o | .delete o | .deleteOld o => (c.obj o).alive
  | .moveNew dst src => !(c.obj dst).alive && (c.obj src).alive && decide (dst ≠ src)
  | .moveTo dst src => (c.obj dst).alive && (c.obj src).alive && decide (dst ≠ src)

def setRx (s : State) (r : Nat) (v : Rx) : State :=
  { s with rx := fun k => if k = r then v else s.rx k }

/-- One step. -/
def step (s : State) (op : Step) : State :=
  if s.ub ≠ none then s else
  match op with
  | .call a => if s.prog = [] ∧ allowed s.core a then { s with prog := program a } else s
  | .app =>
    match s.prog with
    | [] => s
    | m :: rest =>
      if !enabled s m then s
      else if races s m then { s with ub := some .race }
      else { s with core := mexec s.core m, prog := rest }
  | .arrive r x =>
    if s.rx r = .idle then
      match s.core.bound r with
      | none => s
      | some o => setRx s r (.entered o x)
    else s
  | .rx r =>
    match s.rx r with
    | .idle => s
    | .entered o x =>
      if (s.core.obj o).alive then setRx s r (.copying o x) else { s with ub := some .freed }
    | .copying o x =>
      if (s.core.obj o).alive then setRx s r (.copied o (s.core.obj o).cb x)
      else { s with ub := some .freed }
    | .copied o cb x =>
      match cb with
      | none => { setRx s r .idle with lost := s.lost ++ [(r, x)] }
      | some f =>
        if (s.core.obj o).alive then { setRx s r .idle with log := s.log ++ [(r, f, x)] }
        else { s with ub := some .freed }

def run (s : State) (h : List Step) : State := h.foldl step s

/-- The application performs a whole operation without being disturbed. -/
def whole (a : Api) : List Step := .call a :: (program a).map (fun _ => .app)

/-- A sample is received without being disturbed. -/
def sample (r x : Nat) : List Step := [.arrive r x, .rx r, .rx r, .rx r]

end Ecal.Msg.Owner
