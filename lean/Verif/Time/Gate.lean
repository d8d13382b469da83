/-!
# The time gate

Code modelled: `/repo/ecal/core/src/time/ecal_timegate.cpp` L72-133 (`Start`, `Stop`), L135-267 (getters,
`SetNanoSeconds`, `SleepForNanoseconds`), L269-342 (`GetStatus`, `IsValid`), L344-467 (`LoadModule`);
`/repo/ecal/core/src/time/ecal_time.cpp` L37-140 (`Time::…`);
`/repo/ecal/core/src/registration/ecal_process_registration.cpp` L50-78 (the use for registration).

A plug-in library is the set of symbols it exports; what its functions return is a parameter of each
operation (any value each time).  Calling a symbol that is missing calls a null pointer: the outcome is
`none`.  Simplifications: the search for the library is a parameter (`found`); log messages are left out;
sleeping is the number of nanoseconds slept; status texts are left out.
-/

namespace Ecal.Time.Gate

/-- The symbols of a plug-in. -/
inductive Sym where
  | initialize | finalize | getNs | setNs | isSync | isMaster | sleep | status
deriving DecidableEq, Repr

structure Lib where
  has : Sym → Bool

/-- L450-457. -/
def Lib.complete (l : Lib) : Bool :=
  l.has .initialize && l.has .finalize && l.has .getNs && l.has .setNs && l.has .isSync && l.has .isMaster &&
    l.has .sleep && l.has .status

/-- A call through a pointer. -/
def call {α : Type} (i : Option Lib) (s : Sym) (answer : α) : Option α :=
  match i with
  | some l => if l.has s then some answer else none
  | none => none

inductive Mode where
  | none | realtime | replay
deriving DecidableEq, Repr

/-- Which plug-in. -/
inductive Side where
  | rt | rp
deriving DecidableEq, Repr

inductive Ev where
  | opened (s : Side)
  | closed (s : Side)
deriving DecidableEq, Repr

structure Gate where
  created  : Bool := false
  name     : String := ""
  initRt   : Bool := false
  initRp   : Bool := false
  loadedRt : Bool := false
  loadedRp : Bool := false
  mode     : Mode := .none
  rt       : Option Lib := .none
  rp       : Option Lib := .none
  evs      : List Ev := []

/-- `LoadModule`: the result and the interface afterwards. -/
def load (name : String) (found : Option Lib) (i : Option Lib) : Bool × Option Lib :=
  if name = "" then (false, i)
  else match i with
    | some l => (true, some l)
    | .none =>
      match found with
      | .none => (false, .none)
      | some l => (l.complete, some l)

/-- The initialisation of one side (L97-106): the flag and the events; a missing symbol is tested for. -/
def initSide (s : Side) (i : Option Lib) (answer : Bool) : Bool × List Ev :=
  match i with
  | some l => if l.has .initialize then (answer, if answer then [.opened s] else []) else (false, [])
  | .none => (false, [])

/-- The part of `Start` that loads (L77-94). -/
def loadMode (g : Gate) (m : Mode) (name : String) (found : Option Lib) : Gate :=
  match m with
  | .none => { g with name := "", initRt := false, initRp := false, mode := m }
  | .realtime =>
    { g with name := name, initRt := false, initRp := false, mode := m,
             loadedRt := (load name found g.rt).1, rt := (load name found g.rt).2 }
  | .replay =>
    { g with name := name, initRt := false, initRp := false, mode := m,
             loadedRp := (load name found g.rp).1, rp := (load name found g.rp).2 }

/-- `Start`; `name` is the configured name for the mode, `aRt` and `aRp` the answers of the initialisation
functions. -/
def start (g : Gate) (m : Mode) (name : String) (found : Option Lib) (aRt aRp : Bool) : Gate :=
  if g.created then g
  else
    let g1 := loadMode g m name found
    { g1 with
      initRt := (initSide .rt g1.rt aRt).1, initRp := (initSide .rp g1.rp aRp).1, created := true,
      evs := g1.evs ++ (initSide .rt g1.rt aRt).2 ++ (initSide .rp g1.rp aRp).2 }

/-- The plug-in of the current mode, if it is initialised. -/
def active (g : Gate) : Option (Side × Option Lib) :=
  match g.mode with
  | .none => .none
  | .realtime => if g.initRt then some (.rt, g.rt) else .none
  | .replay => if g.initRp then some (.rp, g.rp) else .none

/-- `Stop`. -/
def stop (g : Gate) : Option Gate :=
  if !g.created then some g
  else
    let done := { g with initRt := false, initRp := false, created := false }
    match active g with
    | some (s, i) => (call i .finalize ()).map (fun _ => { done with evs := g.evs ++ [.closed s] })
    | .none => some done

/-- The getters: the answer of the active plug-in or a default. -/
def ask {α : Type} (g : Gate) (s : Sym) (answer dflt : α) : Option α :=
  if !g.created then some dflt
  else match active g with
    | some (_, i) => call i s answer
    | .none => some dflt

def getNs (g : Gate) (answer : Int) : Option Int := ask g .getNs answer 0
def setNs (g : Gate) (answer : Bool) : Option Bool := ask g .setNs answer false
def isSync (g : Gate) (answer : Bool) : Option Bool := ask g .isSync answer false
def isMaster (g : Gate) (answer : Bool) : Option Bool := ask g .isMaster answer false

/-- `SleepForNanoseconds`: nanoseconds slept; the plug-in sleeps `answer`. -/
def sleepFor (g : Gate) (d answer : Nat) : Option Nat :=
  if !g.created then some 0
  else match active g with
    | some (_, i) => call i .sleep answer
    | .none => some d

/-- `GetStatus`: the error. -/
def status (g : Gate) (answer : Int) : Option Int :=
  if !g.created then some (-1)
  else match g.mode with
    | .none => some 0
    | .realtime => if g.loadedRt then call g.rt .status answer else some (-1)
    | .replay => if g.loadedRp then call g.rp .status answer else some (-1)

/-- `IsValid`. -/
def isValid (g : Gate) (answer : Int) : Option Bool := (status g answer).map (fun e => decide (0 ≤ e))

/-! ### The functions of `eCAL::Time` (with an existing time gate) -/

/-- Whether the code between `#if ECAL_CORE_TIMEGATE` and `#endif` is compiled. -/
abbrev Build := Bool

/-- The build files define the features listed in `/repo/ecal/core/CMakeLists.txt` L615-638;
`ECAL_CORE_TIMEGATE` is not among them (`ECAL_CORE_TIMEPLUGIN` is) and is defined nowhere else. -/
def shipped : Build := false

/-- `Time::GetNanoSeconds` (L60-70); `now` is the system clock. -/
def timeNs (b : Build) (g : Gate) (st : Int) (answer now : Int) : Option Int :=
  if b then (isValid g st).bind (fun v => if v then getNs g answer else some now) else some now

/-- `Time::SetNanoSeconds` (L72-82). -/
def timeSet (b : Build) (g : Gate) (st : Int) (answer : Bool) : Option Bool :=
  if b then (isValid g st).bind (fun v => if v then setNs g answer else some false) else some false

/-- `Time::IsSynchronized` (L84-93). -/
def timeSync (b : Build) (g : Gate) (st : Int) (answer : Bool) : Option Bool :=
  if b then (isValid g st).bind (fun v => if v then isSync g answer else some false) else some false

/-- `Time::SleepForNanoseconds` (L106-115): there is no return after the sleep of the time gate. -/
def timeSleep (b : Build) (g : Gate) (st : Int) (d answer : Nat) : Option Nat :=
  if b then (isValid g st).bind (fun v => if v then (sleepFor g d answer).map (· + d) else some d) else some d

/-- The part of `Process::DumpConfig` about the time (`/repo/ecal/core/src/ecal_process.cpp` L192-207):
synchronised, master, error.  The time gate (`none`: the component was not initialised) is not tested
for. -/
def dump (gate : Option Gate) (sync master : Bool) (st : Int) : Option (Bool × Bool × Int) :=
  gate.bind (fun g => (isSync g sync).bind (fun a => (isMaster g master).bind (fun b =>
    (status g st).map (fun e => (a, b, e)))))

/-! ### Runs -/

inductive Op where
  | start (m : Mode) (name : String) (found : Option Lib) (aRt aRp : Bool)
  | stop

def step (g : Gate) : Op → Option Gate
  | .start m name found aRt aRp => some (start g m name found aRt aRp)
  | .stop => stop g

def run (g : Gate) : List Op → Option Gate
  | [] => some g
  | o :: r => (step g o).bind (fun g' => run g' r)

end Ecal.Time.Gate
