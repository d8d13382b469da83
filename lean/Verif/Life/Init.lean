/-!
# Initialising and finalising

Code modelled: `/repo/ecal/core/src/ecal.cpp` L96-153 (`Initialize`, three overloads), L162-167
(`IsInitialized`), L192-201 (`Finalize`), L208-212 (`Ok`, first half); `/repo/ecal/core/src/ecal_globals.cpp`
L46-235 (`CGlobals::Initialize`), L237-273 (`IsInitialized`), L275-349 (`Finalize`);
`/repo/ecal/core/src/config/ecal_config_initializer.cpp` L237-268 (constructing a configuration object creates
the context); `/repo/ecal/core/src/ecal_global_accessors.cpp` L35-58, L91-94;
`/repo/ecal/core/src/ecal_util.cpp` L186-198 (`Util::GetMonitoring`).

`Initialize` with an existing configuration object does *not* create the context; only constructing a
configuration object does.  The library's own global configuration object is constructed at program
start, so a context exists then.  Dereferencing a null context is the outcome `none`.

Simplification: a component instance is a bit of `inst` (bits 0-5: publisher, subscriber, service,
monitoring, logging, time); the two service gates, which are created and destroyed together, share bit 2;
the always present core instances are `core`.  Starting and stopping the instances is not modelled here.
-/

namespace Ecal.Life

structure Ctx where
  initialized : Bool := false
  core        : Bool := false
  inst        : Nat := 0           -- component instances that exist
deriving DecidableEq, Repr

structure State where
  ctx : Option Ctx := none         -- `g_globals_ctx`
  ref : Int := 0                   -- `g_globals_ctx_ref_cnt`
deriving DecidableEq, Repr

/-- After static initialisation of the library. -/
def start : State := { ctx := some {} }

/-- Mask of the known components (`ecal_init.h` L31-36). -/
def known : Nat := 0x3f

/-- `Configuration::Configuration()`: `InitGlobals`. -/
def newConfig (st : State) : State :=
  match st.ctx with
  | some _ => st
  | none => { st with ctx := some {} }

/-- `Initialize(Configuration&, …, components)`: result code 0 (something new) or 1; `none` is the null
dereference. -/
def initCfg (st : State) (comps : Nat) : Option (State × Int) :=
  match st.ctx with
  | none => none
  | some c =>
    let inst' := c.inst ||| (comps &&& known)
    some ({ ctx := some { initialized := true, core := true, inst := inst' }, ref := st.ref + 1 },
          if c.core = false ∨ inst' ≠ c.inst then 0 else 1)

/-- `Initialize(argc, argv, …)` and `Initialize(args, …)`. -/
def initArgs (st : State) (comps : Nat) : Option (State × Int) := initCfg (newConfig st) comps

/-- `Finalize()`. -/
def finalize (st : State) : State × Int :=
  match st.ctx with
  | none => (st, 1)
  | some c =>
    if st.ref - 1 > 0 then ({ st with ref := st.ref - 1 }, 0)
    else ({ ctx := none, ref := st.ref - 1 }, if c.initialized then 0 else 1)

/-- `IsInitialized(component)`. -/
def isInitialized (st : State) (comp : Nat) : Bool :=
  match st.ctx with
  | none => false
  | some c =>
    if comp = 0 then c.initialized
    else if comp = 0x01 then c.inst.testBit 0
    else if comp = 0x02 then c.inst.testBit 1
    else if comp = 0x04 then c.inst.testBit 2
    else if comp = 0x08 then c.inst.testBit 3
    else if comp = 0x10 then c.inst.testBit 4
    else if comp = 0x20 then c.inst.testBit 5
    else false

/-- `Ok()` if no shutdown was requested. -/
def ok (st : State) : Bool := st.ctx.isSome

/-- `Util::GetMonitoring` (used by `Util::ShutdownProcess(name)` and `Util::ShutdownProcesses`): initialises
the monitoring component if necessary and never finalises. -/
def utilGetMonitoring (st : State) : Option State :=
  if isInitialized st 0x08 then some st else (initArgs st 0x08).map (·.1)

inductive Call where
  | newConfig                      -- the application constructs a configuration object
  | initArgs (comps : Nat)
  | initCfg (comps : Nat)          -- with a configuration object constructed earlier
  | finalize
  | utilGetMonitoring
deriving DecidableEq, Repr

def step (st : State) : Call → Option State
  | .newConfig => some (newConfig st)
  | .initArgs c => (initArgs st c).map (·.1)
  | .initCfg c => (initCfg st c).map (·.1)
  | .finalize => some (finalize st).1
  | .utilGetMonitoring => utilGetMonitoring st

def run : State → List Call → Option State
  | st, [] => some st
  | st, a :: l => match step st a with
    | some s => run s l
    | none => none

end Ecal.Life
