import Verif.Text.CmdLine
import Verif.Wire.Registration

/-!
# What a process says about itself

The names, the command line and the state a process reports in its registrations, from the calls that set them to the entry other
processes show in their monitoring.

Code modelled (Linux):
* core/src/ecal_global_accessors.cpp L41-52 (the variables), L60-89 `SetGlobalUnitName`
* core/src/ecal.cpp L133-153 `Initialize` (the unit name), L176-185 `SetUnitName`, L192-201 `Finalize` (leaves the variables as they are)
* core/src/ecal_process.cpp L253-256 `GetUnitName`, L258-267 `GetTaskParameter`, L292-300 `SetState`, L728-767 `GetProcessName`,
  L768-771, L922-985 `GetProcessParameter`
* core/src/registration/ecal_process_registration.cpp L33-94 `GetProcessRegisterSample`
* core/src/monitoring/ecal_monitoring_impl.cpp L358-406 `RegisterProcess` (the entry, not the table; the table is C45)

Simplifications: what the operating system answers is a parameter of every step; `/proc/self/exe` and `/proc/self/cmdline` may change
or become unreadable at any time.  A text given as `const char*` is its bytes, `none` is the null pointer.  Where components call the
functions themselves (the log asks for the process name) the history contains the call.  Host, process id, time synchronisation and
version come with the step; C129 is about the first two.  The calls do not overlap (C121 is about threads).
-/

namespace Ecal.Proc.Self
open Ecal.Text (Str)
open Ecal.Text.CmdLine (toCommandLine)
open Ecal.Wire (RegSample RProcess)

/-- The answers of the operating system: the link `/proc/self/exe` (`none`: `readlink` fails) and the bytes of `/proc/self/cmdline`
(`none`: it cannot be opened); and what the other parts of the library answer when a registration is made. -/
structure Env where
  exe     : Option Str := none
  cmdline : Option Str := none
  host    : Str := []
  group   : Str := []
  pid     : BitVec 32 := 0
  comps   : BitVec 32 := 0
  tsync   : BitVec 32 := 0
  tsyncBy : Str := []
  version : Str := []
deriving DecidableEq, Repr

/-- `g_unit_name`, `g_process_name`, `g_process_par`, `g_process_severity`, `g_process_severity_level`, `g_process_info`,
`g_task_parameter` (ecal_global_accessors.cpp L42-52). -/
structure St where
  unit     : Str := []
  pname    : Str := []
  par      : Str := []
  severity : BitVec 32 := 0
  level    : BitVec 32 := 1
  info     : Str := []
  task     : List Str := []
deriving DecidableEq, Repr

/-- `PATH_MAX` of Linux. -/
def pathMax : Nat := 4096

/-- `GetProcessName` (L728-767): the new state and the answer. -/
def getName (e : Env) (s : St) : St × Str :=
  if s.pname = [] then
    match e.exe with
    | none => (s, [])
    | some p => ({ s with pname := p.take pathMax }, p.take pathMax)
  else (s, s.pname)

/-- What is left of a text after the last slash, `rfind` and `substr` (ecal_global_accessors.cpp L82-86). -/
def afterSlash : Str → Str
  | [] => []
  | c :: r => if r.contains 47 then afterSlash r else if c = 47 then r else c :: r

/-- `SetGlobalUnitName` (L60-89), called with a text only. -/
def setGlobal (e : Env) (u : Str) (s : St) : St :=
  if u = [] then
    let r := getName e { s with unit := u }
    { r.1 with unit := afterSlash r.2 }
  else { s with unit := u }

/-- `std::getline` with the delimiter 0 until it fails (ecal_process.cpp L933-937): a last piece without delimiter counts unless it is
empty. -/
def pieces (cur : Str) : Str → List Str
  | [] => if cur = [] then [] else [cur]
  | c :: r => if c = 0 then cur :: pieces [] r else pieces (cur ++ [c]) r

/-- `GetProcessParameter` (L768-985). -/
def getPar (e : Env) (s : St) : St × Str :=
  if s.par = [] then
    match e.cmdline with
    | none => (s, [])
    | some f => ({ s with par := toCommandLine (pieces [] f) }, toCommandLine (pieces [] f))
  else (s, s.par)

/-- `GetTaskParameter` (L258-267) from the text so far on. -/
def taskGo (sep acc : Str) : List Str → Str
  | [] => acc
  | p :: r => taskGo sep ((if acc = [] then acc else acc ++ sep) ++ p) r

/-- One component in the text of the components (ecal_process_registration.cpp L84-87). -/
def compText (comps flag : BitVec 32) (name : Str) : Str := if comps &&& flag ≠ 0 then 124 :: name else []

/-- The text of the components (L83-89): `pub`, `sub`, `log`, `time`; the flags are those of core/include/ecal/ecal_init.h L31-36. -/
def compInfo (comps : BitVec 32) : Str :=
  (compText comps 1 [112, 117, 98] ++ compText comps 2 [115, 117, 98] ++ compText comps 16 [108, 111, 103] ++
    compText comps 32 [116, 105, 109, 101]).drop 1

/-- `GetProcessRegisterSample` (L33-94). -/
def sample (e : Env) (s : St) : St × RegSample :=
  let n := getName e s
  let p := getPar e n.1
  (p.1, { cmd := 4, hostName := e.host, processId := e.pid, process := { hgname := e.group, pname := n.2, uname := s.unit, pparam := p.2, severity := s.severity, severityLevel := s.level, info := s.info, tsyncState := e.tsync, tsyncModName := e.tsyncBy, initState := e.comps, initInfo := compInfo e.comps, version := e.version } })

/-- What the program and the library do. -/
inductive Op where
  /-- `Initialize` with a unit name or with none. -/
  | init (u : Option Str)
  | setUnit (u : Option Str)
  | setState (severity level : BitVec 32) (info : Option Str)
  | finalize
  | name
  | par
  | unit
  | task (sep : Str)
  /-- The registration cycle. -/
  | register
deriving DecidableEq, Repr

inductive Out where
  | nothing
  | code (c : Int)
  | text (t : Str)
  | sent (m : RegSample)
deriving DecidableEq, Repr

def step (e : Env) (s : St) : Op → St × Out
  | .init none => (s, .nothing)
  | .init (some u) => (setGlobal e u s, .nothing)
  | .setUnit none => (s, .code (-1))
  | .setUnit (some u) => if u = [] then (s, .code (-1)) else ({ s with unit := u }, .code 0)
  | .setState v l none => ({ s with severity := v, level := l }, .nothing)
  | .setState v l (some i) => ({ s with severity := v, level := l, info := i }, .nothing)
  | .finalize => (s, .nothing)
  | .name => ((getName e s).1, .text (getName e s).2)
  | .par => ((getPar e s).1, .text (getPar e s).2)
  | .unit => (s, .text s.unit)
  | .task sep => (s, .text (taskGo sep [] s.task))
  | .register => ((sample e s).1, .sent (sample e s).2)

/-- The state after a history. -/
def after (s : St) : List (Env × Op) → St
  | [] => s
  | x :: r => after (step x.1 s x.2).1 r

/-- The answer of a call after a history. -/
def answer (h : List (Env × Op)) (e : Env) (o : Op) : Out := (step e (after {} h) o).2

/-- `Monitoring::SProcessMon` without the counter (core/include/ecal/types/monitoring.h L99-132), as `RegisterProcess` fills it (L386-403). -/
structure Entry where
  hname    : Str
  hgname   : Str
  pname    : Str
  uname    : Str
  pid      : BitVec 32
  pparam   : Str
  severity : BitVec 32
  level    : BitVec 32
  info     : Str
  tsync    : BitVec 32
  tsyncBy  : Str
  initSt   : BitVec 32
  initInfo : Str
  version  : Str
deriving DecidableEq, Repr

/-- `RegisterProcess` (ecal_monitoring_impl.cpp L358-406). -/
def entry (m : RegSample) : Entry :=
  { hname := m.hostName, hgname := m.process.hgname, pname := m.process.pname, uname := m.process.uname, pid := m.processId, pparam := m.process.pparam, severity := m.process.severity, level := m.process.severityLevel, info := m.process.info, tsync := m.process.tsyncState, tsyncBy := m.process.tsyncModName, initSt := m.process.initState, initInfo := m.process.initInfo, version := m.process.version }

end Ecal.Proc.Self
