import Verif.Sync.Races

/-!
# What the threads of a process do with the data of the whole process

For every operation on the information about the process, the monitoring and the logging - calls of the user, the registration cycle,
registrations and log messages that arrive, a further `Initialize` - the variables it touches, in program order, and the locks it holds
meanwhile.

Simplifications:
* The library is initialised, and it is not finalised meanwhile (the end of the objects is the subject of C85 and C87-C90).
* Atomic variables (`m_created` of the log and of the time gate) cannot race and are left out; so is the pointer to the globals, which a
  further `Initialize` does not change, and what is written by the first `Initialize` only.
* A further `Initialize` names a unit and one component; one with several components does what several of them do.
* The variables of publishers, subscribers, servers and clients are the subject of C87-C90, the registration callbacks of C114.
* `first` says that a function which keeps its result finds none yet.
-/

namespace Ecal.Sync.ProcessRaces
open Ecal.Sync.Races

/-- The components a process may add later. -/
inductive Comp where
  | log | mon | time | gates
deriving DecidableEq, Repr

/-- * `logL`: `m_log_mtx` (ecal/core/src/logging/ecal_log_impl.h L109)
* `exclL`, `inclL`: `m_topic_filter_excl_mtx`, `m_topic_filter_incl_mtx` (ecal/core/src/monitoring/ecal_monitoring_impl.h L154, L158)
* `procL`, `pubL`, `subL`, `srvL`, `cliL`: the `sync` of the five tables of the monitoring (same file, L84-126, L163-167) -/
inductive Lk where
  | logL | exclL | inclL | procL | pubL | subL | srvL | cliL
deriving DecidableEq, Repr

/-- * `config` … `info`: ecal/core/src/ecal_global_accessors.cpp L39-52 (`sevLevel`: `g_process_severity_level`)
* `inst`: the pointer to a component (ecal/core/src/ecal_globals.h L103-118), `comps`: `initialized` and `components` (L101-102)
* `exclStr` … `cliMap`: ecal_monitoring_impl.h L154-167
* `logAttr`: `m_hname`, `m_pid`, `m_pname` and the filter masks; `logOut`: `m_logfile` and `m_udp_logging_sender`; `logLevel`, `logList`, `logBuf`:
  `m_level`, `m_log_msglist`, `m_log_message_vec` (ecal_log_impl.h L112-131) -/
inductive Var where
  | config | host | unit | pname | par | pid | info | severity | sevLevel
  | inst (c : Comp) | comps
  | exclStr | exclSet | inclStr | inclSet | procMap | pubMap | subMap | srvMap | cliMap
  | logAttr | logOut | logLevel | logList | logBuf
deriving DecidableEq, Repr

abbrev Prog := List (Act Lk Var)

def rd (v : Var) : Prog := [.rd v]

def wr (v : Var) : Prog := [.wr v]

def under (l : Lk) (p : Prog) : Prog := sect l .excl p

inductive Op where
  /-- `Process::SetState`; `info`: with a text. -/
  | setState (info : Bool)
  | setUnit
  | getUnit
  | getHost (first : Bool)
  | getName (first : Bool)
  | getPar (first : Bool)
  | getPid (first : Bool)
  /-- A function that reads the configuration. -/
  | config
  | isInit (c : Comp)
  /-- The registration cycle; `first`: the parameters of the process are not known yet. -/
  | cycle (first : Bool)
  /-- `Initialize` for a component, once more; `new`: the component is not there yet. -/
  | again (c : Comp) (new : Bool)
  | setExcl
  | setIncl
  | setFilter (on : Bool)
  /-- The registration of a publisher or subscriber arrives at the monitoring; `gone`: its end. -/
  | monTopic (pub gone : Bool)
  | monProc
  | monServer
  | monClient
  | getMon
  | setLevel
  | getLevel
  /-- `Logging::Log` without a level. -/
  | log
  /-- A log message with a level, by the library. -/
  | logAt
  | getLog
  /-- A log message arrives. -/
  | recvLog
deriving DecidableEq, Repr

/-- A function that keeps its result in a variable: ecal/core/src/ecal_process.cpp L231-246, L614-621, L711-715, L728-767, L768-985 -/
def cached (v : Var) (first : Bool) : Prog := rd v ++ (if first then wr v else []) ++ rd v

/-- `Log`: ecal/core/src/logging/ecal_log_impl.cpp L194-279, for a message that is written and sent -/
def logActs : Prog :=
  under .logL (rd .logAttr ++ rd .logOut ++ rd .logAttr ++ rd .unit ++ wr .logOut ++ rd .logAttr ++ rd .unit ++ wr .logBuf ++ rd .logOut)

/-- `Start`: ecal/core/src/logging/ecal_log_impl.cpp L114-166, the part before the new receiver is there. It does not ask whether the log has
been started already. -/
def logStart : Prog :=
  cached .host false ++ cached .pid false ++ cached .pname false ++ wr .logAttr ++ wr .logLevel ++ rd .config ++ rd .unit ++ wr .logOut

/-- `Start` of the monitoring when it is new: ecal/core/src/monitoring/ecal_monitoring_impl.cpp L54-72, L91-106 -/
def monStart : Prog :=
  cached .host false ++ wr .exclStr ++ wr .inclStr ++ under .exclL (rd .exclStr ++ wr .exclSet) ++ under .inclL (rd .inclStr ++ wr .inclSet)

/-- * `setState`, `setUnit`, `getUnit`: ecal/core/src/ecal_process.cpp L292-300, ecal/core/src/ecal.cpp L176-185, ecal_process.cpp L253-256
* `isInit`: ecal.cpp L162-167, ecal/core/src/ecal_globals.cpp L237-273
* `cycle`: ecal/core/src/registration/ecal_registration_provider.cpp L141-167, ecal/core/src/registration/ecal_process_registration.cpp L33-94
* `again`: ecal.cpp L133-145, ecal/core/src/ecal_global_accessors.cpp L65-66, ecal_globals.cpp L105-231
* monitoring: ecal/core/src/monitoring/ecal_monitoring_impl.cpp L81-118 (filters), L219-253, L344-353 (topics), L380-384, L417-421 (processes),
  L444-448, L490-494 (servers), L514-518, L558-562 (clients), L582-707 (`getMon`, all kinds), with the pointer from
  ecal/core/src/monitoring/ecal_monitoring_def.cpp L82-115
* logging: ecal/core/src/logging/ecal_log_impl.cpp L182-192, L281-310, L317-333, with the pointer from ecal/core/src/logging/ecal_log.cpp L38-88 -/
def Op.acts : Op → Prog
  | .setState info => wr .severity ++ wr .sevLevel ++ (if info then wr .info else [])
  | .setUnit => wr .unit
  | .getUnit => rd .unit
  | .getHost f => cached .host f
  | .getName f => cached .pname f
  | .getPar f => cached .par f
  | .getPid f => cached .pid f
  | .config => rd .config
  | .isInit c => rd (.inst c)
  | .cycle f =>
    cached .host false ++ cached .pid false ++ rd .config ++ cached .pname false ++ rd .unit ++ cached .par f ++ rd .severity ++
    rd .sevLevel ++ rd .info ++ rd (.inst .time) ++ rd .comps ++ rd (.inst .gates) ++ rd .unit
  | .again c new =>
    wr .config ++ wr .unit ++ rd .unit ++ rd (.inst c) ++ (if new then wr (.inst c) else []) ++
    (match c with
      | .log => logStart
      | .mon => if new then monStart else []
      | _ => []) ++
    wr .comps
  | .setExcl => rd (.inst .mon) ++ wr .exclStr
  | .setIncl => rd (.inst .mon) ++ wr .inclStr
  | .setFilter on =>
    rd (.inst .mon) ++ under .exclL ((if on then rd .exclStr else []) ++ wr .exclSet) ++
    under .inclL ((if on then rd .inclStr else []) ++ wr .inclSet)
  | .monTopic pub gone =>
    (if gone then [] else under .exclL (rd .exclSet) ++ under .inclL (rd .inclSet)) ++
    (if pub then under .pubL (wr .pubMap) else under .subL (wr .subMap))
  | .monProc => under .procL (wr .procMap)
  | .monServer => under .srvL (wr .srvMap)
  | .monClient => under .cliL (wr .cliMap)
  | .getMon =>
    rd (.inst .mon) ++ under .procL (wr .procMap) ++ under .pubL (wr .pubMap) ++ under .subL (wr .subMap) ++ under .srvL (wr .srvMap) ++
    under .cliL (wr .cliMap)
  | .setLevel => rd (.inst .log) ++ under .logL (wr .logLevel)
  | .getLevel => rd (.inst .log) ++ under .logL (rd .logLevel)
  | .log => rd (.inst .log) ++ rd .logLevel ++ logActs
  | .logAt => rd (.inst .log) ++ logActs
  | .getLog => rd (.inst .log) ++ under .logL (wr .logList)
  | .recvLog => rd .logAttr ++ rd .config ++ under .logL (wr .logList)

/-- Threads that make sequences of operations. -/
def startAll (ts : List (List Op)) : Sys Lk Var := start (ts.map (fun ops => ops.flatMap Op.acts))

end Ecal.Sync.ProcessRaces
