import Verif.Common.AMap

/-!
# Log routing and log collection

Code modelled: `/repo/ecal/core/src/logging/ecal_log_impl.cpp` L79-94 (time string, one second resolution),
L114-166 (`Start`), L168-180 (`Stop`), L194-279 (`Log`), L286-310 (`GetLogging`), L317-333 (`ApplySample`).

Levels and masks are bit sets (`log_level_none = 0`, `info = 1`, …, `debug4 = 128`, `all = 255`).  A file is
identified by the second in which its name was built (path, unit name and process id are fixed for the
process); `fopen(…, "w")` empties it.  The content of a log line is abstracted to (level, text).  The udp
sender's serialisation is `Verif.Wire`, its transport `Verif.Udp`.
-/

namespace Ecal.Mon.Log

open Ecal

structure Msg where
  level : Nat
  text  : String
deriving DecidableEq, Repr

/-- A log message received by the collecting process. -/
structure Rcv where
  host : String
  msg  : Msg
deriving DecidableEq, Repr

/-- The configuration and environment `Start` looks at. -/
structure Env where
  con     : Nat
  file    : Nat
  udp     : Nat
  dirOk   : Bool          -- the log directory exists
  openOk  : Bool          -- `fopen` succeeds
  network : Bool          -- network mode
  host    : String
deriving DecidableEq, Repr

structure State where
  created  : Bool := false
  con      : Nat := 0x0f
  file     : Nat := 0x3f
  udp      : Nat := 0x3f
  logfile  : Option Nat := none
  sender   : Bool := false
  -- what left the process
  console  : List Msg := []
  files    : AMap Nat (List Msg) := []
  sent     : List Msg := []
  -- collected messages of other processes
  msglist  : List Rcv := []
deriving Repr

/-- `Start` in second `now`. -/
def start (env : Env) (now : Nat) (st : State) : State :=
  let st := { st with con := env.con, file := env.file, udp := env.udp }
  if env.file ≠ 0 ∧ env.dirOk = false then st
  else
    let st := if env.file ≠ 0 then
        (if env.openOk then { st with logfile := some now, files := st.files.set now [] }
         else { st with logfile := none })
      else st
    { st with sender := if env.udp ≠ 0 then true else st.sender, created := true }

def stop (st : State) : State :=
  if st.created then { st with sender := false, logfile := none, created := false } else st

/-- Append to the open log file. -/
def toFile (st : State) (m : Msg) : State :=
  match st.logfile with
  | some f => { st with files := st.files.set f (((st.files.find f).getD []) ++ [m]) }
  | none => st

def log (st : State) (m : Msg) : State :=
  if st.created = false ∨ m.text = "" then st
  else
    let st1 := if m.level &&& st.con ≠ 0 then { st with console := st.console ++ [m] } else st
    let st2 := if m.level &&& st.file ≠ 0 then toFile st1 m else st1
    if m.level &&& st.udp ≠ 0 ∧ st.sender = true then { st2 with sent := st2.sent ++ [m] } else st2

/-- `ApplySample` of a well-formed message. -/
def applySample (env : Env) (st : State) (r : Rcv) : State :=
  if env.host = r.host ∨ env.network = true then { st with msglist := st.msglist ++ [r] } else st

/-- `GetLogging`: copy and clear. -/
def fetch (st : State) : State × List Rcv := ({ st with msglist := [] }, st.msglist)

inductive Op where
  | log (m : Msg)
  | apply (r : Rcv)
  | fetch
deriving DecidableEq, Repr

/-- One operation; a fetch returns what it got. -/
def step (env : Env) (st : State) : Op → State × List Rcv
  | .log m => (log st m, [])
  | .apply r => (applySample env st r, [])
  | .fetch => fetch st

def run (env : Env) : State → List Op → State × List Rcv
  | st, [] => (st, [])
  | st, a :: l =>
    let r := step env st a
    let rest := run env r.1 l
    (rest.1, r.2 ++ rest.2)

end Ecal.Mon.Log
