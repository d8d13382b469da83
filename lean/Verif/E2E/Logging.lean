import Verif.Wire.Log
import Verif.Udp.Frame
import Verif.Capi.Copy
import Verif.Mon.Monitor

/-!
# Log messages from one process to another, and in the log file

Composition of the logging (core/src/logging/ecal_log_impl.cpp), the serialisation of log messages
(`Verif.Wire.Log`), the UDP framing (`Verif.Udp.Frame`) and the copying of the C interface (`Verif.Capi.Copy`):
what `Log` hands to the network and to the file, what another process does with datagrams that come in, and what
the three functions to fetch the collected messages return.

The decision which level goes where is in `Verif.Mon.Log` with the starting and stopping of the logging; here the
texts themselves are followed.  Simplifications: the logging is started; times are counted in microseconds from the
epoch and not negative; a process id is not negative; writing to the file succeeds.
-/

namespace Ecal.E2E.Logging

abbrev Bytes := List UInt8

open Ecal.Wire (LogMsg)

/-- The process that logs (`m_hname`, `m_pid`, `m_pname`, unit name; ecal_log_impl.cpp L116-118, L270). -/
structure Who where
  host  : Bytes
  pid   : Nat
  pname : Bytes
  uname : Bytes
deriving DecidableEq, Repr

/-- A call of `Log` and the time it reads (L194-206). -/
structure Entry where
  time  : Nat
  level : BitVec 32
  text  : Bytes
deriving DecidableEq, Repr

/-- The log message built for the network (L265-272). -/
def record (w : Who) (e : Entry) : LogMsg :=
  { time := .ofNat 64 e.time, hname := w.host, pid := .ofNat 32 w.pid, pname := w.pname, uname := w.uname,
    level := e.level, content := e.text }

/-- The name samples of the logging have (L277, L314): `_log_message_`. -/
def logName : Bytes := [95, 108, 111, 103, 95, 109, 101, 115, 115, 97, 103, 101, 95]

/-- L275-277. -/
def datagram (m : LogMsg) : Bytes := Udp.encode logName (Wire.serializeLog m)

/-- A logging process and its filter masks (L122-124). -/
structure Sender where
  who  : Who
  file : BitVec 32
  udp  : BitVec 32
deriving DecidableEq, Repr

/-- What one call hands to the network (L198-204, L262-278). -/
def send (s : Sender) (e : Entry) : List Bytes :=
  if e.text = [] then [] else if e.level &&& s.udp = 0 then [] else [datagram (record s.who e)]

/-- The calls of all processes in the order of their sending. -/
def sendAll (h : List (Sender × Entry)) : List Bytes := h.flatMap (fun x => send x.1 x.2)

/-! ## The log file -/

/-- A number as text. -/
def dec (n : Nat) : Bytes := (Mon.toDec n).map (fun c => UInt8.ofNat c.toNat)

/-- The words of the levels (L225-254; levels: core/include/ecal/ecal_log_level.h L32-41). -/
def levelName (l : BitVec 32) : Bytes :=
  if l = 1 then [105, 110, 102, 111]                          -- info
  else if l = 2 then [119, 97, 114, 110, 105, 110, 103]       -- warning
  else if l = 4 then [101, 114, 114, 111, 114]                -- error
  else if l = 8 then [102, 97, 116, 97, 108]                  -- fatal
  else if l = 16 then [100, 101, 98, 117, 103, 49]            -- debug1
  else if l = 32 then [100, 101, 98, 117, 103, 50]            -- debug2
  else if l = 64 then [100, 101, 98, 117, 103, 51]            -- debug3
  else if l = 128 then [100, 101, 98, 117, 103, 52]           -- debug4
  else []

/-- ` | ` -/
def bar : Bytes := [32, 124, 32]

/-- The text put together in L215-256: `<ms> ms | <host> | <unit> | <pid> | <level> | <text>`. -/
def line (w : Who) (e : Entry) : Bytes :=
  dec (e.time / 1000) ++ [32, 109, 115] ++ bar ++ w.host ++ bar ++ w.uname ++ bar ++ dec w.pid ++ bar ++
    levelName e.level ++ bar ++ e.text

/-- `fprintf(m_logfile, "%s\n", line.c_str())` (L258): up to the first zero byte. -/
def printed (l : Bytes) : Bytes := l.takeWhile (fun b => b != 0) ++ [10]

/-- The log file after a list of calls. -/
def written (s : Sender) (es : List Entry) : Bytes :=
  es.flatMap (fun e => if e.text = [] then [] else if e.level &&& s.file = 0 then [] else printed (line s.who e))

/-! ## The collecting process -/

/-- The receiver is listening, and `m_log_msglist`. -/
structure Rcv where
  armed  : Bool := true
  stored : List LogMsg := []
deriving DecidableEq, Repr

inductive In where
  | udp (e : Udp.Ev)                                              -- completion of the receive operation
  | fetch                                                         -- GetLogging(SLogging&), ecal_log.cpp L84-88
  | fetchText                                                     -- GetLogging(std::string&), L71-75
  | fetchC (malloc : Bool) (t : Capi.Target) (len : Int)          -- eCAL_Logging_GetLogging, ecal_log_cimpl.cpp L47-55
deriving DecidableEq, Repr

/-- What a call returns. -/
inductive Got where
  | nothing
  | msgs (l : List LogMsg)
  | text (b : Bytes)
  | c (o : Capi.Out)
deriving DecidableEq, Repr

/-- `CLog::ApplySample` (L317-333). -/
def applySample (host : Bytes) (network : Bool) (r : Rcv) (data : Bytes) : Rcv :=
  match Wire.deserializeLog {} data with
  | none => r
  | some m => if m.hname = host ∨ network = true then { r with stored := r.stored ++ [m] } else r

/-- One step of the collecting process; `none`: undefined behaviour.  `fetchText` and `fetchC` serialise the list and
clear it (L286-299). -/
def step (host : Bytes) (network : Bool) (r : Rcv) : In → Option (Rcv × Got)
  | .udp e =>
    match Udp.rx (fun n => n == logName) { armed := r.armed } e with
    | none => none
    | some x => some (x.applied.foldl (fun r p => applySample host network r p.2) { r with armed := x.armed }, .nothing)
  | .fetch => some ({ r with stored := [] }, .msgs r.stored)
  | .fetchText => some ({ r with stored := [] }, .text (Wire.serializeLogList r.stored))
  | .fetchC malloc t len =>
    let b := Wire.serializeLogList r.stored
    some ({ r with stored := [] }, .c (if Capi.toInt b.length ≠ 0 then Capi.copyBuffer malloc t len b else .ret 0 t))

/-- A history, with what the calls returned. -/
def run (host : Bytes) (network : Bool) : Rcv → List In → Option (Rcv × List Got)
  | r, [] => some (r, [])
  | r, i :: is =>
    match step host network r i with
    | none => none
    | some x => match run host network x.1 is with
      | none => none
      | some y => some (y.1, x.2 :: y.2)

/-- `Logging::GetLogging(std::string&)` (ecal_log.cpp L71-75): without an initialised library (`none`) the text of the
caller stays as it is; its length is returned. -/
def getLoggingText (lib : Option Rcv) (old : Bytes) : Bytes × Int :=
  let b := match lib with
    | some r => Wire.serializeLogList r.stored
    | none => old
  (b, Capi.toInt b.length)

end Ecal.E2E.Logging
