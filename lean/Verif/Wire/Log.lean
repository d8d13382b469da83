import Verif.Wire.Codec

/-!
# Log messages

core/src/serialization/ecal_serialize_logging.cpp, field numbers from
core/src/serialization/nanopb/logging.pb.h L49-61.
-/

namespace Ecal.Wire

/-- `Logging::SLogMessage` (include/ecal/types/logging.h L37-46). -/
structure LogMsg where
  time    : BitVec 64 := 0
  hname   : Bytes := []
  pid     : BitVec 32 := 0
  pname   : Bytes := []
  uname   : Bytes := []
  level   : BitVec 32 := 0
  content : Bytes := []
deriving Repr, DecidableEq

/-- eCAL_pb_LogMessage; `PrepareEncoding` L45-62, `PrepareDecoding` L106-123. -/
def logL : List (LField LogMsg) :=
  [int64L 1 (·.time) (fun m v => { m with time := v }), strL 2 (·.hname) (fun m v => { m with hname := v }),
   int32L 3 (·.pid) (fun m v => { m with pid := v }), strL 4 (·.pname) (fun m v => { m with pname := v }),
   strL 5 (·.uname) (fun m v => { m with uname := v }), int32L 6 (·.level) (fun m v => { m with level := v }),
   strL 7 (·.content) (fun m v => { m with content := v })]

def serializeLog (m : LogMsg) : Bytes := encode (logL.map (·.field)) m

/-- `Buffer2LogMessageStruct` (L139-169). -/
def deserializeLog (target : LogMsg) (bs : Bytes) : Option LogMsg :=
  if bs = [] then none
  else decode (logL.map (·.field)) { target with time := 0, pid := 0, level := 0 } bs

/-- eCAL_pb_LogMessageList over `std::list<SLogMessage>` (L176-203, L248-301). -/
def logListL : List (LField (List LogMsg)) := [repL 1 logL {} id (fun _ l => l)]

def serializeLogList (m : List LogMsg) : Bytes := encode (logListL.map (·.field)) m

/-- `Buffer2LogMessageListStruct` (L275-301): messages are appended to the target. -/
def deserializeLogList (target : List LogMsg) (bs : Bytes) : Option (List LogMsg) :=
  if bs = [] then none else decode (logListL.map (·.field)) target bs

end Ecal.Wire
