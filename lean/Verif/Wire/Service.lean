import Verif.Wire.Codec

/-!
# Service requests and responses

core/src/serialization/ecal_serialize_service.cpp, field numbers from
core/src/serialization/nanopb/service.pb.h L153-177.
-/

namespace Ecal.Wire

/-- `Service::ServiceHeader` (ecal_struct_service.h L44-53). -/
structure ServiceHeader where
  hname : Bytes := []
  sname : Bytes := []
  sid   : Bytes := []
  mname : Bytes := []
  error : Bytes := []
  id    : BitVec 32 := 0
  state : BitVec 32 := 0
deriving Repr, DecidableEq

/-- `Service::Request` (L56-60). -/
structure Request where
  header  : ServiceHeader := {}
  request : Bytes := []
deriving Repr, DecidableEq

/-- `Service::Response` (L63-68). -/
structure Response where
  header   : ServiceHeader := {}
  response : Bytes := []
  retState : BitVec 64 := 0
deriving Repr, DecidableEq

/-- Header fields inside a message with accessor `get`/`set`. -/
def serviceHeaderL {α} (get : α → ServiceHeader) (set : α → ServiceHeader → α) : List (LField α) :=
  [strL 1 (fun m => (get m).hname) (fun m v => set m { get m with hname := v }),
   strL 2 (fun m => (get m).sname) (fun m v => set m { get m with sname := v }),
   strL 3 (fun m => (get m).mname) (fun m v => set m { get m with mname := v }),
   strL 4 (fun m => (get m).error) (fun m v => set m { get m with error := v }),
   int32L 5 (fun m => (get m).id) (fun m v => set m { get m with id := v }),
   uint32L 6 (fun m => (get m).state) (fun m v => set m { get m with state := v }),
   strL 7 (fun m => (get m).sid) (fun m v => set m { get m with sid := v })]

def requestHeaderL : List (LField Request) := serviceHeaderL (·.header) (fun m h => { m with header := h })
def responseHeaderL : List (LField Response) := serviceHeaderL (·.header) (fun m h => { m with header := h })

/-- eCAL_pb_Request; `RequestStruct2PbRequest` L39-75, `Buffer2RequestStruct` L104-163. -/
def requestL : List (LField Request) :=
  [subL 1 requestHeaderL (fun _ => true), strL 2 (·.request) (fun m v => { m with request := v })]

/-- eCAL_pb_Response; `ResponseStruct2PbResponse` L165-203, `Buffer2ResponseStruct` L232-295. -/
def responseL : List (LField Response) :=
  [subL 1 responseHeaderL (fun _ => true), strL 2 (·.response) (fun m v => { m with response := v }),
   int64L 3 (·.retState) (fun m v => { m with retState := v })]

def serializeRequest (m : Request) : Bytes := encode (requestL.map (·.field)) m
def serializeResponse (m : Response) : Bytes := encode (responseL.map (·.field)) m

/-- `Buffer2RequestStruct`. -/
def deserializeRequest (target : Request) (bs : Bytes) : Option Request :=
  if bs = [] then none
  else decode (requestL.map (·.field)) { target with header := { target.header with id := 0, state := 0 } } bs

/-- `Buffer2ResponseStruct`. -/
def deserializeResponse (target : Response) (bs : Bytes) : Option Response :=
  if bs = [] then none
  else decode (responseL.map (·.field))
    { target with header := { target.header with id := 0, state := 0 }, retState := 0 } bs

end Ecal.Wire
