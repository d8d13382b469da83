import Verif.Pb.Stream
import Verif.Wire.Payload
import Verif.Wire.Service
import Verif.Wire.Log
import Verif.Wire.Monitoring

/-!
# The project's messages as nanopb tables

Field numbers and types from core/src/serialization/nanopb/*.pb.h; the place a value goes to from
the `Buffer2…`/`PrepareDecoding` functions of core/src/serialization/ecal_serialize_*.cpp.  A number
nobody reads is written into the nanopb structure and forgotten (`noInt32` …), a callback nobody
binds ignores its bytes (`noCb`).
-/

namespace Ecal.Pb

open Ecal.Wire

variable {α : Type}

def fBool (tag : Nat) (set : α → Bool → α) : PbField α := { tag := tag, kind := .bool set }
def fInt64 (tag : Nat) (set : α → BitVec 64 → α) : PbField α := { tag := tag, kind := .int64 set }
def fInt32 (tag : Nat) (set : α → BitVec 32 → α) : PbField α := { tag := tag, kind := .int32 set }
def fUint32 (tag : Nat) (set : α → BitVec 32 → α) : PbField α := { tag := tag, kind := .uint32 set }
def fStr (tag : Nat) (set : α → Bytes → α) : PbField α := { tag := tag, kind := .callback (cbString set) }
def fSub (tag : Nat) (fs : List (PbField α)) : PbField α := { tag := tag, kind := .sub (decodeMsg fs) }
def fElem {β} (tag : Nat) (fs : List (PbField β)) (init : β) (add : α → β → α) : PbField α :=
  { tag := tag, kind := .callback (cbElem fs init add) }
def noCb (tag : Nat) : PbField α := { tag := tag, kind := .callback cbNone }
def noInt32 (tag : Nat) : PbField α := fInt32 tag (fun s _ => s)
def noInt64 (tag : Nat) : PbField α := fInt64 tag (fun s _ => s)
def noUint32 (tag : Nat) : PbField α := fUint32 tag (fun s _ => s)
def noBool (tag : Nat) : PbField α := fBool tag (fun s _ => s)

/-! ### Payload samples (ecal_serialize_sample_payload.cpp L139-188) -/

/-- eCAL_pb_Host (host.pb.h L40-47). -/
def hostNone : List (PbField α) := [noCb 1, fSub 2 [noCb 1]]

/-- eCAL_pb_Process (process.pb.h L112-132). -/
def processNone : List (PbField α) :=
  [noInt32 1, noCb 2, noInt32 3, noCb 4, noCb 5, noCb 6, fSub 12 [noUint32 1, noCb 2, noUint32 3], noUint32 13,
   noCb 14, noInt32 15, noCb 16, noCb 17, noCb 18]

/-- eCAL_pb_Service (service.pb.h L189-200). -/
def serviceNone : List (PbField α) :=
  [noInt32 1, noCb 2, noCb 3, noCb 4, noInt32 5, noCb 6, noUint32 7, noCb 8, noCb 9, noUint32 10, noUint32 11]

/-- eCAL_pb_Client (service.pb.h L205-214). -/
def clientNone : List (PbField α) :=
  [noInt32 1, noCb 2, noCb 3, noCb 4, noInt32 5, noCb 6, noCb 7, noUint32 8, noCb 9]

/-- eCAL_pb_Topic (topic.pb.h L98-117). -/
def payloadTopic : List (PbField PayloadSample) :=
  [noInt32 1, fStr 2 (fun s v => { s with hname := v }), noInt32 3, noCb 4, noCb 5,
   fStr 6 (fun s v => { s with tid := v }), fStr 7 (fun s v => { s with tname := v }), noCb 8, noCb 12, noInt32 13,
   noInt32 16, noInt32 17, noInt32 18, noInt64 19, noInt64 20, noInt32 21, noCb 27, noCb 28,
   fSub 30 [noCb 1, noCb 2, noCb 3]]

/-- eCAL_pb_Content (ecal.pb.h L106-112). -/
def content : List (PbField PayloadSample) :=
  [fInt64 1 (fun s v => { s with id := v }), fInt64 2 (fun s v => { s with clock := v }),
   fInt64 3 (fun s v => { s with time := v }), fStr 4 (fun s v => { s with payload := v }),
   fInt32 6 (fun s v => { s with size := v }), fInt64 7 (fun s v => { s with hash := v })]

/-- eCAL_pb_Sample (ecal.pb.h L116-124). -/
def payloadPb : List (PbField PayloadSample) :=
  [fUint32 1 (fun s v => { s with cmd := v }), fSub 2 hostNone, fSub 3 processNone, fSub 4 serviceNone,
   fSub 5 payloadTopic, fSub 6 content, fSub 7 clientNone, fStr 8 (fun s v => { s with padding := v })]

/-- `Buffer2PayloadStruct` (L139-188) on `len` bytes at `off`. -/
def payloadC (target : PayloadSample) (mem : Bytes) (off len : Nat) : Res PayloadSample :=
  decodeBuffer payloadPb mem off len
    { target with cmd := 0, id := 0, clock := 0, time := 0, size := 0, hash := 0 }

/-! ### Registration samples (ecal_serialize_sample_registration.cpp, ecal_serialize_common.cpp) -/

/-- eCAL_pb_TLayer (layer.pb.h L101-131; ecal_serialize_common.cpp L299-330). -/
def layerPb : List (PbField TLayer) :=
  [fUint32 1 (fun m v => { m with type := v }), fInt32 2 (fun m v => { m with version := v }),
   fBool 3 (fun m v => { m with active := v }),
   fSub 5 [fSub 1 [], fSub 2 [fStr 1 (fun m v => { m with memfiles := m.memfiles ++ [v] })],
           fSub 4 [fInt32 1 (fun m v => { m with tcpPort := v })]],
   fBool 6 (fun m v => { m with enabled := v })]

/-- eCAL_pb_Method (service.pb.h L179-185; ecal_serialize_common.cpp L378-407). -/
def methodPb : List (PbField Method) :=
  [fStr 1 (fun m v => { m with mname := v }), fStr 2 (fun m v => { m with reqType := v }),
   fStr 3 (fun m v => { m with respType := v }), fInt64 4 (fun m v => { m with callCount := v }),
   fStr 5 (fun m v => { m with reqDesc := v }), fStr 6 (fun m v => { m with respDesc := v })]

/-- eCAL_pb_Topic_AttrEntry (topic.pb.h L124-126; ecal_serialize_common.cpp L174-194). -/
def attrPb : List (PbField (Bytes × Bytes)) := [fStr 1 (fun p v => (v, p.2)), fStr 2 (fun p v => (p.1, v))]

def rHname (tag : Nat) : PbField RegState := fStr tag (fun m v => { m with s := { m.s with hostName := v } })
def rEntity (tag : Nat) : PbField RegState := fStr tag (fun m v => { m with s := { m.s with entityId := v } })

/-- Places inside of the sample. -/
def onProcess (f : RProcess → RProcess) (m : RegState) : RegState := { m with s := { m.s with process := f m.s.process } }
def onService (f : RService → RService) (m : RegState) : RegState := { m with s := { m.s with service := f m.s.service } }
def onClient (f : RClient → RClient) (m : RegState) : RegState := { m with s := { m.s with client := f m.s.client } }
def onTopic (f : RTopic → RTopic) (m : RegState) : RegState := { m with s := { m.s with topic := f m.s.topic } }

/-- eCAL_pb_Process (process.pb.h L112-132; `PrepareDecoding` L296-322). -/
def rProcess : List (PbField RegState) :=
  [fInt32 1 (fun m v => onProcess (fun p => { p with rclock := v }) m), rHname 2,
   fInt32 3 (fun m v => { m with pidP := v }), fStr 4 (fun m v => onProcess (fun p => { p with pname := v }) m),
   fStr 5 (fun m v => onProcess (fun p => { p with uname := v }) m),
   fStr 6 (fun m v => onProcess (fun p => { p with pparam := v }) m),
   fSub 12 [fUint32 1 (fun m v => onProcess (fun p => { p with severity := v }) m),
            fStr 2 (fun m v => onProcess (fun p => { p with info := v }) m),
            fUint32 3 (fun m v => onProcess (fun p => { p with severityLevel := v }) m)],
   fUint32 13 (fun m v => onProcess (fun p => { p with tsyncState := v }) m),
   fStr 14 (fun m v => onProcess (fun p => { p with tsyncModName := v }) m),
   fInt32 15 (fun m v => onProcess (fun p => { p with initState := v }) m),
   fStr 16 (fun m v => onProcess (fun p => { p with initInfo := v }) m),
   fStr 17 (fun m v => onProcess (fun p => { p with version := v }) m),
   fStr 18 (fun m v => onProcess (fun p => { p with hgname := v }) m)]

/-- eCAL_pb_Service (service.pb.h L189-200). -/
def rService : List (PbField RegState) :=
  [fInt32 1 (fun m v => onService (fun p => { p with rclock := v }) m), rHname 2,
   fStr 3 (fun m v => onService (fun p => { p with pname := v }) m),
   fStr 4 (fun m v => onService (fun p => { p with uname := v }) m), fInt32 5 (fun m v => { m with pidS := v }),
   fStr 6 (fun m v => onService (fun p => { p with sname := v }) m),
   fUint32 7 (fun m v => onService (fun p => { p with portV0 := v }) m),
   fElem 8 methodPb {} (fun m e => onService (fun p => { p with methods := p.methods ++ [e] }) m), rEntity 9,
   fUint32 10 (fun m v => onService (fun p => { p with version := v }) m),
   fUint32 11 (fun m v => onService (fun p => { p with portV1 := v }) m)]

/-- eCAL_pb_Client (service.pb.h L205-214). -/
def rClient : List (PbField RegState) :=
  [fInt32 1 (fun m v => onClient (fun p => { p with rclock := v }) m), rHname 2,
   fStr 3 (fun m v => onClient (fun p => { p with pname := v }) m),
   fStr 4 (fun m v => onClient (fun p => { p with uname := v }) m), fInt32 5 (fun m v => { m with pidC := v }),
   fStr 6 (fun m v => onClient (fun p => { p with sname := v }) m), rEntity 7,
   fUint32 8 (fun m v => onClient (fun p => { p with version := v }) m),
   fElem 9 methodPb {} (fun m e => onClient (fun p => { p with methods := p.methods ++ [e] }) m)]

/-- eCAL_pb_Topic (topic.pb.h L91-117). -/
def rTopic : List (PbField RegState) :=
  [fInt32 1 (fun m v => onTopic (fun p => { p with rclock := v }) m), rHname 2,
   fInt32 3 (fun m v => { m with pidT := v }), fStr 4 (fun m v => onTopic (fun p => { p with pname := v }) m),
   fStr 5 (fun m v => onTopic (fun p => { p with uname := v }) m), rEntity 6,
   fStr 7 (fun m v => onTopic (fun p => { p with tname := v }) m),
   fStr 8 (fun m v => onTopic (fun p => { p with direction := v }) m),
   fElem 12 layerPb {} (fun m e => onTopic (fun p => { p with tlayer := p.tlayer ++ [e] }) m),
   fInt32 13 (fun m v => onTopic (fun p => { p with tsize := v }) m),
   fInt32 16 (fun m v => onTopic (fun p => { p with connLoc := v }) m),
   fInt32 17 (fun m v => onTopic (fun p => { p with connExt := v }) m),
   fInt32 18 (fun m v => onTopic (fun p => { p with drops := v }) m),
   fInt64 19 (fun m v => onTopic (fun p => { p with did := v }) m),
   fInt64 20 (fun m v => onTopic (fun p => { p with dclock := v }) m),
   fInt32 21 (fun m v => onTopic (fun p => { p with dfreq := v }) m),
   fElem 27 attrPb ([], []) (fun m e => onTopic (fun p => { p with attr := mapInsert p.attr e }) m),
   fStr 28 (fun m v => onTopic (fun p => { p with hgname := v }) m),
   fSub 30 [fStr 1 (fun m v => onTopic (fun p => { p with dtName := v }) m),
            fStr 2 (fun m v => onTopic (fun p => { p with dtEnc := v }) m),
            fStr 3 (fun m v => onTopic (fun p => { p with dtDesc := v }) m)]]

/-- eCAL_pb_Sample (ecal.pb.h L116-124; `PrepareDecoding` L296-392). -/
def regPb : List (PbField RegState) :=
  [fUint32 1 (fun m v => { m with s := { m.s with cmd := v } }),
   fSub 2 [fStr 1 (fun m v => { m with s := { m.s with hname := v } }), fSub 2 [noCb 1]],
   fSub 3 rProcess, fSub 4 rService, fSub 5 rTopic,
   fSub 6 [noInt64 1, noInt64 2, noInt64 3, noCb 4, noInt32 6, noInt64 7], fSub 7 rClient, noCb 8]

/-- `Buffer2RegistrationStruct` (L468-498). -/
def regC (target : RegSample) (mem : Bytes) (off len : Nat) : Res RegSample :=
  (decodeBuffer regPb mem off len (.prepared target)).bind (fun d => .ok (assignValues target d))

/-- eCAL_pb_SampleList with `decode_sample_list_field` (L579-604). -/
def regListPb : List (PbField (List RegSample)) :=
  [fElem 1 regPb (.prepared {}) (fun l d => l ++ [assignValues {} d])]

/-- `Buffer2RegistrationListStruct` (L606-632). -/
def regListC (target : List RegSample) (mem : Bytes) (off len : Nat) : Res (List RegSample) :=
  decodeBuffer regListPb mem off len target

/-! ### Service messages (ecal_serialize_service.cpp) -/

/-- eCAL_pb_ServiceHeader (service.pb.h L153-160). -/
def headerPb (upd : α → (ServiceHeader → ServiceHeader) → α) : List (PbField α) :=
  [fStr 1 (fun m v => upd m (fun h => { h with hname := v })), fStr 2 (fun m v => upd m (fun h => { h with sname := v })),
   fStr 3 (fun m v => upd m (fun h => { h with mname := v })), fStr 4 (fun m v => upd m (fun h => { h with error := v })),
   fInt32 5 (fun m v => upd m (fun h => { h with id := v })), fUint32 6 (fun m v => upd m (fun h => { h with state := v })),
   fStr 7 (fun m v => upd m (fun h => { h with sid := v }))]

/-- eCAL_pb_Request (service.pb.h L164-166). -/
def requestPb : List (PbField Request) :=
  [fSub 1 (headerPb (fun m f => { m with header := f m.header })), fStr 2 (fun m v => { m with request := v })]

/-- eCAL_pb_Response (service.pb.h L171-174). -/
def responsePb : List (PbField Response) :=
  [fSub 1 (headerPb (fun m f => { m with header := f m.header })), fStr 2 (fun m v => { m with response := v }),
   fInt64 3 (fun m v => { m with retState := v })]

/-- `Buffer2RequestStruct` (L104-163). -/
def requestC (target : Request) (mem : Bytes) (off len : Nat) : Res Request :=
  decodeBuffer requestPb mem off len { target with header := { target.header with id := 0, state := 0 } }

/-- `Buffer2ResponseStruct` (L232-295). -/
def responseC (target : Response) (mem : Bytes) (off len : Nat) : Res Response :=
  decodeBuffer responsePb mem off len
    { target with header := { target.header with id := 0, state := 0 }, retState := 0 }

/-! ### Log messages (ecal_serialize_logging.cpp) -/

/-- eCAL_pb_LogMessage (logging.pb.h L49-56). -/
def logPb : List (PbField LogMsg) :=
  [fInt64 1 (fun m v => { m with time := v }), fStr 2 (fun m v => { m with hname := v }),
   fInt32 3 (fun m v => { m with pid := v }), fStr 4 (fun m v => { m with pname := v }),
   fStr 5 (fun m v => { m with uname := v }), fInt32 6 (fun m v => { m with level := v }),
   fStr 7 (fun m v => { m with content := v })]

/-- `Buffer2LogMessageStruct` (L139-169). -/
def logC (target : LogMsg) (mem : Bytes) (off len : Nat) : Res LogMsg :=
  decodeBuffer logPb mem off len { target with time := 0, pid := 0, level := 0 }

/-- eCAL_pb_LogMessageList (logging.pb.h L60-61). -/
def logListPb : List (PbField (List LogMsg)) := [fElem 1 logPb {} (fun l e => l ++ [e])]

/-- `Buffer2LogMessageListStruct` (L275-301). -/
def logListC (target : List LogMsg) (mem : Bytes) (off len : Nat) : Res (List LogMsg) :=
  decodeBuffer logListPb mem off len target

/-! ### Monitoring (ecal_serialize_monitoring.cpp) -/

/-- eCAL_pb_Process into `SProcessMon`. -/
def mProcess : List (PbField MProcess) :=
  [fInt32 1 (fun p v => { p with rclock := v }), fStr 2 (fun p v => { p with hname := v }),
   fInt32 3 (fun p v => { p with pid := v }), fStr 4 (fun p v => { p with pname := v }),
   fStr 5 (fun p v => { p with uname := v }), fStr 6 (fun p v => { p with pparam := v }),
   fSub 12 [fUint32 1 (fun p v => { p with severity := v }), fStr 2 (fun p v => { p with info := v }),
            fUint32 3 (fun p v => { p with severityLevel := v })],
   fUint32 13 (fun p v => { p with tsyncState := v }), fStr 14 (fun p v => { p with tsyncModName := v }),
   fInt32 15 (fun p v => { p with initState := v }), fStr 16 (fun p v => { p with initInfo := v }),
   fStr 17 (fun p v => { p with version := v }), fStr 18 (fun p v => { p with hgname := v })]

/-- eCAL_pb_TLayer into `TLayer`. -/
def mLayer : List (PbField MLayer) :=
  [fUint32 1 (fun m v => { m with type := v }), fInt32 2 (fun m v => { m with version := v }),
   fBool 3 (fun m v => { m with active := v }), fSub 5 [fSub 1 [], fSub 2 [noCb 1], fSub 4 [noInt32 1]], noBool 6]

/-- eCAL_pb_Topic into `STopicMon`. -/
def mTopic : List (PbField MTopic) :=
  [fInt32 1 (fun p v => { p with rclock := v }), fStr 2 (fun p v => { p with hname := v }),
   fInt32 3 (fun p v => { p with pid := v }), fStr 4 (fun p v => { p with pname := v }),
   fStr 5 (fun p v => { p with uname := v }), fStr 6 (fun p v => { p with tid := v }),
   fStr 7 (fun p v => { p with tname := v }), fStr 8 (fun p v => { p with direction := v }),
   fElem 12 mLayer {} (fun p e => { p with tlayer := p.tlayer ++ [e] }), fInt32 13 (fun p v => { p with tsize := v }),
   fInt32 16 (fun p v => { p with connLoc := v }), fInt32 17 (fun p v => { p with connExt := v }),
   fInt32 18 (fun p v => { p with drops := v }), fInt64 19 (fun p v => { p with did := v }),
   fInt64 20 (fun p v => { p with dclock := v }), fInt32 21 (fun p v => { p with dfreq := v }),
   fElem 27 attrPb ([], []) (fun p e => { p with attr := mapInsert p.attr e }),
   fStr 28 (fun p v => { p with hgname := v }),
   fSub 30 [fStr 1 (fun p v => { p with dtName := v }), fStr 2 (fun p v => { p with dtEnc := v }),
            fStr 3 (fun p v => { p with dtDesc := v })]]

/-- eCAL_pb_Service into `SServerMon`. -/
def mServer : List (PbField MServer) :=
  [fInt32 1 (fun p v => { p with rclock := v }), fStr 2 (fun p v => { p with hname := v }),
   fStr 3 (fun p v => { p with pname := v }), fStr 4 (fun p v => { p with uname := v }),
   fInt32 5 (fun p v => { p with pid := v }), fStr 6 (fun p v => { p with sname := v }),
   fUint32 7 (fun p v => { p with portV0 := v }),
   fElem 8 methodPb {} (fun p e => { p with methods := p.methods ++ [e] }), fStr 9 (fun p v => { p with sid := v }),
   fUint32 10 (fun p v => { p with version := v }), fUint32 11 (fun p v => { p with portV1 := v })]

/-- eCAL_pb_Client into `SClientMon`. -/
def mClient : List (PbField MClient) :=
  [fInt32 1 (fun p v => { p with rclock := v }), fStr 2 (fun p v => { p with hname := v }),
   fStr 3 (fun p v => { p with pname := v }), fStr 4 (fun p v => { p with uname := v }),
   fInt32 5 (fun p v => { p with pid := v }), fStr 6 (fun p v => { p with sname := v }),
   fStr 7 (fun p v => { p with sid := v }), fUint32 8 (fun p v => { p with version := v }),
   fElem 9 methodPb {} (fun p e => { p with methods := p.methods ++ [e] })]

/-- eCAL_pb_Monitoring (monitoring.pb.h L42-47). -/
def monPb : List (PbField Snapshot) :=
  [noCb 1, fElem 2 mProcess {} (fun m e => { m with processes := m.processes ++ [e] }),
   fElem 3 mServer {} (fun m e => { m with server := m.server ++ [e] }), fElem 4 mTopic {} addTopic,
   fElem 5 mClient {} (fun m e => { m with clients := m.clients ++ [e] })]

/-- `Buffer2MonitoringStruct` (L857-901). -/
def monC (target : Snapshot) (mem : Bytes) (off len : Nat) : Res Snapshot := decodeBuffer monPb mem off len target

end Ecal.Pb
