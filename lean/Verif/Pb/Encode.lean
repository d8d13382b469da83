import Verif.Pb.Stream
import Verif.Wire.Payload
import Verif.Wire.Service
import Verif.Wire.Log
import Verif.Wire.Monitoring

/-!
# nanopb's encoder on a stream

core/src/serialization/nanopb/nanopb/pb_encode.c: the same functions count bytes when the stream
has no callback and write to memory when it has one.  `size_t` has 64 bits.  Writing outside of
the memory behind the stream is `ub`.  Field tables are those of Verif/Pb/Tables.lean, with the
place a value comes from (`PrepareEncoding` and the `encode_…` functions of
core/src/serialization/ecal_serialize_*.cpp).
-/

namespace Ecal.Pb

open Ecal.Wire

/-- `pb_ostream_t` (pb_encode.h L27-47): with or without `callback`, the memory, the position of
`state` in it, `max_size`, `bytes_written`. -/
structure OStream where
  writing : Bool
  buf     : Bytes
  pos     : Nat
  max     : Nat
  written : Nat
deriving Repr, DecidableEq

/-- `PB_OSTREAM_SIZING` (pb_encode.h L106-119), and `{ nullptr, nullptr, 0, 0, nullptr}`. -/
def sizing : OStream := { writing := false, buf := [], pos := 0, max := 0, written := 0 }

/-- `pb_ostream_from_buffer` (L62-81). -/
def fromBuffer (buf : Bytes) (pos max : Nat) : OStream :=
  { writing := true, buf := buf, pos := pos, max := max, written := 0 }

/-- Memory after `data` was copied to position `pos`. -/
def overwrite (buf : Bytes) (pos : Nat) (data : Bytes) : Bytes := buf.take pos ++ data ++ buf.drop (pos + data.length)

/-- `buf_write` (L52-60). -/
def bufWrite (s : OStream) (data : Bytes) : Res OStream :=
  if s.buf.length < s.pos + data.length then .ub
  else .ok { s with buf := overwrite s.buf s.pos data, pos := s.pos + data.length }

/-- `bytes_written += n`. -/
def addWritten (s : OStream) (n : Nat) : OStream := { s with written := (s.written + n) % 2 ^ 64 }

/-- `pb_write` (L83-104). -/
def pbWrite (s : OStream) (data : Bytes) : Res OStream :=
  if 0 < data.length ∧ s.writing = true then
    if (s.written + data.length) % 2 ^ 64 < s.written ∨ (s.written + data.length) % 2 ^ 64 > s.max then .err
    else (bufWrite s data).bind (fun s' => .ok (addWritten s' data.length))
  else .ok (addWritten s data.length)

/-- `pb_write` with `buf == NULL`. -/
def pbCount (s : OStream) (n : Nat) : Res OStream :=
  if 0 < n ∧ s.writing = true then .ub else .ok (addWritten s n)

/-- `pb_encode_varint` (L606-622) with `pb_encode_varint_32` (L572-604): at most ten bytes fit into
`buffer`. -/
def writeVarint (s : OStream) (v : Nat) : Res OStream :=
  if 10 < (encVarintCode v).length then .ub else pbWrite s (encVarintCode v)

/-- `pb_encode_tag` (L674-678), `pb_encode_tag_for_field` (L680-713). -/
def writeTag (s : OStream) (w tag : Nat) : Res OStream := writeVarint s (tag <<< 3 ||| w)

/-- `pb_encode_string` (L715-721). -/
def writeString (s : OStream) (data : Bytes) : Res OStream :=
  (writeVarint s data.length).bind (fun s1 => pbWrite s1 data)

/-- Something that writes a message of type `α`. -/
abbrev Enc (α : Type) := α → OStream → Res OStream

/-- `pb_encode_submessage` (L723-771). -/
def writeSub {α} (inner : Enc α) (m : α) (s : OStream) : Res OStream :=
  (inner m sizing).bind (fun sub =>
    (writeVarint s sub.written).bind (fun s1 =>
      if s1.writing = false then pbCount s1 sub.written
      else if (s1.written + sub.written) % 2 ^ 64 > s1.max then .err
      else
        (inner m { writing := true, buf := s1.buf, pos := s1.pos, max := sub.written, written := 0 }).bind (fun sub2 =>
          if sub2.written ≠ sub.written then .err
          else .ok { s1 with buf := sub2.buf, pos := sub2.pos, written := (s1.written + sub2.written) % 2 ^ 64 })))

/-- Type of a field with the place its value comes from.  `sub`: the `has_…` flag and the table;
`callback`: the function set by `encode_…`, if one was set. -/
inductive EKind (α : Type) where
  | bool (get : α → Bool)
  | int64 (get : α → BitVec 64)
  | int32 (get : α → BitVec 32)
  | uint32 (get : α → BitVec 32)
  | sub (has : α → Bool) (inner : Enc α)
  | callback (cb : α → Option (Nat → OStream → Res OStream))

structure EField (α : Type) where
  tag  : Nat
  kind : EKind α

/-- `encode_field` (L417-468) with `pb_check_proto3_default_value` (L243-357),
`encode_basic_field` (L361-402), `pb_enc_bool` (L775-780), `pb_enc_varint` (L782-828),
`pb_enc_submessage` (L929-946), `encode_callback_field` (L406-414). -/
def encodeField {α} (f : EField α) (m : α) (s : OStream) : Res OStream :=
  match f.kind with
  | .bool get =>
    if get m = false then .ok s else (writeTag s 0 f.tag).bind (fun s1 => writeVarint s1 1)
  | .int64 get =>
    if get m = 0 then .ok s else (writeTag s 0 f.tag).bind (fun s1 => writeVarint s1 (get m).toNat)
  | .int32 get =>
    if get m = 0 then .ok s
    else (writeTag s 0 f.tag).bind (fun s1 => writeVarint s1 ((get m).signExtend 64).toNat)
  | .uint32 get =>
    if get m = 0 then .ok s else (writeTag s 0 f.tag).bind (fun s1 => writeVarint s1 (get m).toNat)
  | .sub has inner =>
    if has m = false then .ok s else (writeTag s 2 f.tag).bind (fun s1 => writeSub inner m s1)
  | .callback cb =>
    match cb m with
    | none => .ok s
    | some g => g f.tag s

/-- `pb_encode` (L511-533). -/
def encodeMsg {α} : List (EField α) → Enc α
  | [], _, s => .ok s
  | f :: fs, m, s => (encodeField f m s).bind (fun s1 => encodeMsg fs m s1)

/-- `std::string`/`std::vector::resize`. -/
def resize (old : Bytes) (n : Nat) : Bytes := old.take n ++ List.replicate (n - old.length) 0

/-- Bytes counted by the first pass, whose return value is ignored.  (A failing pass would yield
what it had counted until then; it does not fail.) -/
def countPass {α} (fs : List (EField α)) (m : α) : Nat :=
  match encodeMsg fs m sizing with
  | .ok s => s.written
  | _ => 0

/-- `…Struct2Buffer`: count, resize the target (which contains `old`), write. -/
def encodeBuffer {α} (fs : List (EField α)) (m : α) (old : Bytes) : Res Bytes :=
  (encodeMsg fs m (fromBuffer (resize old (countPass fs m)) 0 (countPass fs m))).bind (fun s => .ok s.buf)

/-! ### Callbacks of the project (core/src/serialization/ecal_serialize_common.cpp) -/

/-- `encode_string_field` (L42-52), `encode_bytes_field_nano_bytes` (L83-93),
`encode_bytes_field_vec` (L103-113). -/
def cbWriteString (data : Bytes) (tag : Nat) (s : OStream) : Res OStream :=
  (writeTag s 2 tag).bind (fun s1 => writeString s1 data)

/-- `encode_string_list_field` (L205-226). -/
def cbWriteStrings : List Bytes → Nat → OStream → Res OStream
  | [], _, s => .ok s
  | d :: l, tag, s => (cbWriteString d tag s).bind (fun s1 => cbWriteStrings l tag s1)

/-- `encode_map_field` (L142-166), `encode_registration_layer_field` (L249-291),
`encode_service_methods_field` (L341-370), `encode_sample_list_field`
(ecal_serialize_sample_registration.cpp L503-530), `encode_log_message_list_field`
(ecal_serialize_logging.cpp L174-201) and the callbacks of ecal_serialize_monitoring.cpp: tag and
sub-message for every element. -/
def cbWriteElems {β} (fs : List (EField β)) : List β → Nat → OStream → Res OStream
  | [], _, s => .ok s
  | e :: l, tag, s =>
    (writeTag s 2 tag).bind (fun s1 =>
      (writeSub (encodeMsg fs) e s1).bind (fun s2 => cbWriteElems fs l tag s2))

section
variable {α : Type}

def eBool (tag : Nat) (get : α → Bool) : EField α := { tag := tag, kind := .bool get }
def eInt64 (tag : Nat) (get : α → BitVec 64) : EField α := { tag := tag, kind := .int64 get }
def eInt32 (tag : Nat) (get : α → BitVec 32) : EField α := { tag := tag, kind := .int32 get }
def eUint32 (tag : Nat) (get : α → BitVec 32) : EField α := { tag := tag, kind := .uint32 get }
/-- `encode_string` (L54-60), `encode_bytes` of `SNanoBytes` (L95-101): nothing is set for an empty
value. -/
def eStr (tag : Nat) (get : α → Bytes) : EField α :=
  { tag := tag, kind := .callback (fun m => if get m = [] then none else some (cbWriteString (get m))) }
/-- `encode_bytes` of a vector (L115-119): always set. -/
def eVec (tag : Nat) (get : α → Bytes) : EField α :=
  { tag := tag, kind := .callback (fun m => some (cbWriteString (get m))) }
def eStrs (tag : Nat) (get : α → List Bytes) : EField α :=
  { tag := tag, kind := .callback (fun m => some (cbWriteStrings (get m))) }
def eElems {β} (tag : Nat) (fs : List (EField β)) (get : α → List β) : EField α :=
  { tag := tag, kind := .callback (fun m => some (cbWriteElems fs (get m))) }
def eSub (tag : Nat) (has : α → Bool) (fs : List (EField α)) : EField α :=
  { tag := tag, kind := .sub has (encodeMsg fs) }
/-- A callback that is never set, a number that stays zero, a sub-message whose flag stays false. -/
def xCb (tag : Nat) : EField α := { tag := tag, kind := .callback (fun _ => none) }
def xInt32 (tag : Nat) : EField α := eInt32 tag (fun _ => 0)
def xInt64 (tag : Nat) : EField α := eInt64 tag (fun _ => 0)
def xUint32 (tag : Nat) : EField α := eUint32 tag (fun _ => 0)
def xBool (tag : Nat) : EField α := eBool tag (fun _ => false)
def xSub (tag : Nat) (fs : List (EField α)) : EField α := eSub tag (fun _ => false) fs

/-! ### Payload samples (`PayloadStruct2PbSample`, ecal_serialize_sample_payload.cpp L68-104) -/

def hostX : List (EField α) := [xCb 1, xSub 2 [xCb 1]]
def processX : List (EField α) :=
  [xInt32 1, xCb 2, xInt32 3, xCb 4, xCb 5, xCb 6, xSub 12 [xUint32 1, xCb 2, xUint32 3], xUint32 13, xCb 14,
   xInt32 15, xCb 16, xCb 17, xCb 18]
def serviceX : List (EField α) :=
  [xInt32 1, xCb 2, xCb 3, xCb 4, xInt32 5, xCb 6, xUint32 7, xCb 8, xCb 9, xUint32 10, xUint32 11]
def clientX : List (EField α) := [xInt32 1, xCb 2, xCb 3, xCb 4, xInt32 5, xCb 6, xCb 7, xUint32 8, xCb 9]
end

def payloadTopicE : List (EField PayloadSample) :=
  [xInt32 1, eStr 2 (·.hname), xInt32 3, xCb 4, xCb 5, eStr 6 (·.tid), eStr 7 (·.tname), xCb 8, xCb 12, xInt32 13,
   xInt32 16, xInt32 17, xInt32 18, xInt64 19, xInt64 20, xInt32 21, xCb 27, xCb 28, xSub 30 [xCb 1, xCb 2, xCb 3]]

def contentE : List (EField PayloadSample) :=
  [eInt64 1 (·.id), eInt64 2 (·.clock), eInt64 3 (·.time), eStr 4 (·.payload), eInt32 6 (·.size), eInt64 7 (·.hash)]

def payloadE : List (EField PayloadSample) :=
  [eUint32 1 (·.cmd), xSub 2 hostX, xSub 3 processX, xSub 4 serviceX, eSub 5 (fun _ => true) payloadTopicE,
   eSub 6 (fun _ => true) contentE, xSub 7 clientX, eVec 8 (·.padding)]

/-- `PayloadStruct2Buffer` (L106-137). -/
def payloadW (m : PayloadSample) (old : Bytes) : Res Bytes := encodeBuffer payloadE m old

/-! ### Registration samples (`PrepareEncoding`, ecal_serialize_sample_registration.cpp L43-249) -/

/-- `encode_registration_layer_field` (ecal_serialize_common.cpp L249-291). -/
def layerE : List (EField TLayer) :=
  [eUint32 1 (·.type), eInt32 2 (·.version), eBool 3 (·.active),
   eSub 5 (fun _ => true) [xSub 1 [], eSub 2 (fun _ => true) [eStrs 1 (·.memfiles)],
                           eSub 4 (fun _ => true) [eInt32 1 (·.tcpPort)]],
   eBool 6 (·.enabled)]

/-- `encode_service_methods_field` (L341-370). -/
def methodE : List (EField Method) :=
  [eStr 1 (·.mname), eStr 2 (·.reqType), eStr 3 (·.respType), eInt64 4 (·.callCount), eStr 5 (·.reqDesc),
   eStr 6 (·.respDesc)]

/-- `encode_map_field` (L142-166). -/
def attrE : List (EField (Bytes × Bytes)) := [eStr 1 (·.1), eStr 2 (·.2)]

def processE : List (EField RegState) :=
  [eInt32 1 (·.s.process.rclock), eStr 2 (·.s.hostName), eInt32 3 (·.pidP), eStr 4 (·.s.process.pname),
   eStr 5 (·.s.process.uname), eStr 6 (·.s.process.pparam),
   eSub 12 (fun _ => true) [eUint32 1 (·.s.process.severity), eStr 2 (·.s.process.info), eUint32 3 (·.s.process.severityLevel)],
   eUint32 13 (·.s.process.tsyncState), eStr 14 (·.s.process.tsyncModName), eInt32 15 (·.s.process.initState),
   eStr 16 (·.s.process.initInfo), eStr 17 (·.s.process.version), eStr 18 (·.s.process.hgname)]

def serviceE : List (EField RegState) :=
  [eInt32 1 (·.s.service.rclock), eStr 2 (·.s.hostName), eStr 3 (·.s.service.pname), eStr 4 (·.s.service.uname),
   eInt32 5 (·.pidS), eStr 6 (·.s.service.sname), eUint32 7 (·.s.service.portV0), eElems 8 methodE (·.s.service.methods),
   eStr 9 (·.s.entityId), eUint32 10 (·.s.service.version), eUint32 11 (·.s.service.portV1)]

def clientE : List (EField RegState) :=
  [eInt32 1 (·.s.client.rclock), eStr 2 (·.s.hostName), eStr 3 (·.s.client.pname), eStr 4 (·.s.client.uname),
   eInt32 5 (·.pidC), eStr 6 (·.s.client.sname), eStr 7 (·.s.entityId), eUint32 8 (·.s.client.version),
   eElems 9 methodE (·.s.client.methods)]

def topicE : List (EField RegState) :=
  [eInt32 1 (·.s.topic.rclock), eStr 2 (·.s.hostName), eInt32 3 (·.pidT), eStr 4 (·.s.topic.pname),
   eStr 5 (·.s.topic.uname), eStr 6 (·.s.entityId), eStr 7 (·.s.topic.tname), eStr 8 (·.s.topic.direction),
   eElems 12 layerE (·.s.topic.tlayer), eInt32 13 (·.s.topic.tsize), eInt32 16 (·.s.topic.connLoc),
   eInt32 17 (·.s.topic.connExt), eInt32 18 (·.s.topic.drops), eInt64 19 (·.s.topic.did), eInt64 20 (·.s.topic.dclock),
   eInt32 21 (·.s.topic.dfreq), eElems 27 attrE (·.s.topic.attr), eStr 28 (·.s.topic.hgname),
   eSub 30 (fun _ => true) [eStr 1 (·.s.topic.dtName), eStr 2 (·.s.topic.dtEnc), eStr 3 (·.s.topic.dtDesc)]]

/-- The switch on the command (L217-247). -/
def hasPart (p : Part) (m : RegState) : Bool := partOf m.s.cmd == p

def regE : List (EField RegState) :=
  [eUint32 1 (·.s.cmd), eSub 2 (fun _ => true) [eStr 1 (·.s.hname), xSub 2 [xCb 1]],
   eSub 3 (hasPart .process) processE, eSub 4 (hasPart .service) serviceE, eSub 5 (hasPart .topic) topicE,
   xSub 6 [xInt64 1, xInt64 2, xInt64 3, xCb 4, xInt32 6, xInt64 7], eSub 7 (hasPart .client) clientE, xCb 8]

/-- `RegistrationStruct2Buffer` (L267-295). -/
def regW (m : RegSample) (old : Bytes) : Res Bytes := encodeBuffer regE (.ofSample m) old

def regListE : List (EField (List RegSample)) := [eElems 1 regE (fun l => l.map .ofSample)]

/-- `RegistrationListStruct2Buffer` (L550-577). -/
def regListW (m : List RegSample) (old : Bytes) : Res Bytes := encodeBuffer regListE m old

/-! ### Service messages (ecal_serialize_service.cpp L39-104, L165-232) -/

def headerE {α : Type} (get : α → ServiceHeader) : List (EField α) :=
  [eStr 1 (fun m => (get m).hname), eStr 2 (fun m => (get m).sname), eStr 3 (fun m => (get m).mname),
   eStr 4 (fun m => (get m).error), eInt32 5 (fun m => (get m).id), eUint32 6 (fun m => (get m).state),
   eStr 7 (fun m => (get m).sid)]

def requestE : List (EField Request) := [eSub 1 (fun _ => true) (headerE (·.header)), eStr 2 (·.request)]
def responseE : List (EField Response) :=
  [eSub 1 (fun _ => true) (headerE (·.header)), eStr 2 (·.response), eInt64 3 (·.retState)]

def requestW (m : Request) (old : Bytes) : Res Bytes := encodeBuffer requestE m old
def responseW (m : Response) (old : Bytes) : Res Bytes := encodeBuffer responseE m old

/-! ### Log messages (ecal_serialize_logging.cpp L43-105, L174-246) -/

def logE : List (EField LogMsg) :=
  [eInt64 1 (·.time), eStr 2 (·.hname), eInt32 3 (·.pid), eStr 4 (·.pname), eStr 5 (·.uname), eInt32 6 (·.level),
   eStr 7 (·.content)]

def logListE : List (EField (List LogMsg)) := [eElems 1 logE (fun l => l)]

def logW (m : LogMsg) (old : Bytes) : Res Bytes := encodeBuffer logE m old
def logListW (m : List LogMsg) (old : Bytes) : Res Bytes := encodeBuffer logListE m old

/-! ### Monitoring (ecal_serialize_monitoring.cpp L41-477) -/

def mProcessE : List (EField MProcess) :=
  [eInt32 1 (·.rclock), eStr 2 (·.hname), eInt32 3 (·.pid), eStr 4 (·.pname), eStr 5 (·.uname), eStr 6 (·.pparam),
   eSub 12 (fun _ => true) [eUint32 1 (·.severity), eStr 2 (·.info), eUint32 3 (·.severityLevel)],
   eUint32 13 (·.tsyncState), eStr 14 (·.tsyncModName), eInt32 15 (·.initState), eStr 16 (·.initInfo),
   eStr 17 (·.version), eStr 18 (·.hgname)]

def mLayerE : List (EField MLayer) :=
  [eUint32 1 (·.type), eInt32 2 (·.version), eBool 3 (·.active), xSub 5 [xSub 1 [], xSub 2 [xCb 1], xSub 4 [xInt32 1]],
   xBool 6]

def mTopicE : List (EField MTopic) :=
  [eInt32 1 (·.rclock), eStr 2 (·.hname), eInt32 3 (·.pid), eStr 4 (·.pname), eStr 5 (·.uname), eStr 6 (·.tid),
   eStr 7 (·.tname), eStr 8 (·.direction), eElems 12 mLayerE (·.tlayer), eInt32 13 (·.tsize), eInt32 16 (·.connLoc),
   eInt32 17 (·.connExt), eInt32 18 (·.drops), eInt64 19 (·.did), eInt64 20 (·.dclock), eInt32 21 (·.dfreq),
   eElems 27 attrE (·.attr), eStr 28 (·.hgname),
   eSub 30 (fun _ => true) [eStr 1 (·.dtName), eStr 2 (·.dtEnc), eStr 3 (·.dtDesc)]]

def mServerE : List (EField MServer) :=
  [eInt32 1 (·.rclock), eStr 2 (·.hname), eStr 3 (·.pname), eStr 4 (·.uname), eInt32 5 (·.pid), eStr 6 (·.sname),
   eUint32 7 (·.portV0), eElems 8 methodE (·.methods), eStr 9 (·.sid), eUint32 10 (·.version), eUint32 11 (·.portV1)]

def mClientE : List (EField MClient) :=
  [eInt32 1 (·.rclock), eStr 2 (·.hname), eStr 3 (·.pname), eStr 4 (·.uname), eInt32 5 (·.pid), eStr 6 (·.sname),
   eStr 7 (·.sid), eUint32 8 (·.version), eElems 9 methodE (·.methods)]

/-- `encode_mon_message_topics_field` (L194-246) is two loops, one after the other, with the same tag. -/
def topicsE : EField Snapshot :=
  { tag := 4
    kind := .callback (fun m => some (fun tag s =>
      (cbWriteElems mTopicE m.publisher tag s).bind (fun s1 => cbWriteElems mTopicE m.subscriber tag s1))) }

def monE : List (EField Snapshot) :=
  [xCb 1, eElems 2 mProcessE (·.processes), eElems 3 mServerE (·.server), topicsE, eElems 5 mClientE (·.clients)]

/-- `MonitoringStruct2Buffer` (L450-477). -/
def monW (m : Snapshot) (old : Bytes) : Res Bytes := encodeBuffer monE m old

end Ecal.Pb
