import Verif.Wire.Codec

/-!
# Payload samples

core/src/serialization/ecal_serialize_sample_payload.cpp, field numbers from
core/src/serialization/nanopb/{ecal,topic,host,process,service}.pb.h.
-/

namespace Ecal.Wire

/-- `Payload::Sample` (ecal_struct_sample_payload.h L37-81).  The payload is the byte string
denoted by `Payload::Payload` (raw pointer or vector, `CreatePayloadStruct` L38-65); enumerators
are their numbers. -/
structure PayloadSample where
  cmd     : BitVec 32 := 0
  hname   : Bytes := []
  tid     : Bytes := []
  tname   : Bytes := []
  id      : BitVec 64 := 0
  clock   : BitVec 64 := 0
  time    : BitVec 64 := 0
  payload : Bytes := []
  size    : BitVec 32 := 0
  hash    : BitVec 64 := 0
  padding : Bytes := []
deriving Repr, DecidableEq

/-- Fields of eCAL_pb_Host (host.pb.h L40-48) without target. -/
def hostDrop {α} : List (LField α) := [ignoredL 1, dropSubL 2 [ignoredL 1]]

/-- Fields of eCAL_pb_Process (process.pb.h L112-132) without target. -/
def processDrop {α} : List (LField α) :=
  [dropIntL 1, ignoredL 2, dropIntL 3, ignoredL 4, ignoredL 5, ignoredL 6,
   dropSubL 12 [dropUintL 1, ignoredL 2, dropUintL 3], dropUintL 13, ignoredL 14, dropIntL 15,
   ignoredL 16, ignoredL 17, ignoredL 18]

/-- Fields of eCAL_pb_Service (service.pb.h L189-200) without target. -/
def serviceDrop {α} : List (LField α) :=
  [dropIntL 1, ignoredL 2, ignoredL 3, ignoredL 4, dropIntL 5, ignoredL 6, dropUintL 7, ignoredL 8,
   ignoredL 9, dropUintL 10, dropUintL 11]

/-- Fields of eCAL_pb_Client (service.pb.h L205-214) without target. -/
def clientDrop {α} : List (LField α) :=
  [dropIntL 1, ignoredL 2, ignoredL 3, ignoredL 4, dropIntL 5, ignoredL 6, ignoredL 7, dropUintL 8,
   ignoredL 9]

/-- eCAL_pb_Topic (topic.pb.h L98-117) as used by payload samples: host name, topic id and
topic name. -/
def payloadTopicL : List (LField PayloadSample) :=
  [dropIntL 1, strL 2 (·.hname) (fun s v => { s with hname := v }), dropIntL 3, ignoredL 4, ignoredL 5,
   strL 6 (·.tid) (fun s v => { s with tid := v }), strL 7 (·.tname) (fun s v => { s with tname := v }),
   ignoredL 8, ignoredL 12, dropIntL 13, dropIntL 16, dropIntL 17, dropIntL 18, dropIntL 19, dropIntL 20,
   dropIntL 21, ignoredL 27, ignoredL 28, dropSubL 30 [ignoredL 1, ignoredL 2, ignoredL 3]]

/-- eCAL_pb_Content (ecal.pb.h L106-112). -/
def contentL : List (LField PayloadSample) :=
  [int64L 1 (·.id) (fun s v => { s with id := v }), int64L 2 (·.clock) (fun s v => { s with clock := v }),
   int64L 3 (·.time) (fun s v => { s with time := v }), strL 4 (·.payload) (fun s v => { s with payload := v }),
   int32L 6 (·.size) (fun s v => { s with size := v }), int64L 7 (·.hash) (fun s v => { s with hash := v })]

/-- eCAL_pb_Sample (ecal.pb.h L116-124) as used by payload samples
(`PayloadStruct2PbSample` L68-104, `Buffer2PayloadStruct` L139-188). -/
def payloadL : List (LField PayloadSample) :=
  [uint32L 1 (·.cmd) (fun s v => { s with cmd := v }), dropSubL 2 hostDrop, dropSubL 3 processDrop,
   dropSubL 4 serviceDrop, subL 5 payloadTopicL (fun _ => true), subL 6 contentL (fun _ => true),
   dropSubL 7 clientDrop, bytesL 8 (·.padding) (fun s v => { s with padding := v })]

def payloadCodec : Codec PayloadSample := payloadL.map (·.field)

/-- `PayloadStruct2Buffer` (L106-137). -/
def serializePayload (m : PayloadSample) : Bytes := encode payloadCodec m

/-- `Buffer2PayloadStruct` (L139-188): decodes into `target`; the numbers are read into a
fresh nanopb structure and then copied, strings are written into the target directly. -/
def deserializePayload (target : PayloadSample) (bs : Bytes) : Option PayloadSample :=
  if bs = [] then none
  else decode payloadCodec { target with cmd := 0, id := 0, clock := 0, time := 0, size := 0, hash := 0 } bs

/-! ### TCP messages -/

/-- Header sample built by `CDataWriterTCP::Write` (readwrite/tcp/ecal_writer_tcp.cpp
L80-94). -/
def tcpHeader (tname tid : Bytes) (id clock time hash : BitVec 64) (len : Nat) : PayloadSample :=
  { tname := tname, tid := tid, id := id, clock := clock, time := time, hash := hash,
    size := BitVec.ofNat 32 len }

/-- The padding computed from the size of the unpadded header (L96-121); `proto_header_size`
is 16 bits wide. -/
def tcpPadding (h : PayloadSample) : Nat :=
  let minimal := 4 + 2 + (serializePayload h).length % 65536
  (8 - minimal % 8) % 8

/-- The padded header. -/
def tcpPadded (h : PayloadSample) : PayloadSample :=
  { h with padding := List.replicate (tcpPadding h) 0 }

/-- Outcome of a TCP write: bytes handed to the publisher, or undefined behaviour: the header
buffer is sized with the 16-bit size but filled with all bytes (L127-140). -/
inductive TcpMsg where
  | ok (bytes : Bytes)
  | overflow
deriving Repr, DecidableEq

/-- `CDataWriterTCP::Write` (L76-152). -/
def tcpWrite (tname tid : Bytes) (id clock time hash : BitVec 64) (payload : Bytes) : TcpMsg :=
  let header := serializePayload (tcpPadded (tcpHeader tname tid id clock time hash payload.length))
  if header.length < 65536 then
    .ok ([69, 67, 65, 76] ++ [byte (header.length % 256), byte (header.length / 256)] ++ header ++ payload)
  else .overflow

/-- `CDataReaderTCP::OnTcpMessage` (readwrite/tcp/ecal_reader_tcp.cpp L89-123): the header
and the payload range handed on; `overread` when a declared size exceeds the message. -/
inductive TcpRead where
  | sample (h : PayloadSample) (payload : Bytes)
  | dropped
  | overread
deriving Repr, DecidableEq

/-- `static_cast<size_t>(int32_t)`. -/
def sizeOfInt32 (x : BitVec 32) : Nat := if x.msb then 2 ^ 64 - (2 ^ 32 - x.toNat) else x.toNat

def tcpRead (last : PayloadSample) (msg : Bytes) : TcpRead :=
  if msg.length < 6 then .overread
  else
    let hsize := ((msg.drop 4).headD 0).toNat + 256 * ((msg.drop 5).headD 0).toNat
    if msg.length < 6 + hsize then .overread
    else
      match deserializePayload last ((msg.drop 6).take hsize) with
      | none => .dropped
      | some h =>
        if (msg.drop (6 + hsize)).length < sizeOfInt32 h.size then .overread
        else .sample h ((msg.drop (6 + hsize)).take (sizeOfInt32 h.size))

end Ecal.Wire
