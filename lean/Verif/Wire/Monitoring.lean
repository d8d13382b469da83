import Verif.Wire.Registration

/-!
# Monitoring snapshots in serialised form

core/src/serialization/ecal_serialize_monitoring.cpp, field numbers from
core/src/serialization/nanopb/{monitoring,process,service,topic,layer}.pb.h; the choice of entities from
core/src/monitoring/ecal_monitoring_impl.cpp L582-614 (serialised) and L616-707 (structure), entity bits from
core/include/ecal/types/monitoring.h L36-53.
-/

namespace Ecal.Wire

/-! ### Structures (include/ecal/types/monitoring.h) -/

/-- `Monitoring::TLayer` (L65-70). -/
structure MLayer where
  type    : BitVec 32 := 0
  version : BitVec 32 := 0
  active  : Bool := false
deriving Repr, DecidableEq

/-- `Monitoring::STopicMon` (L72-97); `attr` lists the map's entries in iteration order. -/
structure MTopic where
  rclock    : BitVec 32 := 0
  hname     : Bytes := []
  hgname    : Bytes := []
  pid       : BitVec 32 := 0
  pname     : Bytes := []
  uname     : Bytes := []
  tid       : Bytes := []
  tname     : Bytes := []
  direction : Bytes := []
  dtName    : Bytes := []
  dtEnc     : Bytes := []
  dtDesc    : Bytes := []
  tlayer    : List MLayer := []
  tsize     : BitVec 32 := 0
  connLoc   : BitVec 32 := 0
  connExt   : BitVec 32 := 0
  drops     : BitVec 32 := 0
  did       : BitVec 64 := 0
  dclock    : BitVec 64 := 0
  dfreq     : BitVec 32 := 0
  attr      : List (Bytes × Bytes) := []
deriving Repr, DecidableEq

/-- `Monitoring::SProcessMon` (L99-132). -/
structure MProcess where
  rclock        : BitVec 32 := 0
  hname         : Bytes := []
  hgname        : Bytes := []
  pid           : BitVec 32 := 0
  pname         : Bytes := []
  uname         : Bytes := []
  pparam        : Bytes := []
  severity      : BitVec 32 := 0
  severityLevel : BitVec 32 := 0
  info          : Bytes := []
  tsyncState    : BitVec 32 := 0
  tsyncModName  : Bytes := []
  initState     : BitVec 32 := 0
  initInfo      : Bytes := []
  version       : Bytes := []
deriving Repr, DecidableEq

/-- `Monitoring::SServerMon` (L144-160); `SMethodMon` (L134-142) has the fields of `Method`. -/
structure MServer where
  rclock  : BitVec 32 := 0
  hname   : Bytes := []
  pname   : Bytes := []
  uname   : Bytes := []
  pid     : BitVec 32 := 0
  sname   : Bytes := []
  sid     : Bytes := []
  version : BitVec 32 := 0
  portV0  : BitVec 32 := 0
  portV1  : BitVec 32 := 0
  methods : List Method := []
deriving Repr, DecidableEq

/-- `Monitoring::SClientMon` (L162-176). -/
structure MClient where
  rclock  : BitVec 32 := 0
  hname   : Bytes := []
  pname   : Bytes := []
  uname   : Bytes := []
  pid     : BitVec 32 := 0
  sname   : Bytes := []
  sid     : Bytes := []
  methods : List Method := []
  version : BitVec 32 := 0
deriving Repr, DecidableEq

/-- `Monitoring::SMonitoring` (L178-185). -/
structure Snapshot where
  processes  : List MProcess := []
  publisher  : List MTopic := []
  subscriber : List MTopic := []
  server     : List MServer := []
  clients    : List MClient := []
deriving Repr, DecidableEq

/-! ### Tables -/

/-- eCAL_pb_ProcessState. -/
def monStateL : List (LField MProcess) :=
  [uint32L 1 (·.severity) (fun p v => { p with severity := v }), strL 2 (·.info) (fun p v => { p with info := v }),
   uint32L 3 (·.severityLevel) (fun p v => { p with severityLevel := v })]

/-- eCAL_pb_Process (`PrepareEncoding` L41-77, `PrepareDecoding`/`AssignValues`). -/
def monProcessL : List (LField MProcess) :=
  [int32L 1 (·.rclock) (fun p v => { p with rclock := v }), strL 2 (·.hname) (fun p v => { p with hname := v }),
   int32L 3 (·.pid) (fun p v => { p with pid := v }), strL 4 (·.pname) (fun p v => { p with pname := v }),
   strL 5 (·.uname) (fun p v => { p with uname := v }), strL 6 (·.pparam) (fun p v => { p with pparam := v }),
   subL 12 monStateL (fun _ => true), uint32L 13 (·.tsyncState) (fun p v => { p with tsyncState := v }),
   strL 14 (·.tsyncModName) (fun p v => { p with tsyncModName := v }),
   int32L 15 (·.initState) (fun p v => { p with initState := v }),
   strL 16 (·.initInfo) (fun p v => { p with initInfo := v }), strL 17 (·.version) (fun p v => { p with version := v }),
   strL 18 (·.hgname) (fun p v => { p with hgname := v })]

/-- eCAL_pb_TLayer: the layer parameters and the `enabled` flag are neither written nor read
(`encode_mon_registration_layer_field`, `decode_mon_registration_layer_field`). -/
def monLayerL : List (LField MLayer) :=
  [uint32L 1 (·.type) (fun m v => { m with type := v }), int32L 2 (·.version) (fun m v => { m with version := v }),
   boolL 3 (·.active) (fun m v => { m with active := v }),
   dropSubL 5 [dropSubL 1 [], dropSubL 2 [ignoredL 1], dropSubL 4 [dropIntL 1]], dropBoolL 6]

/-- eCAL_pb_DataTypeInformation. -/
def monDatatypeL : List (LField MTopic) :=
  [strL 1 (·.dtName) (fun p v => { p with dtName := v }), strL 2 (·.dtEnc) (fun p v => { p with dtEnc := v }),
   strL 3 (·.dtDesc) (fun p v => { p with dtDesc := v })]

def monLayersL : LField MTopic := repL 12 monLayerL {} (·.tlayer) (fun m v => { m with tlayer := v })
def monAttrL : LField MTopic := mapL 27 (·.attr) (fun m v => { m with attr := v })

/-- eCAL_pb_Topic (`PrepareEncoding` of STopicMon). -/
def monTopicL : List (LField MTopic) :=
  [int32L 1 (·.rclock) (fun p v => { p with rclock := v }), strL 2 (·.hname) (fun p v => { p with hname := v }),
   int32L 3 (·.pid) (fun p v => { p with pid := v }), strL 4 (·.pname) (fun p v => { p with pname := v }),
   strL 5 (·.uname) (fun p v => { p with uname := v }), strL 6 (·.tid) (fun p v => { p with tid := v }),
   strL 7 (·.tname) (fun p v => { p with tname := v }), strL 8 (·.direction) (fun p v => { p with direction := v }),
   monLayersL, int32L 13 (·.tsize) (fun p v => { p with tsize := v }),
   int32L 16 (·.connLoc) (fun p v => { p with connLoc := v }), int32L 17 (·.connExt) (fun p v => { p with connExt := v }),
   int32L 18 (·.drops) (fun p v => { p with drops := v }), int64L 19 (·.did) (fun p v => { p with did := v }),
   int64L 20 (·.dclock) (fun p v => { p with dclock := v }), int32L 21 (·.dfreq) (fun p v => { p with dfreq := v }),
   monAttrL, strL 28 (·.hgname) (fun p v => { p with hgname := v }), subL 30 monDatatypeL (fun _ => true)]

/-- eCAL_pb_Service (`PrepareEncoding` of SServerMon). -/
def monServerL : List (LField MServer) :=
  [int32L 1 (·.rclock) (fun p v => { p with rclock := v }), strL 2 (·.hname) (fun p v => { p with hname := v }),
   strL 3 (·.pname) (fun p v => { p with pname := v }), strL 4 (·.uname) (fun p v => { p with uname := v }),
   int32L 5 (·.pid) (fun p v => { p with pid := v }), strL 6 (·.sname) (fun p v => { p with sname := v }),
   uint32L 7 (·.portV0) (fun p v => { p with portV0 := v }),
   repL 8 methodL {} (·.methods) (fun m v => { m with methods := v }), strL 9 (·.sid) (fun p v => { p with sid := v }),
   uint32L 10 (·.version) (fun p v => { p with version := v }),
   uint32L 11 (·.portV1) (fun p v => { p with portV1 := v })]

/-- eCAL_pb_Client (`PrepareEncoding` of SClientMon). -/
def monClientL : List (LField MClient) :=
  [int32L 1 (·.rclock) (fun p v => { p with rclock := v }), strL 2 (·.hname) (fun p v => { p with hname := v }),
   strL 3 (·.pname) (fun p v => { p with pname := v }), strL 4 (·.uname) (fun p v => { p with uname := v }),
   int32L 5 (·.pid) (fun p v => { p with pid := v }), strL 6 (·.sname) (fun p v => { p with sname := v }),
   strL 7 (·.sid) (fun p v => { p with sid := v }), uint32L 8 (·.version) (fun p v => { p with version := v }),
   repL 9 methodL {} (·.methods) (fun m v => { m with methods := v })]

/-- The string "publisher". -/
def sPublisher : Bytes := [112, 117, 98, 108, 105, 115, 104, 101, 114]
/-- The string "subscriber". -/
def sSubscriber : Bytes := [115, 117, 98, 115, 99, 114, 105, 98, 101, 114]

/-- End of `decode_topics_field`: the direction decides the list; others are dropped. -/
def addTopic (s : Snapshot) (t : MTopic) : Snapshot :=
  let s1 := if t.direction = sPublisher then { s with publisher := s.publisher ++ [t] } else s
  if t.direction = sSubscriber then { s1 with subscriber := s1.subscriber ++ [t] } else s1

/-- `encode_mon_message_topics_field` (publishers, then subscribers, in one field) and
`decode_topics_field`. -/
def monTopicsL : LField Snapshot where
  field :=
    { tag := 4
      enc := fun m => (m.publisher ++ m.subscriber).map (fun t => .len (encode (monTopicL.map (·.field)) t))
      dec := fun s r =>
        match callbackBytes r with
        | none => none
        | some b => (decode (monTopicL.map (·.field)) {} b).map (addTopic s) }
  put m s := ((m.publisher ++ m.subscriber).map (fun t => puts monTopicL t {})).foldl addTopic s

/-- eCAL_pb_Monitoring; hosts are neither written nor read. -/
def monL : List (LField Snapshot) :=
  [ignoredL 1, repL 2 monProcessL {} (·.processes) (fun m v => { m with processes := v }),
   repL 3 monServerL {} (·.server) (fun m v => { m with server := v }), monTopicsL,
   repL 5 monClientL {} (·.clients) (fun m v => { m with clients := v })]

/-- `MonitoringStruct2Buffer`. -/
def serializeMon (m : Snapshot) : Bytes := encode (monL.map (·.field)) m

/-- `Buffer2MonitoringStruct`: entities are appended to the target. -/
def deserializeMon (target : Snapshot) (bs : Bytes) : Option Snapshot :=
  if bs = [] then none else decode (monL.map (·.field)) target bs

/-! ### Choosing entities -/

/-- `CMonitoringImpl::GetMonitoring(SMonitoring&, entities)` on the current content `t` of the five tables. -/
def getStruct (t : Snapshot) (entities : BitVec 32) : Snapshot :=
  { processes := if entities &&& 0x010 ≠ 0 then t.processes else []
    publisher := if entities &&& 0x001 ≠ 0 then t.publisher else []
    subscriber := if entities &&& 0x002 ≠ 0 then t.subscriber else []
    server := if entities &&& 0x004 ≠ 0 then t.server else []
    clients := if entities &&& 0x008 ≠ 0 then t.clients else [] }

/-- `CMonitoringImpl::GetMonitoring(std::string&, entities)`: the same choice, pushed into an empty structure
and serialised. -/
def getSerialized (t : Snapshot) (entities : BitVec 32) : Bytes :=
  let m0 : Snapshot := {}
  let m1 := if entities &&& 0x010 ≠ 0 then { m0 with processes := m0.processes ++ t.processes } else m0
  let m2 := if entities &&& 0x001 ≠ 0 then { m1 with publisher := m1.publisher ++ t.publisher } else m1
  let m3 := if entities &&& 0x002 ≠ 0 then { m2 with subscriber := m2.subscriber ++ t.subscriber } else m2
  let m4 := if entities &&& 0x004 ≠ 0 then { m3 with server := m3.server ++ t.server } else m3
  let m5 := if entities &&& 0x008 ≠ 0 then { m4 with clients := m4.clients ++ t.clients } else m4
  serializeMon m5

end Ecal.Wire
