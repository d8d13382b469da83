import Verif.Wire.Codec

/-!
# Registration samples and sample lists

core/src/serialization/ecal_serialize_sample_registration.cpp and
core/src/serialization/ecal_serialize_common.cpp, field numbers from
core/src/serialization/nanopb/{ecal,topic,layer,host,process,service}.pb.h.
-/

namespace Ecal.Wire

/-! ### `std::map<std::string, std::string>` -/

/-- `std::less<std::string>`: lexicographic comparison of unsigned characters. -/
def bytesLt : Bytes → Bytes → Bool
  | [], [] => false
  | [], _ :: _ => true
  | _ :: _, [] => false
  | a :: as, b :: bs =>
    if a.toNat < b.toNat then true else if b.toNat < a.toNat then false else bytesLt as bs

/-- `map[key] = value` on the sequence of entries in iteration order. -/
def mapInsert : List (Bytes × Bytes) → Bytes × Bytes → List (Bytes × Bytes)
  | [], p => [p]
  | q :: l, p => if q.1 = p.1 then p :: l else if bytesLt p.1 q.1 then p :: q :: l else q :: mapInsert l p

/-- eCAL_pb_Topic_AttrEntry (topic.pb.h L124-126). -/
def attrEntryL : List (LField (Bytes × Bytes)) :=
  [strL 1 (·.1) (fun p v => (v, p.2)), strL 2 (·.2) (fun p v => (p.1, v))]

/-- `encode_map_field` / `decode_map_field` (ecal_serialize_common.cpp L142-200). -/
def mapL {α} (tag : Nat) (get : α → List (Bytes × Bytes)) (set : α → List (Bytes × Bytes) → α) : LField α where
  field :=
    { tag := tag
      enc := fun m => (get m).map (fun p => .len (encode (attrEntryL.map (·.field)) p))
      dec := fun s r =>
        match callbackBytes r with
        | none => none
        | some b =>
          match decode (attrEntryL.map (·.field)) ([], []) b with
          | none => none
          | some p => some (set s (mapInsert (get s) p)) }
  put m s := set s ((get m).foldl mapInsert (get s))

/-! ### Structures -/

/-- `Registration::TLayer` (ecal_struct_sample_registration.h L107-115); the only UDP
parameter structure is empty. -/
structure TLayer where
  type     : BitVec 32 := 0
  version  : BitVec 32 := 0
  enabled  : Bool := false
  active   : Bool := false
  tcpPort  : BitVec 32 := 0
  memfiles : List Bytes := []
deriving Repr, DecidableEq

/-- `Service::Method` (ecal_struct_service.h L71-79). -/
structure Method where
  mname     : Bytes := []
  reqType   : Bytes := []
  reqDesc   : Bytes := []
  respType  : Bytes := []
  respDesc  : Bytes := []
  callCount : BitVec 64 := 0
deriving Repr, DecidableEq

/-- `Registration::Process` (L118-131) with `ProcessState` inlined. -/
structure RProcess where
  rclock        : BitVec 32 := 0
  hgname        : Bytes := []
  pname         : Bytes := []
  uname         : Bytes := []
  pparam        : Bytes := []
  severity      : BitVec 32 := 0
  severityLevel : BitVec 32 := 0
  info          : Bytes := []
  tsyncState    : BitVec 32 := 0
  tsyncModName  : Bytes := []
  initState     : BitVec 32 := 0
  initInfo      : Bytes := []
  version       : Bytes := []
deriving Repr, DecidableEq

/-- `Service::Service` (ecal_struct_service.h L82-92). -/
structure RService where
  rclock  : BitVec 32 := 0
  pname   : Bytes := []
  uname   : Bytes := []
  sname   : Bytes := []
  methods : List Method := []
  version : BitVec 32 := 0
  portV0  : BitVec 32 := 0
  portV1  : BitVec 32 := 0
deriving Repr, DecidableEq

/-- `Service::Client` (L95-103). -/
structure RClient where
  rclock  : BitVec 32 := 0
  pname   : Bytes := []
  uname   : Bytes := []
  sname   : Bytes := []
  methods : List Method := []
  version : BitVec 32 := 0
deriving Repr, DecidableEq

/-- `Registration::Topic` (L134-159); `attr` lists the map's entries in iteration order. -/
structure RTopic where
  rclock    : BitVec 32 := 0
  hgname    : Bytes := []
  pname     : Bytes := []
  uname     : Bytes := []
  tname     : Bytes := []
  direction : Bytes := []
  dtName    : Bytes := []
  dtEnc     : Bytes := []
  dtDesc    : Bytes := []
  tlayer    : List TLayer := []
  tsize     : BitVec 32 := 0
  connLoc   : BitVec 32 := 0
  connExt   : BitVec 32 := 0
  drops     : BitVec 32 := 0
  did       : BitVec 64 := 0
  dclock    : BitVec 64 := 0
  dfreq     : BitVec 32 := 0
  attr      : List (Bytes × Bytes) := []
deriving Repr, DecidableEq

/-- `Registration::Sample` (L162-179). -/
structure RegSample where
  entityId  : Bytes := []
  processId : BitVec 32 := 0
  hostName  : Bytes := []
  cmd       : BitVec 32 := 0
  hname     : Bytes := []
  osname    : Bytes := []
  process   : RProcess := {}
  service   : RService := {}
  client    : RClient := {}
  topic     : RTopic := {}
deriving Repr, DecidableEq

/-! ### Tables -/

/-- eCAL_pb_TLayer (layer.pb.h L101-131; `encode_registration_layer_field` L249-291). -/
def layerL : List (LField TLayer) :=
  [uint32L 1 (·.type) (fun m v => { m with type := v }), int32L 2 (·.version) (fun m v => { m with version := v }),
   boolL 3 (·.active) (fun m v => { m with active := v }),
   subL 5 [dropSubL 1 [],
           subL 2 [strListL 1 (·.memfiles) (fun m v => { m with memfiles := v })] (fun _ => true),
           subL 4 [int32L 1 (·.tcpPort) (fun m v => { m with tcpPort := v })] (fun _ => true)] (fun _ => true),
   boolL 6 (·.enabled) (fun m v => { m with enabled := v })]

/-- eCAL_pb_Method (service.pb.h L179-185; ecal_serialize_common.cpp L341-407). -/
def methodL : List (LField Method) :=
  [strL 1 (·.mname) (fun m v => { m with mname := v }), strL 2 (·.reqType) (fun m v => { m with reqType := v }),
   strL 3 (·.respType) (fun m v => { m with respType := v }),
   int64L 4 (·.callCount) (fun m v => { m with callCount := v }),
   strL 5 (·.reqDesc) (fun m v => { m with reqDesc := v }), strL 6 (·.respDesc) (fun m v => { m with respDesc := v })]

/-- What encoder and decoder work on: the sample, and one process id per nanopb
sub-message. -/
structure RegState where
  s    : RegSample := {}
  pidP : BitVec 32 := 0
  pidS : BitVec 32 := 0
  pidC : BitVec 32 := 0
  pidT : BitVec 32 := 0
deriving Repr, DecidableEq

def hnameL (tag : Nat) : LField RegState :=
  strL tag (·.s.hostName) (fun m v => { m with s := { m.s with hostName := v } })
def entityL (tag : Nat) : LField RegState :=
  strL tag (·.s.entityId) (fun m v => { m with s := { m.s with entityId := v } })

/-- String field of the process. -/
def pStr (tag : Nat) (g : RProcess → Bytes) (f : RProcess → Bytes → RProcess) : LField RegState :=
  strL tag (fun m => g m.s.process) (fun m v => { m with s := { m.s with process := f m.s.process v } })
def pInt (tag : Nat) (g : RProcess → BitVec 32) (f : RProcess → BitVec 32 → RProcess) : LField RegState :=
  int32L tag (fun m => g m.s.process) (fun m v => { m with s := { m.s with process := f m.s.process v } })
def pEnum (tag : Nat) (g : RProcess → BitVec 32) (f : RProcess → BitVec 32 → RProcess) : LField RegState :=
  uint32L tag (fun m => g m.s.process) (fun m v => { m with s := { m.s with process := f m.s.process v } })

/-- eCAL_pb_ProcessState. -/
def regProcessStateL : List (LField RegState) :=
  [pEnum 1 (·.severity) (fun p v => { p with severity := v }), pStr 2 (·.info) (fun p v => { p with info := v }),
   pEnum 3 (·.severityLevel) (fun p v => { p with severityLevel := v })]

/-- eCAL_pb_Process (`PrepareEncoding` L43-79). -/
def regProcessL : List (LField RegState) :=
  [pInt 1 (·.rclock) (fun p v => { p with rclock := v }), hnameL 2,
   int32L 3 (·.pidP) (fun m v => { m with pidP := v }), pStr 4 (·.pname) (fun p v => { p with pname := v }),
   pStr 5 (·.uname) (fun p v => { p with uname := v }), pStr 6 (·.pparam) (fun p v => { p with pparam := v }),
   subL 12 regProcessStateL (fun _ => true), pEnum 13 (·.tsyncState) (fun p v => { p with tsyncState := v }),
   pStr 14 (·.tsyncModName) (fun p v => { p with tsyncModName := v }),
   pInt 15 (·.initState) (fun p v => { p with initState := v }),
   pStr 16 (·.initInfo) (fun p v => { p with initInfo := v }), pStr 17 (·.version) (fun p v => { p with version := v }),
   pStr 18 (·.hgname) (fun p v => { p with hgname := v })]

def sStr (tag : Nat) (g : RService → Bytes) (f : RService → Bytes → RService) : LField RegState :=
  strL tag (fun m => g m.s.service) (fun m v => { m with s := { m.s with service := f m.s.service v } })
def sInt (tag : Nat) (g : RService → BitVec 32) (f : RService → BitVec 32 → RService) : LField RegState :=
  int32L tag (fun m => g m.s.service) (fun m v => { m with s := { m.s with service := f m.s.service v } })
def sUint (tag : Nat) (g : RService → BitVec 32) (f : RService → BitVec 32 → RService) : LField RegState :=
  uint32L tag (fun m => g m.s.service) (fun m v => { m with s := { m.s with service := f m.s.service v } })
def sMethodsL : LField RegState :=
  repL 8 methodL {} (·.s.service.methods)
    (fun m v => { m with s := { m.s with service := { m.s.service with methods := v } } })

/-- eCAL_pb_Service (`PrepareEncoding` L84-112). -/
def regServiceL : List (LField RegState) :=
  [sInt 1 (·.rclock) (fun p v => { p with rclock := v }), hnameL 2, sStr 3 (·.pname) (fun p v => { p with pname := v }),
   sStr 4 (·.uname) (fun p v => { p with uname := v }), int32L 5 (·.pidS) (fun m v => { m with pidS := v }),
   sStr 6 (·.sname) (fun p v => { p with sname := v }), sUint 7 (·.portV0) (fun p v => { p with portV0 := v }),
   sMethodsL, entityL 9, sUint 10 (·.version) (fun p v => { p with version := v }),
   sUint 11 (·.portV1) (fun p v => { p with portV1 := v })]

def cStr (tag : Nat) (g : RClient → Bytes) (f : RClient → Bytes → RClient) : LField RegState :=
  strL tag (fun m => g m.s.client) (fun m v => { m with s := { m.s with client := f m.s.client v } })
def cInt (tag : Nat) (g : RClient → BitVec 32) (f : RClient → BitVec 32 → RClient) : LField RegState :=
  int32L tag (fun m => g m.s.client) (fun m v => { m with s := { m.s with client := f m.s.client v } })
def cUint (tag : Nat) (g : RClient → BitVec 32) (f : RClient → BitVec 32 → RClient) : LField RegState :=
  uint32L tag (fun m => g m.s.client) (fun m v => { m with s := { m.s with client := f m.s.client v } })
def cMethodsL : LField RegState :=
  repL 9 methodL {} (·.s.client.methods)
    (fun m v => { m with s := { m.s with client := { m.s.client with methods := v } } })

/-- eCAL_pb_Client (`PrepareEncoding` L117-141). -/
def regClientL : List (LField RegState) :=
  [cInt 1 (·.rclock) (fun p v => { p with rclock := v }), hnameL 2, cStr 3 (·.pname) (fun p v => { p with pname := v }),
   cStr 4 (·.uname) (fun p v => { p with uname := v }), int32L 5 (·.pidC) (fun m v => { m with pidC := v }),
   cStr 6 (·.sname) (fun p v => { p with sname := v }), entityL 7,
   cUint 8 (·.version) (fun p v => { p with version := v }), cMethodsL]

def tStr (tag : Nat) (g : RTopic → Bytes) (f : RTopic → Bytes → RTopic) : LField RegState :=
  strL tag (fun m => g m.s.topic) (fun m v => { m with s := { m.s with topic := f m.s.topic v } })
def tInt (tag : Nat) (g : RTopic → BitVec 32) (f : RTopic → BitVec 32 → RTopic) : LField RegState :=
  int32L tag (fun m => g m.s.topic) (fun m v => { m with s := { m.s with topic := f m.s.topic v } })
def tInt64 (tag : Nat) (g : RTopic → BitVec 64) (f : RTopic → BitVec 64 → RTopic) : LField RegState :=
  int64L tag (fun m => g m.s.topic) (fun m v => { m with s := { m.s with topic := f m.s.topic v } })
def tLayersL : LField RegState :=
  repL 12 layerL {} (·.s.topic.tlayer)
    (fun m v => { m with s := { m.s with topic := { m.s.topic with tlayer := v } } })
def tAttrL : LField RegState :=
  mapL 27 (·.s.topic.attr) (fun m v => { m with s := { m.s with topic := { m.s.topic with attr := v } } })

/-- eCAL_pb_DataTypeInformation. -/
def regDatatypeL : List (LField RegState) :=
  [tStr 1 (·.dtName) (fun p v => { p with dtName := v }), tStr 2 (·.dtEnc) (fun p v => { p with dtEnc := v }),
   tStr 3 (·.dtDesc) (fun p v => { p with dtDesc := v })]

/-- eCAL_pb_Topic (`PrepareEncoding` L146-194). -/
def regTopicL : List (LField RegState) :=
  [tInt 1 (·.rclock) (fun p v => { p with rclock := v }), hnameL 2, int32L 3 (·.pidT) (fun m v => { m with pidT := v }),
   tStr 4 (·.pname) (fun p v => { p with pname := v }), tStr 5 (·.uname) (fun p v => { p with uname := v }), entityL 6,
   tStr 7 (·.tname) (fun p v => { p with tname := v }), tStr 8 (·.direction) (fun p v => { p with direction := v }),
   tLayersL, tInt 13 (·.tsize) (fun p v => { p with tsize := v }), tInt 16 (·.connLoc) (fun p v => { p with connLoc := v }),
   tInt 17 (·.connExt) (fun p v => { p with connExt := v }), tInt 18 (·.drops) (fun p v => { p with drops := v }),
   tInt64 19 (·.did) (fun p v => { p with did := v }), tInt64 20 (·.dclock) (fun p v => { p with dclock := v }),
   tInt 21 (·.dfreq) (fun p v => { p with dfreq := v }), tAttrL, tStr 28 (·.hgname) (fun p v => { p with hgname := v }),
   subL 30 regDatatypeL (fun _ => true)]

/-- Which sub-message a command carries (`PrepareEncoding` L212-247). -/
inductive Part where
  | process | service | client | topic | nothing
deriving Repr, DecidableEq

/-- `eCmdType` (ecal_struct_sample_common.h L29-43). -/
def partOf (cmd : BitVec 32) : Part :=
  match cmd.toNat with
  | 4 | 14 => .process
  | 5 | 15 => .service
  | 6 | 16 => .client
  | 2 | 12 | 3 | 13 => .topic
  | _ => .nothing

/-- eCAL_pb_Host: the operating system name is not written and not read. -/
def regHostL : List (LField RegState) :=
  [strL 1 (·.s.hname) (fun m v => { m with s := { m.s with hname := v } }), dropSubL 2 [ignoredL 1]]

/-- eCAL_pb_Sample (`PrepareEncoding` L199-249, `PrepareDecoding` L296-392). -/
def regL : List (LField RegState) :=
  [uint32L 1 (·.s.cmd) (fun m v => { m with s := { m.s with cmd := v } }),
   subL 2 regHostL (fun _ => true),
   subL 3 regProcessL (fun m => partOf m.s.cmd == .process),
   subL 4 regServiceL (fun m => partOf m.s.cmd == .service),
   subL 5 regTopicL (fun m => partOf m.s.cmd == .topic),
   dropSubL 6 [dropIntL 1, dropIntL 2, dropIntL 3, ignoredL 4, dropIntL 6, dropIntL 7],
   subL 7 regClientL (fun m => partOf m.s.cmd == .client), ignoredL 8]

/-- nanopb structure filled from a sample. -/
def RegState.ofSample (m : RegSample) : RegState :=
  { s := m, pidP := m.processId, pidS := m.processId, pidC := m.processId, pidT := m.processId }

/-- nanopb structure initialised to zero, callbacks bound to `target`
(`PrepareDecoding`). -/
def RegState.prepared (t : RegSample) : RegState :=
  { s := { t with
      cmd := 0
      process := { t.process with rclock := 0, severity := 0, severityLevel := 0, tsyncState := 0, initState := 0 }
      service := { t.service with rclock := 0, version := 0, portV0 := 0, portV1 := 0 }
      client := { t.client with rclock := 0, version := 0 }
      topic := { t.topic with rclock := 0, tsize := 0, connLoc := 0, connExt := 0, drops := 0, did := 0,
                              dclock := 0, dfreq := 0 } } }

/-- Numbers of the target the decoder did not touch. -/
def keepProcess (t d : RProcess) : RProcess :=
  { d with rclock := t.rclock, severity := t.severity, severityLevel := t.severityLevel,
           tsyncState := t.tsyncState, initState := t.initState }
def keepService (t d : RService) : RService :=
  { d with rclock := t.rclock, version := t.version, portV0 := t.portV0, portV1 := t.portV1 }
def keepClient (t d : RClient) : RClient := { d with rclock := t.rclock, version := t.version }
def keepTopic (t d : RTopic) : RTopic :=
  { d with rclock := t.rclock, tsize := t.tsize, connLoc := t.connLoc, connExt := t.connExt, drops := t.drops,
           did := t.did, dclock := t.dclock, dfreq := t.dfreq }

/-- `AssignValues` (L394-466): only the numbers of the command's sub-message are copied into
the target `t`; `d` is the decoder's state. -/
def assignValues (t : RegSample) (d : RegState) : RegSample :=
  let keep : RegSample :=
    { d.s with process := keepProcess t.process d.s.process, service := keepService t.service d.s.service,
               client := keepClient t.client d.s.client, topic := keepTopic t.topic d.s.topic,
               processId := t.processId }
  match partOf d.s.cmd with
  | .process => { keep with process := d.s.process, processId := d.pidP }
  | .service => { keep with service := d.s.service, processId := d.pidS }
  | .client => { keep with client := d.s.client, processId := d.pidC }
  | .topic => { keep with topic := d.s.topic, processId := d.pidT }
  | .nothing => keep

/-- `RegistrationStruct2Buffer`. -/
def serializeReg (m : RegSample) : Bytes := encode (regL.map (·.field)) (.ofSample m)

/-- `Buffer2RegistrationStruct` (L468-498). -/
def deserializeReg (target : RegSample) (bs : Bytes) : Option RegSample :=
  if bs = [] then none
  else (decode (regL.map (·.field)) (.prepared target) bs).map (assignValues target)

/-! ### Lists -/

/-- Occurrences of the `samples` field of eCAL_pb_SampleList, one per sample
(`encode_sample_list_field` L503-530). -/
def serializeRegList (l : List RegSample) : Bytes := writeAll (l.map (fun m => (1, .len (serializeReg m))))

/-- `decode_sample_list_field` (L579-604): each element is decoded into a fresh sample and
appended. -/
def appendSample (acc : List RegSample) (r : Raw) : Option (List RegSample) :=
  match callbackBytes r with
  | none => none
  | some b => (decode (regL.map (·.field)) (.prepared {}) b).map (fun d => acc ++ [assignValues {} d])

/-- `Buffer2RegistrationListStruct` (L606-632): appends to the target. -/
def deserializeRegList (target : List RegSample) (bs : Bytes) : Option (List RegSample) :=
  if bs = [] then none
  else decode [{ tag := 1, enc := fun l => l.map (fun m => .len (serializeReg m)), dec := appendSample }] target bs

/-- `CRegistrationReceiverSHM::Receive` (registration/shm/ecal_registration_receiver_shm.cpp
L71-89): one list object for all messages of a batch.  Result: the samples handed on, in order.
Simplification: a damaged message leaves no partial result in the list. -/
def shmReceive : List RegSample → List Bytes → List RegSample
  | _, [] => []
  | acc, b :: bs =>
    match deserializeRegList acc b with
    | none => shmReceive acc bs
    | some acc' => acc' ++ shmReceive acc' bs

end Ecal.Wire
