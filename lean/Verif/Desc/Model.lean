import Verif.ExpMap.Model

/-!
# Type descriptions of remote entities

core/src/ecal_descgate.cpp (the store) and the query functions of core/src/ecal_util.cpp.
-/

namespace Ecal.Desc

/-- `SDataTypeInformation` (core/include/ecal/ecal_types.h): name, encoding, descriptor. -/
structure DataType where
  name       : String := ""
  encoding   : String := ""
  descriptor : String := ""
deriving Repr, DecidableEq

/-- `GetDataTypeInfoQuality` (core/src/ecal_descgate.cpp L30-41); the flag values are those
of `DescQualityFlags` (core/include/ecal/ecal_util.h L43-50).  The four flags are distinct
bits, so `|=` is addition. -/
def quality (d : DataType) (producer : Bool) : Nat :=
  (if d.name ≠ "" then 2 else 0) + (if d.encoding ≠ "" then 4 else 0) +
  (if d.descriptor ≠ "" then 8 else 0) + (if producer then 1 else 0)

/-- `SQualityTopicInfo` (core/include/ecal/ecal_util.h L61-71). -/
structure TopicInfo where
  id      : Nat := 0
  info    : DataType := {}
  quality : Nat := 0
deriving Repr, DecidableEq

/-- `SQualityServiceInfo` (core/include/ecal/ecal_util.h L76-87); `info` is
`SServiceMethodInformation`. -/
structure ServiceInfo where
  id       : Nat := 0
  request  : DataType := {}
  response : DataType := {}
  reqQ     : Nat := 0
  respQ    : Nat := 0
deriving Repr, DecidableEq

/-- `STopicIdKey` (core/src/ecal_descgate.h L40-49). -/
structure TopicKey where
  name : String
  id   : Nat
deriving Repr, DecidableEq

/-- `SServiceIdKey` (core/src/ecal_descgate.h L51-61). -/
structure ServiceKey where
  service : String
  method  : String
  id      : Nat
deriving Repr, DecidableEq

/-- Digit loop of `strtoull`: value of the longest prefix of decimal digits, and whether
there was a digit. -/
def digits : List Char → Nat → Bool → Nat × Bool
  | [], acc, seen => (acc, seen)
  | c :: cs, acc, seen =>
    if c.isDigit then digits cs (acc * 10 + (c.toNat - '0'.toNat)) true else (acc, seen)

/-- `std::stoull` (called in core/src/ecal_descgate.cpp L128-162), base 10: leading white
space, optional sign, digits, rest ignored.  `none`: it throws (`invalid_argument` without
a digit, `out_of_range` at 2^64 and above). -/
def stoull (s : String) : Option Nat :=
  let body := s.toList.dropWhile Char.isWhitespace
  let (neg, rest) := match body with
    | '-' :: r => (true, r)
    | '+' :: r => (false, r)
    | r => (false, r)
  let (n, ok) := digits rest 0 false
  if !ok then none
  else if 2 ^ 64 ≤ n then none
  else if neg then some ((2 ^ 64 - n) % 2 ^ 64) else some n

/-- `Service::Method` (core/src/serialization/ecal_struct_service.h), the fields used. -/
structure Method where
  name     : String
  reqType  : String := ""
  reqDesc  : String := ""
  respType : String := ""
  respDesc : String := ""
deriving Repr, DecidableEq

/-- A registration sample as far as the description gate looks at it: command, entity id,
topic name with data type, or service name with methods. -/
inductive Sample where
  | other                                                   -- none, set_sample, (un)reg_process
  | regTopic   (pub : Bool) (id name : String) (type : DataType)  -- bct_reg_publisher/subscriber
  | unregTopic (pub : Bool) (id name : String)
  | regService   (server : Bool) (id name : String) (methods : List Method) -- bct_reg_service/client
  | unregService (server : Bool) (id name : String)
deriving Repr, DecidableEq

/-- `CDescGate` (core/src/ecal_descgate.h L134-141). -/
structure Gate where
  pubs : ExpMap.State TopicKey TopicInfo
  subs : ExpMap.State TopicKey TopicInfo
  srvs : ExpMap.State ServiceKey ServiceInfo
  clis : ExpMap.State ServiceKey ServiceInfo

/-- Constructor (core/src/ecal_descgate.cpp L46-52). -/
def Gate.init (timeout : Int) : Gate :=
  { pubs := ExpMap.init _ _ timeout, subs := ExpMap.init _ _ timeout,
    srvs := ExpMap.init _ _ timeout, clis := ExpMap.init _ _ timeout }

/-- `ApplyTopicDescription` / `ApplyServiceDescription` (L172-188, L197-218) after building
the entry: `erase_expired()`, `map[key] = entry`.  `none`: undefined behaviour. -/
def put {K V : Type} [DecidableEq K] (dflt : V) (s : ExpMap.State K V) (now : Int) (k : K) (v : V) :
    Option (ExpMap.State K V) :=
  ExpMap.assign (ExpMap.eraseExpired s now).1 now dflt k v

/-- Erase a list of keys one by one (L237-240). -/
def eraseKeys {K V : Type} [DecidableEq K] (s : ExpMap.State K V) : List K → Option (ExpMap.State K V)
  | [] => some s
  | k :: ks =>
    match ExpMap.erase s k with
    | none => none
    | some (s', _) => eraseKeys s' ks

/-- `RemTopicDescription` (L190-195). -/
def remTopic (s : ExpMap.State TopicKey TopicInfo) (now : Int) (k : TopicKey) :
    Option (ExpMap.State TopicKey TopicInfo) :=
  eraseKeys (ExpMap.eraseExpired s now).1 [k]

/-- `RemServiceDescription` (L220-241): collect the keys of this service instance, erase
them. -/
def remService (s : ExpMap.State ServiceKey ServiceInfo) (now : Int) (name : String) (id : Nat) :
    Option (ExpMap.State ServiceKey ServiceInfo) :=
  let s1 := (ExpMap.eraseExpired s now).1
  eraseKeys s1 (s1.map.keys.filter (fun k => k.service == name && k.id == id))

/-- Request / response type built in L120-126: name and descriptor, no encoding. -/
def mkType (name desc : String) : DataType := { name := name, descriptor := desc }

/-- The entry stored for a method (L118-129, L208-213). -/
def methodInfo (id : Nat) (m : Method) (producer : Bool) : ServiceInfo :=
  { id := id, request := mkType m.reqType m.reqDesc, response := mkType m.respType m.respDesc,
    reqQ := quality (mkType m.reqType m.reqDesc) producer,
    respQ := quality (mkType m.respType m.respDesc) producer }

/-- The loop over the methods (L118-129, L136-147); the id string is converted anew for
every method, so a sample without methods never throws. -/
def putMethods (s : ExpMap.State ServiceKey ServiceInfo) (now : Int) (id name : String)
    (producer : Bool) : List Method → Option (ExpMap.State ServiceKey ServiceInfo)
  | [] => some s
  | m :: ms =>
    match stoull id with
    | none => none
    | some i =>
      match put {} s now ⟨name, m.name, i⟩ (methodInfo i m producer) with
      | none => none
      | some s' => putMethods s' now id name producer ms

/-- `ApplySample` (L107-170) at clock value `now`.  `none`: exception or undefined
behaviour.  Simplification: all clock reads while one sample is applied give the same
value. -/
def Gate.apply (g : Gate) (now : Int) : Sample → Option Gate
  | .other => some g
  | .regTopic pub id name type =>
    match stoull id with
    | none => none
    | some i =>
      if pub then
        match put {} g.pubs now ⟨name, i⟩ ⟨i, type, quality type true⟩ with
        | none => none
        | some m => some { g with pubs := m }
      else
        match put {} g.subs now ⟨name, i⟩ ⟨i, type, quality type false⟩ with
        | none => none
        | some m => some { g with subs := m }
  | .unregTopic pub id name =>
    match stoull id with
    | none => none
    | some i =>
      if pub then
        match remTopic g.pubs now ⟨name, i⟩ with
        | none => none
        | some m => some { g with pubs := m }
      else
        match remTopic g.subs now ⟨name, i⟩ with
        | none => none
        | some m => some { g with subs := m }
  | .regService server id name methods =>
    if server then
      match putMethods g.srvs now id name true methods with
      | none => none
      | some m => some { g with srvs := m }
    else
      match putMethods g.clis now id name false methods with
      | none => none
      | some m => some { g with clis := m }
  | .unregService server id name =>
    match stoull id with
    | none => none
    | some i =>
      if server then
        match remService g.srvs now name i with
        | none => none
        | some m => some { g with srvs := m }
      else
        match remService g.clis now name i with
        | none => none
        | some m => some { g with clis := m }

/-- `GetTopics(map)` (L75-88): `erase_expired()`, then one multimap entry per element.
The order inside the multimap is by name and plays no role in the queries. -/
def topics (s : ExpMap.State TopicKey TopicInfo) (now : Int) :
    ExpMap.State TopicKey TopicInfo × List (String × TopicInfo) :=
  let s1 := (ExpMap.eraseExpired s now).1
  (s1, s1.map.map (fun e => (e.1.name, e.2.1)))

/-- `GetServices(map)` (L90-105). -/
def services (s : ExpMap.State ServiceKey ServiceInfo) (now : Int) :
    ExpMap.State ServiceKey ServiceInfo × List ((String × String) × ServiceInfo) :=
  let s1 := (ExpMap.eraseExpired s now).1
  (s1, s1.map.map (fun e => ((e.1.service, e.1.method), e.2.1)))

/-- What the API can do to the gate: apply a sample, or query one of the four stores
(a query erases expired entries). -/
inductive Op where
  | apply (s : Sample)
  | getPublishers | getSubscribers | getServices | getClients
deriving Repr

/-- One call at clock value `now`. -/
def Gate.step (g : Gate) (now : Int) : Op → Option Gate
  | .apply s => g.apply now s
  | .getPublishers => some { g with pubs := (topics g.pubs now).1 }
  | .getSubscribers => some { g with subs := (topics g.subs now).1 }
  | .getServices => some { g with srvs := (services g.srvs now).1 }
  | .getClients => some { g with clis := (services g.clis now).1 }

/-- A history of calls, each with the clock value it reads. -/
def Gate.run : Gate → List (Int × Op) → Option Gate
  | g, [] => some g
  | g, (now, op) :: h =>
    match g.step now op with
    | none => none
    | some g' => Gate.run g' h

/-! ### Queries (core/src/ecal_util.cpp) -/

/-- Insertion into a `std::set` ordered by `lt`: nothing happens if an equivalent element is
present. -/
def setInsert {α : Type} (lt : α → α → Bool) (x : α) : List α → List α
  | [] => [x]
  | y :: ys => if lt x y then x :: y :: ys else if lt y x then y :: setInsert lt x ys else y :: ys

/-- `SQualityTopicInfo::operator<` (core/include/ecal/ecal_util.h L67-70). -/
def TopicInfo.lt (a b : TopicInfo) : Bool :=
  a.quality < b.quality || (a.quality == b.quality && a.id < b.id)

/-- `SQualityServiceInfo::operator<` (core/include/ecal/ecal_util.h L83-86). -/
def ServiceInfo.lt (a b : ServiceInfo) : Bool :=
  a.reqQ < b.reqQ || (a.reqQ == b.reqQ && (a.respQ < b.respQ || (a.respQ == b.respQ && a.id < b.id)))

/-- `GetQualityTopicInfoSet` (core/src/ecal_util.cpp L42-53), inserting into `acc`. -/
def topicSet (name : String) (l : List (String × TopicInfo)) (acc : List TopicInfo) : List TopicInfo :=
  (l.filter (fun e => e.1 == name)).foldl (fun a e => setInsert TopicInfo.lt e.2 a) acc

/-- `GetQualityServiceInfoSet` (L64-78). -/
def serviceSet (key : String × String) (l : List ((String × String) × ServiceInfo)) : List ServiceInfo :=
  (l.filter (fun e => e.1 == key)).foldl (fun a e => setInsert ServiceInfo.lt e.2 a) []

/-- `GetHighestQualityDataTypeInformation` (L321-332): iteration over the set. -/
def highestTopic (l : List TopicInfo) : TopicInfo :=
  l.foldl (fun best e => if best.quality < e.quality then e else best) {}

/-- `GetHighestQualityServiceMethodInformation` (L346-358). -/
def highestService (l : List ServiceInfo) : ServiceInfo :=
  l.foldl (fun best e => if best.reqQ < e.reqQ || best.respQ < e.respQ then e else best) {}

/-- `GetTopicDataTypeInformation` (L406-415): the information and whether any was found.
Inserting the set of subscribers into the set of publishers is modelled by inserting its
elements in their order. -/
def topicType (name : String) (pubs subs : List (String × TopicInfo)) : TopicInfo × Bool :=
  let s := (topicSet name subs []).foldl (fun a e => setInsert TopicInfo.lt e a) (topicSet name pubs [])
  (highestTopic s, !s.isEmpty)

/-- Loop body of `ReduceQualityTopicIdMap` (L92-112). -/
def reduceTopic (m : AMap String TopicInfo) (e : String × TopicInfo) : AMap String TopicInfo :=
  match m.find e.1 with
  | some cur => if cur.quality < e.2.quality then m.set e.1 e.2 else m
  | none => m.set e.1 e.2

/-- `ReduceQualityTopicIdMap` (L88-115). -/
def reduceTopics (l : List (String × TopicInfo)) : AMap String TopicInfo := l.foldl reduceTopic []

/-- Loop body of `ReduceQualityServiceIdMap` (L129-153). -/
def reduceService (m : AMap (String × String) ServiceInfo) (e : (String × String) × ServiceInfo) :
    AMap (String × String) ServiceInfo :=
  match m.find e.1 with
  | some cur => if cur.reqQ < e.2.reqQ || cur.respQ < e.2.respQ then m.set e.1 e.2 else m
  | none => m.set e.1 e.2

/-- `ReduceQualityServiceIdMap` (L125-156). -/
def reduceServices (l : List ((String × String) × ServiceInfo)) : AMap (String × String) ServiceInfo :=
  l.foldl reduceService []

end Ecal.Desc
