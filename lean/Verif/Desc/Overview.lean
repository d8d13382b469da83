import Verif.Desc.Model

/-!
# Overviews of all topics, services and clients

core/src/ecal_util.cpp L298-533: the functions that return one entry per topic or method, the functions that
return the names only, and the functions that look up one name.  Unlike in `Verif.Desc.Model` the iteration order of
the C++ containers is modelled here, because it decides which of several equally good entities is reported.

Simplification: one API call reads the clock once.
-/

namespace Ecal.Desc.Overview

/-- Insertion of `e` behind all elements that are not greater: what `std::multimap::insert` does (elements with equal
keys keep the order of insertion), and what `std::map` insertion does for keys that are all different. -/
def ins {α : Type} (lt : α → α → Bool) (e : α) : List α → List α
  | [] => [e]
  | y :: ys => if lt e y then e :: y :: ys else y :: ins lt e ys

/-- Insertion of a range, one element after the other. -/
def insAll {α : Type} (lt : α → α → Bool) (l acc : List α) : List α := l.foldl (fun a e => ins lt e a) acc

/-- `std::string::operator<`: bytewise comparison, for UTF-8 the order of the code points. -/
def strLt (a b : String) : Bool := decide (a < b)

/-- `SServiceMethod::operator<` (core/include/ecal/ecal_util.h L93-96). -/
def methodLt (a b : String × String) : Bool := strLt a.1 b.1 || (a.1 == b.1 && strLt a.2 b.2)

/-- `STopicIdKey::operator<` (core/src/ecal_descgate.h L45-48). -/
def topicKeyLt (a b : TopicKey) : Bool := strLt a.name b.name || (a.name == b.name && decide (a.id < b.id))

/-- `SServiceIdKey::operator<` (core/src/ecal_descgate.h L57-60). -/
def serviceKeyLt (a b : ServiceKey) : Bool :=
  methodLt (a.service, a.method) (b.service, b.method) ||
    ((a.service, a.method) == (b.service, b.method) && decide (a.id < b.id))

/-- `CDescGate::GetTopics` (core/src/ecal_descgate.cpp L75-88): the entries that are not expired in the order of the
map (core/src/util/ecal_expmap.h L93: a `std::map`), put into a multimap by name. -/
def listTopics (s : ExpMap.State TopicKey TopicInfo) (now : Int) : List (String × TopicInfo) :=
  insAll (fun a b => strLt a.1 b.1)
    ((insAll (fun a b => topicKeyLt a.1 b.1) (ExpMap.eraseExpired s now).1.map []).map fun e => (e.1.name, e.2.1)) []

/-- `CDescGate::GetServices` (core/src/ecal_descgate.cpp L90-105). -/
def listServices (s : ExpMap.State ServiceKey ServiceInfo) (now : Int) : List ((String × String) × ServiceInfo) :=
  insAll (fun a b => methodLt a.1 b.1)
    ((insAll (fun a b => serviceKeyLt a.1 b.1) (ExpMap.eraseExpired s now).1.map []).map
      fun e => ((e.1.service, e.1.method), e.2.1)) []

/-- `GetPublishers()` (core/src/ecal_util.cpp L299-303); `none`: there is no description gate. -/
def getPublishers (g : Option Gate) (now : Int) : List (String × TopicInfo) :=
  match g with
  | none => []
  | some g => listTopics g.pubs now

/-- `GetSubscribers()` (L310-314). -/
def getSubscribers (g : Option Gate) (now : Int) : List (String × TopicInfo) :=
  match g with
  | none => []
  | some g => listTopics g.subs now

/-- `GetServices()` (L334-338) and `GetClients()` (L340-344). -/
def getMethods (server : Bool) (g : Option Gate) (now : Int) : List ((String × String) × ServiceInfo) :=
  match g with
  | none => []
  | some g => if server then listServices g.srvs now else listServices g.clis now

/-- `GetTopics(std::map<std::string, SQualityTopicInfo>&)` (L374-385): the subscribers are inserted into the multimap
of publishers, which is then reduced to one entry per name. -/
def getTopicsQuality (g : Option Gate) (now : Int) : AMap String TopicInfo :=
  match g with
  | none => []
  | some g => reduceTopics (insAll (fun a b => strLt a.1 b.1) (listTopics g.subs now) (listTopics g.pubs now))

/-- `GetTopics(std::map<std::string, SDataTypeInformation>&)` (L360-372): the same without id and quality. -/
def getTopics (g : Option Gate) (now : Int) : AMap String DataType :=
  (getTopicsQuality g now).map fun e => (e.1, e.2.info)

/-- `GetTopicNames` (L387-404). -/
def getTopicNames (g : Option Gate) (now : Int) : List String :=
  (getSubscribers g now).foldl (fun a e => setInsert strLt e.1 a)
    ((getPublishers g now).foldl (fun a e => setInsert strLt e.1 a) [])

/-- `GetTopicDataTypeInformation` (L406-415): what the output parameter is set to, and the returned value. -/
def getTopicDataTypeInformation (name : String) (g : Option Gate) (now : Int) : DataType × Bool :=
  ((topicType name (getPublishers g now) (getSubscribers g now)).1.info,
   (topicType name (getPublishers g now) (getSubscribers g now)).2)

/-- `GetServices(std::map<SServiceMethod, SQualityServiceInfo>&)` (L431-438) and `GetClients(...)` (L490-497). -/
def getMethodsQuality (server : Bool) (g : Option Gate) (now : Int) : AMap (String × String) ServiceInfo :=
  reduceServices (getMethods server g now)

/-- `GetServices(std::map<SServiceMethod, SServiceMethodInformation>&)` (L417-429) and `GetClients(...)` (L476-488):
request and response types. -/
def getMethodsInfo (server : Bool) (g : Option Gate) (now : Int) : AMap (String × String) (DataType × DataType) :=
  (getMethodsQuality server g now).map fun e => (e.1, (e.2.request, e.2.response))

/-- `GetServiceMethodNames` (L440-452) and `GetClientMethodNames` (L499-511). -/
def getMethodNames (server : Bool) (g : Option Gate) (now : Int) : List (String × String) :=
  (getMethods server g now).foldl (fun a e => setInsert methodLt e.1 a) []

/-- `GetServiceTypeNames` (L454-463) and `GetClientTypeNames` (L513-522): names of the request and response types and
the returned value. -/
def getTypeNames (server : Bool) (service method : String) (g : Option Gate) (now : Int) : (String × String) × Bool :=
  let s := serviceSet (service, method) (getMethods server g now)
  (((highestService s).request.name, (highestService s).response.name), !s.isEmpty)

/-- `GetServiceDescription` (L465-474) and `GetClientDescription` (L524-533): the descriptors. -/
def getDescription (server : Bool) (service method : String) (g : Option Gate) (now : Int) : (String × String) × Bool :=
  let s := serviceSet (service, method) (getMethods server g now)
  (((highestService s).request.descriptor, (highestService s).response.descriptor), !s.isEmpty)

end Ecal.Desc.Overview
