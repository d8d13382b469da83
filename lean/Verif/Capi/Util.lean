import Verif.Desc.Model
import Verif.Capi.Copy

/-!
# Type descriptions for C programs

core/src/cimpl/ecal_util_cimpl.cpp L60-206: eleven functions that look up a topic or a method of a service in the
store of descriptions (`Verif.Desc.Model`) and copy one text into memory of the caller (`Verif.Capi.Copy`).

Simplifications: names and texts are `String`s, their bytes are those of UTF-8; the store is read at one moment per
call (each of its two maps is locked on its own).
-/

namespace Ecal.Capi.Util

open Ecal Ecal.Desc

abbrev Bytes := List UInt8

def bytesOf (s : String) : Bytes := s.toUTF8.data.toList

/-- The three texts of `SDataTypeInformation`. -/
inductive Part where
  | name | encoding | descriptor
deriving DecidableEq, Repr

def part (d : DataType) : Part → String
  | .name => d.name
  | .encoding => d.encoding
  | .descriptor => d.descriptor

/-- What is asked for; `none`: a null pointer. -/
inductive Ask where
  /-- `eCAL_Util_GetTopicTypeName`, `…Encoding`, `…Description` (L60-94). -/
  | topic (p : Part) (name : Option String)
  /-- `eCAL_Util_GetService…` (L96-150) and `eCAL_Util_GetClient…` (L152-206): `desc` the description or the type name,
  `resp` of the response or the request. -/
  | method (server desc resp : Bool) (service method : Option String)
deriving DecidableEq, Repr

/-- The text `GetTopicDataTypeInformation` gives (ecal_util.cpp L406-415), or `none` if it returns false. -/
def topicText (pubs subs : List (String × TopicInfo)) (p : Part) (name : String) : Option String :=
  let r := topicType name pubs subs
  if r.2 then some (part r.1.info p) else none

/-- The text of `GetServiceTypeNames`, `GetServiceDescription` (L454-474) and their sisters for clients (L513-533). -/
def methodText (l : List ((String × String) × ServiceInfo)) (desc resp : Bool) (service method : String) : Option String :=
  let s := serviceSet (service, method) l
  let best := highestService s
  let t := if resp then best.response else best.request
  if s.isEmpty then none else some (if desc then t.descriptor else t.name)

/-- The store after a call of `GetPublishers` and `GetSubscribers` (L406-409). -/
def readTopics (g : Gate) (now : Int) : Gate :=
  { g with pubs := (topics g.pubs now).1, subs := (topics g.subs now).1 }

/-- The text found and the store after the look-up; `none` for the store: the library is not initialised
(L299-319, L334-344). -/
def lookUp (g : Option Gate) (now : Int) : Ask → Option Gate × Option String
  | .topic p (some n) =>
    match g with
    | none => (none, none)
    | some g => (some (readTopics g now), topicText (topics g.pubs now).2 (topics g.subs now).2 p n)
  | .method server desc resp (some s) (some m) =>
    match g with
    | none => (none, none)
    | some g =>
      if server then (some { g with srvs := (services g.srvs now).1 }, methodText (services g.srvs now).2 desc resp s m)
      else (some { g with clis := (services g.clis now).1 }, methodText (services g.clis now).2 desc resp s m)
  | _ => (g, none)

/-- A call of one of the functions. -/
def call (malloc : Bool) (g : Option Gate) (now : Int) (a : Ask) (t : Target) (len : Int) : Option Gate × Out :=
  if t = .null then (g, .ret 0 t)
  else
    let r := lookUp g now a
    match r.2 with
    | none => (r.1, .ret 0 t)
    | some s => (r.1, copyBuffer malloc t len (bytesOf s))

end Ecal.Capi.Util
