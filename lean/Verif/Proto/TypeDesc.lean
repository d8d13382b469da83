/-!
# The description of a message type, and finding the type in it

Code modelled: `HasFile` and `GetFileDescriptor` (`/repo/ecal/msg/protobuf/include/ecal/msg/protobuf/ecal_proto_hlp.h`
L61-127), with which a publisher describes its type (`GetProtoMessageDescription` L129-139), and
`CProtoDynDecoder::GetProtoMessageFromDescriptorSet` (`/repo/ecal/msg/protobuf/src/ecal_proto_dyn.cpp` L246-310), with which a
dynamic subscriber (`/repo/ecal/core/include/ecal/msg/protobuf/dynamic_subscriber.h` L83-112) creates a message of that type.

Simplifications.
* Files, messages and names are numbers.  The description is the list of the files in it; the content of a file is what the
  world says about it (all processes have the same version of each file).
* A file is accepted by a descriptor pool (`BuildFileCollectingErrors`) if its imports are in the pool; a file that is in the
  pool already with the same content is accepted again.  This is what protobuf documents.
* `FindMessageTypeByName` of the pool compares complete names: package, dot, name.  The subscriber asks with a name without
  dots (L87), which only a message outside of any package has.
-/

namespace Ecal.Proto.TypeDesc

/-- A message type: the file it is in, its name without package, and the message types of its fields. -/
structure Desc where
  file : Nat
  name : Nat
  fields : List (Option Nat)

/-- A file: its imports, its topmost message types, whether it has enumerations and services, whether it has a package. -/
structure File where
  deps : List Nat
  msgs : List Nat
  enums : Bool := false
  services : Bool := false
  package : Bool := false

/-- All files and message types there are. -/
structure World where
  file : Nat → File
  desc : Nat → Desc

/-- The files added so far, and the number of calls so far. -/
structure St where
  set : List Nat := []
  calls : Nat := 0

/-- `if (!HasFile(…)) add_file()`. -/
def St.add (s : St) (f : Nat) : St := if s.set.contains f then s else { s with set := s.set ++ [f] }

/-- The body of the loop over the imports for one import, L80-112, given the recursive call. -/
def dep (w : World) (rec : St → Nat → Option St) (s : St) (g : Nat) : Option St := do
  let s ← (w.file g).msgs.foldlM rec s
  let s := if (w.file g).enums then s.add g else s
  let s := if (w.file g).services then s.add g else s
  pure s

/-- The recursive call for a field, L121-123; a field without message type gives a null pointer, for which nothing is done. -/
def field (rec : St → Nat → Option St) (s : St) : Option Nat → Option St
  | none => some s
  | some m => rec s m

/-- `GetFileDescriptor`, L73-127.  `none`: the calls nest deeper than the number given. -/
def get (w : World) : Nat → St → Nat → Option St
  | 0, _, _ => none
  | k + 1, s, d => do
    let f := (w.desc d).file
    let s ← (w.file f).deps.foldlM (dep w (get w k)) { s with calls := s.calls + 1 }
    if s.set.contains f then pure s
    else (w.desc d).fields.foldlM (field (get w k)) { s with set := s.set ++ [f] }

/-- `FindMessageTypeByName` of the pool for a name without dots: nested messages and messages of packages have dots in their
complete names. -/
def lookup (w : World) (pool : List Nat) (t : Nat) : Option Nat :=
  ((pool.filter (fun f => !(w.file f).package)).flatMap (fun f => (w.file f).msgs)).find? (fun d => (w.desc d).name == t)

/-- `file_desc->message_type_count() > 0 && file_desc->message_type(0)->name() == msg_type_`, L277-278. -/
def first (w : World) (f t : Nat) : Bool :=
  match (w.file f).msgs with
  | [] => false
  | d :: _ => (w.desc d).name == t

/-- The loop over the files, L268-287: the pool afterwards and `file_desc`, `none` for an error. -/
def build (w : World) (t : Nat) : List Nat → Option Nat → List Nat → List Nat × Option Nat
  | pool, last, [] => (pool, last)
  | pool, _, f :: fs =>
    if (w.file f).deps.all pool.contains then
      if first w f t then (f :: pool, some f) else build w t (f :: pool) (some f) fs
    else (pool, none)

/-- `GetProtoMessageFromDescriptorSet`: the pool afterwards and the type of the message created. -/
def receive (w : World) (pool set : List Nat) (t : Nat) : List Nat × Option Nat :=
  match lookup w pool t with
  | some d => (pool, some d)
  | none =>
    match build w t pool none set with
    | (pool', none) => (pool', none)
    | (pool', some f) => (pool', (w.file f).msgs.find? (fun d => (w.desc d).name == t))

end Ecal.Proto.TypeDesc
