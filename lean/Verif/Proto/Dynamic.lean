/-!
# Dynamic subscribers

Code modelled: `CDynamicMessageSubscriber` (`/repo/ecal/core/include/ecal/msg/dynamic.h` L71-325) with the deserializers
`ProtobufDynamicDeserializer` (`/repo/ecal/core/include/ecal/msg/protobuf/dynamic_subscriber.h` L51-116) and
`ProtobufDynamicJSONDeserializer` (`/repo/ecal/core/include/ecal/msg/protobuf/dynamic_json_subscriber.h` L61-144).

A dynamic subscriber learns the type of the messages from the registration of the topic and hands decoded messages to a
callback; problems are reported to an error callback.

Simplifications.
* Types, contents and decoded messages are abstract; decoding is given by the functions in `World`.
* The type that the library knows for the topic (`GetTopicDataTypeInformation`, L296) is changed by the step `announce`; an
  empty type information counts as none (L298).
* Callbacks that throw are left out.
* The maps of created prototypes and resolvers (`m_message_map`, `m_type_resolver_map`) only save work: what is created depends on
  the type alone (C99 has the cases where it depends on the types seen before).
-/

namespace Ecal.Proto.Dynamic

/-- What protobuf does.  `create t`: a message of the type can be made from the description.  `parse t d`: the message, `none`
if the data is not a message of the type.  `rest t d`: what is left in the message object if parsing failed. -/
structure World (T D M : Type) where
  create : T → Bool
  parse  : T → D → Option M
  rest   : T → D → M

/-- The two deserializers. -/
inductive Kind where
  | message
  | json
deriving DecidableEq

/-- The result of a deserializer: a message, a thrown `DynamicReflectionException`, or a thrown pointer to one. -/
inductive Res (M : Type) where
  | ok (m : M)
  | throws
  | throwsPointer

/-- `Deserialize`.  For messages: dynamic_subscriber.h L54-70, L83-112 (the result of `ParseFromArray` is not looked at).
For JSON: dynamic_json_subscriber.h L64-85, L98-128 (a message type that cannot be created is not noticed, then the conversion
fails). -/
def deserialize {T D M : Type} (w : World T D M) (k : Kind) (t : T) (d : D) : Res M :=
  match k with
  | .message => if w.create t then .ok ((w.parse t d).getD (w.rest t d)) else .throws
  | .json =>
    if w.create t then
      match w.parse t d with
      | some m => .ok m
      | none => .throwsPointer
    else .throwsPointer

/-- The subscriber: the type received (`m_datatype_info_received`), whether there are callbacks, and what the library knows. -/
structure St (T : Type) where
  info  : Option T := none
  known : Option T := none
  cb    : Bool := false
  err   : Bool := false
  alive : Bool := true

/-- What happens. -/
inductive Op (T D : Type) where
  | announce (t : Option T)
  | addReceive
  | remReceive
  | addError
  | remError
  | move
  | data (d : D)

/-- What the user sees: the callbacks, or the end of the process. -/
inductive Ev (M : Type) where
  | message (m : M)
  | error
  | terminate
deriving DecidableEq, Repr

/-- `PopulateDatatypeInfo`, L291-303. -/
def populate {T : Type} (s : St T) : St T :=
  match s.info with
  | some _ => s
  | none => { s with info := s.known }

/-- `CallErrorCallback`, L305-316. -/
def report {T M : Type} (s : St T) : List (Ev M) := if s.err then [.error] else []

/-- `ReceiveCallback`, L261-289, called by a thread of the library that does not catch anything. -/
def receive {T D M : Type} (w : World T D M) (k : Kind) (s : St T) (d : D) : St T × List (Ev M) :=
  if s.cb then
    match (populate s).info with
    | none => (populate s, report s)
    | some t =>
      match deserialize w k t d with
      | .ok m => (populate s, [.message m])
      | .throws => (populate s, report s)
      | .throwsPointer => ({ populate s with alive := false }, [.terminate])
  else (s, [])

/-- One step; the move constructor (L111-126) moves the subscriber, the callback and the deserializer. -/
def step {T D M : Type} (w : World T D M) (k : Kind) (s : St T) : Op T D → St T × List (Ev M)
  | .announce t => ({ s with known := t }, [])
  | .addReceive => ({ s with cb := true }, [])
  | .remReceive => ({ s with cb := false }, [])
  | .addError => ({ s with err := true }, [])
  | .remError => ({ s with err := false }, [])
  | .move => ({ s with err := false, info := none }, [])
  | .data d => if s.alive then receive w k s d else (s, [])

/-- Some steps. -/
def run {T D M : Type} (w : World T D M) (k : Kind) : St T → List (Op T D) → St T × List (Ev M)
  | s, [] => (s, [])
  | s, o :: os =>
    let r := step w k s o
    let q := run w k r.1 os
    (q.1, r.2 ++ q.2)

end Ecal.Proto.Dynamic
