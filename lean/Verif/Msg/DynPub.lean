/-!
# Dynamic publishers: objects that own a publisher and share a message

Code modelled: `CDynamicPublisher` (/repo/ecal/core/include/ecal/msg/protobuf/dynamic_publisher.h L55-194)
on top of `CMsgPublisher` (/repo/ecal/core/include/ecal/msg/publisher.h L66-165) and `CPublisher`
(/repo/ecal/core/src/pubsub/ecal_publisher.cpp L38-181).

Simplifications: one thread; the library is initialised all the time (C110 is about the other case);
a release build (`assert` does nothing); the value of a message stands for its serialised form (C101),
a sample that is sent to subscribers is written once with the value; memory of messages is kept as long as
anybody may hold a pointer to them.
-/

namespace Ecal.Msg.DynPub

abbrev Bytes := List UInt8

/-- The members of a publisher object: `m_created`, `m_datawriter`, `m_id`
(core/include/ecal/ecal_publisher.h L284-286) and `m_msg` (dynamic_publisher.h L193). -/
structure Obj where
  created : Bool := false
  writer  : Option Nat := none
  id      : Int := 0
  msg     : Option Nat := none
deriving DecidableEq, Repr

/-- A data writer: topic, announced type (`none` for an empty type information), number of samples. -/
structure W where
  topic : Bytes
  info  : Option Nat
  count : Nat := 0
deriving DecidableEq, Repr

/-- A message object: its type, which cannot change, and its value. -/
structure Msg where
  type  : Nat
  value : Nat
deriving DecidableEq, Repr

/-- A sample handed to the layers. -/
structure Sample where
  writer : Nat
  topic  : Bytes
  id     : Int
  value  : Nat
deriving DecidableEq, Repr

/-- The process: publisher objects, writers registered at the gate (these are announced), messages,
samples sent; `ub` once behaviour is undefined. -/
structure St where
  objs : Nat → Option Obj := fun _ => none
  gate : Nat → Option W := fun _ => none
  next : Nat := 0
  msgs : Nat → Option Msg := fun _ => none
  sent : List Sample := []
  ub   : Bool := false

def set {α : Type} (f : Nat → α) (k : Nat) (v : α) : Nat → α := fun i => if i = k then v else f i

inductive Op where
  | newMsg (m ty v : Nat)                              -- the application makes a message
  | edit (m v : Nat)                                   -- and changes it, by any pointer to it
  | make (o : Nat) (t : Bytes) (m : Option Nat)        -- CDynamicPublisher(topic, message)
  | byName (o : Nat) (t : Bytes) (ty m : Nat)          -- CDynamicPublisher(topic, type name)
  | moveNew (dst src : Nat)                            -- move construction
  | moveTo (dst src : Nat)                             -- move assignment
  | create (o : Nat) (t : Bytes) (info : Option Nat)   -- Create
  | destroy (o : Nat)                                  -- Destroy
  | delete (o : Nat)                                   -- destructor
  | setId (o : Nat) (n : Int)                          -- SetID
  | setInfo (o : Nat) (info : Option Nat)              -- SetDataTypeInformation
  | send (o : Nat) (sub : Bool)                        -- Send, with or without subscribers
deriving DecidableEq, Repr

/-- `CPublisher::Create` (ecal_publisher.cpp L88-102) of the object `ob`, stored as `o`. -/
def create (s : St) (o : Nat) (ob : Obj) (t : Bytes) (info : Option Nat) : St :=
  if ob.created then { s with objs := set s.objs o (some ob) } else
  if t = [] then { s with objs := set s.objs o (some ob) } else
  { s with objs := set s.objs o (some { ob with created := true, writer := some s.next })
           gate := set s.gate s.next (some { topic := t, info := info }), next := s.next + 1 }

/-- `CPublisher::Destroy` (L109-128); without a writer it would use a null pointer. -/
def destroy (s : St) (o : Nat) (ob : Obj) : St :=
  if !ob.created then s else
  match ob.writer with
  | none => { s with ub := true }
  | some w => { s with objs := set s.objs o (some { ob with created := false, writer := none }), gate := set s.gate w none }

/-- `GetTopicInformationFromMessage` (dynamic_publisher.h L139-149): the type of the message. -/
def infoOf (s : St) (m : Option Nat) : Option Nat := m.bind (fun m => (s.msgs m).map (·.type))

/-- One call. `known` are the types `FindMessageTypeByName` finds; for the others `CreateMessageByName`
(L168-191) throws before anything was made.  A call on an object or message that does not exist, or that makes one that exists, is no call. -/
def step (known : Nat → Bool) (s : St) (op : Op) : St :=
  if s.ub then s else
  match op with
  | .newMsg m ty v => if (s.msgs m).isSome then s else { s with msgs := set s.msgs m (some ⟨ty, v⟩) }
  | .edit m v => match s.msgs m with
    | none => s
    | some x => { s with msgs := set s.msgs m (some { x with value := v }) }
  | .make o t m =>
    if (s.objs o).isSome ∨ m.any (fun k => (s.msgs k).isNone) then s else create s o { msg := m } t (infoOf s m)
  | .byName o t ty m =>
    if (s.objs o).isSome ∨ (s.msgs m).isSome ∨ known ty = false then s
    else create { s with msgs := set s.msgs m (some ⟨ty, 0⟩) } o { msg := some m } t (some ty)
  | .moveNew d k =>
    if (s.objs d).isSome then s else
    match s.objs k with
    | none => s
    | some ob => { s with objs := set (set s.objs k (some { id := ob.id })) d (some ob) }
  | .moveTo d k =>
    match s.objs d, s.objs k with
    | some od, some ok =>
      if d = k then destroy s d od else
      let s := destroy s d od
      { s with objs := set (set s.objs k (some { id := ok.id })) d (some ok) }
    | _, _ => s
  | .create o t info => match s.objs o with
    | none => s
    | some ob => create s o ob t info
  | .destroy o => match s.objs o with
    | none => s
    | some ob => destroy s o ob
  | .delete o => match s.objs o with
    | none => s
    | some ob => let s := destroy s o ob; { s with objs := set s.objs o none }
  | .setId o n => match s.objs o with
    | none => s
    | some ob => { s with objs := set s.objs o (some { ob with id := n }) }
  | .setInfo o info => match s.objs o with
    | none => s
    | some ob => match ob.writer with
      | none => s
      | some w => match s.gate w with
        | none => s
        | some x => { s with gate := set s.gate w (some { x with info := info }) }
  | .send o sub => match s.objs o with
    | none => s
    | some ob => match ob.msg with
      | none => { s with ub := true }                    -- `*m_msg` (L93)
      | some m => match ob.writer, s.msgs m with
        | some w, some x => match s.gate w with
          | some y => { s with gate := set s.gate w (some { y with count := y.count + 1 })
                               sent := if sub then s.sent ++ [⟨w, y.topic, ob.id, x.value⟩] else s.sent }
          | none => s
        | _, _ => s

def run (known : Nat → Bool) : St → List Op → St
  | s, [] => s
  | s, op :: h => run known (step known s op) h

/-- `IsCreated` (ecal_publisher.h L243). -/
def isCreated (s : St) (o : Nat) : Bool := match s.objs o with | some ob => ob.created | none => false

/-- `GetTopicName` (ecal_publisher.cpp L217-221). -/
def topicName (s : St) (o : Nat) : Bytes := match s.objs o with
  | some ob => match ob.writer with
    | some w => match s.gate w with | some x => x.topic | none => []
    | none => []
  | none => []

end Ecal.Msg.DynPub
