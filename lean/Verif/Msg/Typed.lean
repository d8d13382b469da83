/-!
# Typed publishers: from a message object to the bytes of a sample and back

Code modelled: `/repo/ecal/core/include/ecal/msg/publisher.h` `CMsgPublisher::Send` L135-165 (strings,
flatbuffers, messagepack, dynamic protobuf); `/repo/ecal/core/include/ecal/msg/protobuf/publisher.h`
`CPayload` L59-89, `Send` L160-164 and `/repo/ecal/core/include/ecal/msg/capnproto/publisher.h` `CPayload`
L55-85, `Send` L163-167 (message types that bring their own payload writer);
`/repo/ecal/core/src/pubsub/ecal_publisher.cpp` `Send` L154-181, `IsSubscribed` L201-209;
`/repo/ecal/core/src/readwrite/ecal_writer.cpp` `CDataWriter::Write` L168-192 (the payload copy; the result
of `WriteFull` is ignored) and L358-360 (the returned size);
`/repo/ecal/core/src/readwrite/ecal_writer_buffer_payload.h` `WriteFull` L63-71;
`/repo/ecal/core/include/ecal/msg/subscriber.h` `CMessageSubscriber::ReceiveCallback` L400-416 (a buffer
that cannot be deserialised is dropped).

A send is a sequence of steps of the sending thread (start, typed subscription check and serialisation,
subscription check of the plain publisher, write); subscribers connect and disconnect between any two of
them.  Simplifications: the transport hands a written sample to the subscribers connected at that moment
(layers, losses and order are `Verif.Writer`, `Verif.Reader`); zero-copy writing is `Verif.Shm.Partial`;
a failed serialisation writes nothing (protobuf for example refuses a message of more than 2 GiB before
it writes);
one thread sends.
-/

namespace Ecal.Msg.Typed

abbrev Byte := UInt8

/-- What a message type provides: `GetSize`, `Serialize` into a buffer of the given size (the bytes put
at the front of the buffer; `none` for failure) and the subscriber's `Deserialize`. -/
structure Codec (M : Type) where
  size : M → Nat
  ser  : M → Nat → Option (List Byte)
  de   : List Byte → Option M

/-- The two families of typed publishers. -/
inductive Style where
  | buffer       -- derived from `CMsgPublisher`: serialises into its own buffer first
  | writer       -- hands a payload writer to `CPublisher::Send`
deriving DecidableEq, Repr

/-- The payload object handed to `CPublisher::Send`. -/
inductive Payload (M : Type) where
  | raw (bs : List Byte)       -- `CBufferPayloadWriter`
  | lazy (m : M)               -- `CPayload`

/-- `GetSize` of the payload object. -/
def Payload.size {M : Type} (c : Codec M) : Payload M → Nat
  | .raw bs => bs.length
  | .lazy m => c.size m

/-- `std::vector<char>::resize`: keeps the front, appends zeros. -/
def resize (buf : List Byte) (n : Nat) : List Byte := buf.take n ++ List.replicate (n - buf.length) 0

/-- The bytes written to the front of a buffer. -/
def put (buf bs : List Byte) : List Byte := bs ++ buf.drop bs.length

/-- `WriteFull` of the payload object: the buffer afterwards (a `false` result is not looked at). -/
def Payload.writeFull {M : Type} (c : Codec M) (buf : List Byte) : Payload M → List Byte
  | .raw bs => if bs = [] ∨ buf.length < bs.length then buf else put buf bs
  | .lazy m =>
    match c.ser m buf.length with
    | none => buf
    | some bs => put buf bs

/-- Where the sending thread is. -/
inductive Pc (M : Type) where
  | idle
  | begun (m : M)                           -- `Send(msg)` called
  | plain (m : M) (p : Payload M)           -- entering `CPublisher::Send(payload)`
  | writing (m : M) (p : Payload M)         -- past the second subscription check

structure State (M : Type) where
  created : Bool := true
  subs    : List Nat := []                  -- connected subscribers
  pc      : Pc M := .idle
  wbuf    : List Byte := []                 -- `CDataWriter::m_payload_buffer`
  count   : Nat := 0                        -- send counter of the data writer
  called  : List M := []                    -- what the application sent
  rets    : List Nat := []                  -- what its calls returned
  got     : List (Nat × M) := []            -- callbacks of typed subscribers: who, what

/-- `m_buffer` of `CMsgPublisher` is resized and serialised into; its old content never shows, unless the
serialiser writes less than the announced size. -/
def serialised {M : Type} (c : Codec M) (m : M) : Option (List Byte) :=
  (c.ser m (c.size m)).map (fun bs => put (List.replicate (c.size m) 0) bs)

/-- The typed part of `Send`: `none` means `return(0)`. -/
def typed {M : Type} (c : Codec M) (style : Style) (subscribed : Bool) (m : M) : Option (Payload M) :=
  match style with
  | .writer => some (.lazy m)
  | .buffer =>
    if !subscribed then some (.raw [])
    else if 0 < c.size m then (serialised c m).map .raw
    else some (.raw [])

/-- The callbacks of the subscribers connected at the moment of the write. -/
def deliver {M : Type} (c : Codec M) (subs : List Nat) (bs : List Byte) : List (Nat × M) :=
  match c.de bs with
  | none => []
  | some m => subs.map (fun s => (s, m))

inductive Step (M : Type) where
  | start (m : M)
  | typed
  | check
  | write
  | connect (s : Nat)
  | disconnect (s : Nat)

/-- One step. A step that does not apply changes nothing. -/
def step {M : Type} (c : Codec M) (style : Style) (s : State M) : Step M → State M
  | .start m =>
    match s.pc with
    | .idle => { s with pc := .begun m, called := s.called ++ [m] }
    | _ => s
  | .typed =>
    match s.pc with
    | .begun m =>
      match typed c style (!s.subs.isEmpty) m with
      | none => { s with pc := .idle, rets := s.rets ++ [0] }
      | some p => { s with pc := .plain m p }
    | _ => s
  | .check =>
    match s.pc with
    | .plain m p =>
      if !s.created then { s with pc := .idle, rets := s.rets ++ [0] }
      else if s.subs.isEmpty then
        { s with pc := .idle, rets := s.rets ++ [p.size c], count := s.count + 1 }
      else { s with pc := .writing m p }
    | _ => s
  | .write =>
    match s.pc with
    | .writing _ p =>
      let buf := p.writeFull c (resize s.wbuf (p.size c))
      { s with pc := .idle, rets := s.rets ++ [p.size c], count := s.count + 1, wbuf := buf,
               got := s.got ++ deliver c s.subs buf }
    | _ => s
  | .connect n => if n ∈ s.subs then s else { s with subs := s.subs ++ [n] }
  | .disconnect n => { s with subs := s.subs.filter (fun k => k ≠ n) }

def run {M : Type} (c : Codec M) (style : Style) (s : State M) (h : List (Step M)) : State M :=
  h.foldl (step c style) s

/-- One whole undisturbed `Send`. -/
def send {M : Type} (m : M) : List (Step M) := [.start m, .typed, .check, .write]

/-- `/repo/ecal/core/include/ecal/msg/string/publisher.h` L122-144 and
`/repo/ecal/core/include/ecal/msg/string/subscriber.h` L50-54. -/
def stringCodec : Codec (List Byte) where
  size m := m.length
  ser m n := if m.length ≤ n then some m else none
  de bs := some bs

/-- A payload writer of an application (`/repo/ecal/core/include/ecal/ecal_payload_writer.h` L76-115: size
first, then `WriteFull` with a success result): a two byte reading of a device that may be unavailable
when the reading is wanted. -/
def deviceCodec : Codec (Option (Byte × Byte)) where
  size _ := 2
  ser m n := match m with
    | none => none
    | some r => if 2 ≤ n then some [r.1, r.2] else none
  de
    | [a, b] => some (some (a, b))
    | _ => none

end Ecal.Msg.Typed
