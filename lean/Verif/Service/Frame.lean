/-!
# Framing of service messages (protocol version 1)

service/ecal_service/src/protocol_v1.cpp and protocol_layout.h.
-/

namespace Ecal.Service

abbrev Bytes := List UInt8

def byte (n : Nat) : UInt8 := UInt8.ofNat n

/-- `htonl` of a 32-bit number as it stands on the wire. -/
def be32 (n : Nat) : Bytes :=
  [byte (n / 16777216 % 256), byte (n / 65536 % 256), byte (n / 256 % 256), byte (n % 256)]

/-- `htons`. -/
def be16 (n : Nat) : Bytes := [byte (n / 256 % 256), byte (n % 256)]

/-- `ntohl` of the first four bytes (`package_size_n`). -/
def payloadSize (hdr : Bytes) : Nat :=
  match hdr with
  | a :: b :: c :: d :: _ => a.toNat * 16777216 + b.toNat * 65536 + c.toNat * 256 + d.toNat
  | _ => 0

/-- `ntohs` of bytes 6 and 7 (`header_size_n`). -/
def headerSize (hdr : Bytes) : Nat :=
  match hdr with
  | _ :: _ :: _ :: _ :: _ :: _ :: a :: b :: _ => a.toNat * 256 + b.toNat
  | _ => 0

/-- `message_type`, byte 5 of the header (protocol_layout.h L52-59). -/
def messageType (hdr : Bytes) : UInt8 := (hdr.drop 5).headD 0

/-- A message as the peer sends it: version, type, additional header bytes and payload. -/
structure Msg where
  version : UInt8
  type    : UInt8
  ext     : Bytes
  payload : Bytes
deriving Repr, DecidableEq

/-- `async_send_payload` (L178-197) with the header filled by the sessions
(client_session_impl_v1.cpp L446-451): eight known bytes, the rest of the header, payload. -/
def Msg.header (m : Msg) : Bytes :=
  be32 m.payload.length ++ [m.version, m.type] ++ be16 (8 + m.ext.length) ++ m.ext

def Msg.encode (m : Msg) : Bytes := m.header ++ m.payload

/-- What the present implementation sends: eight reserved zero bytes. -/
def mkMsg (version type : UInt8) (payload : Bytes) : Msg :=
  { version := version, type := type, ext := List.replicate 8 0, payload := payload }

/-- The running `async_read` of a receive operation: bytes wanted in total, bytes read. -/
inductive Phase where
  | idle                               -- no receive operation
  | start (got : Bytes)                -- `read_header_start`: 8 bytes
  | rest (first : Bytes) (need : Nat) (got : Bytes)   -- `read_header_rest`
  | payload (hdr : Bytes) (need : Nat) (got : Bytes)  -- `read_payload`
deriving Repr, DecidableEq

structure Rx where
  sock  : Bytes := []                  -- received by the operating system, not yet read
  phase : Phase := .idle
  out   : List (Bytes × Bytes) := []   -- (header, payload) handed to `success_cb`
deriving Repr, DecidableEq

/-- Size of the buffer for the header: `resize` only enlarges (L93-101). -/
def headerBuffer (first : Bytes) : Nat := max 16 (headerSize first)

/-- Completion handlers (L63-76, L116-135, L161-171): called when the read is complete. -/
def complete : Phase → List (Bytes × Bytes) → Phase × List (Bytes × Bytes)
  | .start got, out =>
    if got.length = 8 then (.rest got (headerBuffer got - 8) [], out) else (.start got, out)
  | .rest first need got, out =>
    if got.length = need then
      if payloadSize first = 0 then (.idle, out ++ [(first ++ got, [])])
      else (.payload (first ++ got) (payloadSize first) [], out)
    else (.rest first need got, out)
  | .payload hdr need got, out =>
    if got.length = need then (.idle, out ++ [(hdr, got)]) else (.payload hdr need got, out)
  | .idle, out => (.idle, out)

inductive Step where
  | arrive (seg : Bytes)   -- the network delivers a segment
  | receive                -- `async_receive_payload` when no receive is running
  | readSome (k : Nat)     -- one `read_some` of the running `async_read`, at most `k` bytes
deriving Repr, DecidableEq

/-- Bytes still wanted by the running read. -/
def wanted : Phase → Nat
  | .idle => 0
  | .start got => 8 - got.length
  | .rest _ need got => need - got.length
  | .payload _ need got => need - got.length

/-- Adds bytes to the running read. -/
def gain : Phase → Bytes → Phase
  | .idle, _ => .idle
  | .start got, b => .start (got ++ b)
  | .rest f n got, b => .rest f n (got ++ b)
  | .payload h n got, b => .payload h n (got ++ b)

def step (s : Rx) : Step → Rx
  | .arrive seg => { s with sock := s.sock ++ seg }
  | .receive => if s.phase = .idle then { s with phase := .start [] } else s
  | .readSome k =>
    let n := min k (wanted s.phase)
    let r := complete (gain s.phase (s.sock.take n)) s.out
    { sock := s.sock.drop n, phase := r.1, out := r.2 }

def run (s : Rx) (l : List Step) : Rx := l.foldl step s

end Ecal.Service
