/-!
# UDP sample framing and the receive loop

core/src/io/udp/ecal_udp_sample_sender.cpp L111-138,
core/src/io/udp/ecal_udp_sample_receiver_asio.cpp L197-266.

The datagram library (fragmentation, reassembly, checksums) is trusted: a datagram handed to
the receiver is any byte list, and one produced by the sender arrives unchanged or not at
all.
-/

namespace Ecal.Udp

abbrev Bytes := List UInt8

/-- The two bytes of an `unsigned short` in memory (little endian host). -/
def le16 (n : Nat) : Bytes := [UInt8.ofNat (n % 256), UInt8.ofNat (n / 256 % 256)]

/-- `CSampleSender::Send` (sender L111-138): name size (including the terminating zero,
truncated to 16 bits), that many bytes of the zero-terminated name, serialized sample. -/
def encode (name : Bytes) (sample : Bytes) : Bytes :=
  let s1 := (name.length % 65536 + 1) % 65536
  le16 s1 ++ (name ++ [0]).take s1 ++ sample

/-- `std::string(const char*)` at the start of `b`: bytes up to the first zero.  `none`:
there is no zero byte, the read runs past the end of the buffer. -/
def cstring : Bytes → Option Bytes
  | [] => none
  | b :: bs => if b = 0 then some [] else match cstring bs with
    | none => none
    | some r => some (b :: r)

/-- What the handler (receiver L200-265) does with a datagram. -/
inductive Outcome where
  | overread                            -- memory outside the datagram is read
  | damaged                             -- rejected
  | sample (name payload : Bytes)
deriving Repr, DecidableEq

/-- The parsing part of the handler (receiver L221-258). -/
def decode (d : Bytes) : Outcome :=
  match d with
  | lo :: hi :: rest =>
    let n := lo.toNat + 256 * hi.toNat
    if n > d.length then .damaged
    else match cstring rest with
      | none => .overread
      | some name =>
        if 2 + n > d.length then .damaged
        else .sample name (d.drop (2 + n))
  | _ => .overread

/-- What can happen to the pending receive operation. -/
inductive Ev where
  | datagram (d : Bytes)
  | error                    -- the operation completes with an error (L215-219)
deriving Repr, DecidableEq

/-- Receiver state: is a receive operation pending?  `applied`: payloads handed to the
apply callback. -/
structure Rx where
  armed   : Bool := true
  applied : List (Bytes × Bytes) := []
deriving Repr, DecidableEq

/-- One completion (L200-265).  Without a pending operation nothing is received.  An
overread is modelled as fatal (`none`). -/
def rx (has : Bytes → Bool) (s : Rx) (e : Ev) : Option Rx :=
  if !s.armed then some s
  else match e with
    | .error => some { s with armed := false }
    | .datagram d =>
      match decode d with
      | .overread => none
      | .damaged => some { s with armed := false }
      | .sample name payload =>
        some (if has name then { s with applied := s.applied ++ [(name, payload)] } else s)

/-- A sequence of completions. -/
def rxRun (has : Bytes → Bool) : Rx → List Ev → Option Rx
  | s, [] => some s
  | s, e :: es => match rx has s e with
    | none => none
    | some s' => rxRun has s' es

end Ecal.Udp
