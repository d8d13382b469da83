/-!
# Service protocol version 1: the handshake

Code modelled:
* `/repo/ecal/service/ecal_service/src/client_session_impl_v1.cpp`
  `send_protocol_handshake_request` L238-277, `receive_protocol_handshake_response` L279-365
* `/repo/ecal/service/ecal_service/src/server_session_impl_v1.cpp`
  `receive_handshake_request` L140-211, `send_handshake_response` L213-257
* the constants `MIN_/MAX_SUPPORTED_PROTOCOL_VERSION` (all 1 today) are parameters here, because the
  protocol is meant to carry several versions.

The messages are the reassembled frames of `Verif.Service.Frame` (type byte and payload).

Simplifications: the two payload structures are byte arrays of length 2 and 1 (the packed structs
of `protocol_layout.h`); logging is left out; transport errors are one more input.
-/

namespace Ecal.Service.Handshake

/-- The version interval a peer was built with. -/
structure Range where
  lo : UInt8
  hi : UInt8
deriving DecidableEq, Repr

/-- `MessageType` (`protocol_layout.h`). -/
inductive MsgType where
  | undefined | handshakeRequest | handshakeResponse | serviceRequest | serviceResponse
deriving DecidableEq, Repr

/-- What a receive operation hands to its handler. -/
inductive Input where
  | error
  | message (type : MsgType) (payload : List UInt8)
deriving DecidableEq, Repr

/-- Result of a peer's half of the handshake. -/
inductive Outcome where
  | failed
  | accepted (version : UInt8)
deriving DecidableEq, Repr

/-- `client_session_impl_v1.cpp` L249-258: the request carries the two bounds. -/
def request (c : Range) : Input := .message .handshakeRequest [c.lo, c.hi]

/-- The payload is padded with zeros when it is too short (`resize(…, '\0')`). -/
def byteAt (payload : List UInt8) (i : Nat) : UInt8 := payload.getD i 0

/-- `server_session_impl_v1.cpp` L148-208. -/
def serverReceive (s : Range) : Input → Outcome
  | .error => .failed
  | .message type payload =>
    if type ≠ .handshakeRequest then .failed
    else
      let top := if byteAt payload 1 ≤ s.hi then byteAt payload 1 else s.hi
      let bottom := if byteAt payload 0 ≤ s.lo then s.lo else byteAt payload 0
      if bottom ≤ top then .accepted top else .failed

/-- `send_handshake_response` L213-241: the server answers only after accepting; otherwise the
session shuts down and the client's receive operation fails. -/
def reply : Outcome → Input
  | .failed => .error
  | .accepted v => .message .handshakeResponse [v]

/-- `client_session_impl_v1.cpp` L290-360.  The upper bound in the code is
`MIN_SUPPORTED_PROTOCOL_VERSION` again, not `MAX_…` (L314). -/
def clientReceive (c : Range) : Input → Outcome
  | .error => .failed
  | .message type payload =>
    if type ≠ .handshakeResponse then .failed
    else if c.lo ≤ byteAt payload 0 ∧ byteAt payload 0 ≤ c.lo then .accepted (byteAt payload 0)
    else .failed

/-- A complete handshake between a client and a server; `lost` tells whether the transport fails
before the request or before the response arrives.  The result is (server, client). -/
def negotiate (c s : Range) (lostRequest lostResponse : Bool) : Outcome × Outcome :=
  let srv := serverReceive s (if lostRequest then .error else request c)
  (srv, clientReceive c (if lostResponse then .error else reply srv))

/-- `client_session_impl_v1.h` / `server_session_impl_v1.h`: the constants in the present code. -/
def present : Range := ⟨1, 1⟩

end Ecal.Service.Handshake
