/-!
# Topic name → multicast address

core/src/io/udp/ecal_udp_topic2mcast.h, core/src/io/udp/ecal_udp_configurations.cpp L89-154.
-/

namespace Ecal.Udp

/-- One round of `fnv_hash` (L44-53) on a `w`-bit `size_t`. -/
def fnvStep (w : Nat) (acc : BitVec w) (b : UInt8) : BitVec w :=
  (BitVec.ofNat w 16777619 * acc) ^^^ BitVec.ofNat w b.toNat

/-- `fnv_hash::operator()` (L42-54). -/
def fnv (w : Nat) (bytes : List UInt8) : BitVec w :=
  bytes.foldl (fnvStep w) (BitVec.ofNat w 2166136261)

/-- `combine_ip_and_hash_with_mask` (L89-92). -/
def combine (address hash mask : BitVec 32) : BitVec 32 := (address &&& mask) ||| (hash &&& ~~~mask)

/-- `increase_adress_by_one` (L94-97). -/
def increase (address mask : BitVec 32) : BitVec 32 :=
  (address &&& mask) ||| ((address + 1) &&& ~~~mask)

/-- `V2::topic2mcast_hash` on numeric addresses (L99-113). -/
def mcastOfHash (hash base mask : BitVec 32) : BitVec 32 :=
  let mcast := combine base hash mask
  if mcast = base then increase base mask else mcast

/-! ### Text form of addresses -/

/-- Digits of `atoi` (leading decimal digits of a token).  Signs and blanks in front and
values beyond the `int` range (undefined in C) are not modelled. -/
def atoi : List Char → Nat → Nat
  | [], acc => acc
  | c :: cs, acc => if c.isDigit then atoi cs (acc * 10 + (c.toNat - '0'.toNat)) else acc

/-- `std::getline(ss, token, '.')` until the stream is exhausted: a last empty token is not
returned. -/
def tokens : List Char → List Char → List (List Char)
  | [], [] => []
  | [], cur => [cur.reverse]
  | c :: cs, cur => if c = '.' then cur.reverse :: tokens cs [] else tokens cs (c :: cur)

/-- `parse_ipv4` (L58-71). -/
def parseIpv4 (s : List Char) : BitVec 32 :=
  ((tokens s []).take 4).foldl (fun ip tok => (ip <<< 8) ||| BitVec.ofNat 32 (atoi tok 0 % 256)) 0

/-- Decimal digits of a number (`ostream << uint32_t`). -/
def dec (n : Nat) : List Char := (toString n).toList

/-- `serialize_ipv4` (L73-79). -/
def serializeIpv4 (a : BitVec 32) : List Char :=
  dec (a >>> 24).toNat ++ '.' :: dec ((a &&& 0x00ffffff) >>> 16).toNat ++
    '.' :: dec ((a &&& 0x0000ffff) >>> 8).toNat ++ '.' :: dec (a &&& 0x000000ff).toNat

/-- `V2::topic2mcast` (L124-130) on a `w`-bit platform. -/
def topic2mcast (w : Nat) (topic : List UInt8) (base mask : List Char) : List Char :=
  serializeIpv4 (mcastOfHash ((fnv w topic).setWidth 32) (parseIpv4 base) (parseIpv4 mask))

/-! ### Version 1 -/

/-- Octet mask of V1 (L141-150): default 0,255,255,255, overwritten by the tokens. -/
def maskV1 (mask : List Char) (i : Nat) : Nat :=
  match ((tokens mask [])[i]?) with
  | some tok => atoi tok 0 % 256
  | none => if i = 0 then 0 else 255

/-- Octets 1-3 of `V1::topic2mcast_hash` (L152-156). -/
def octetsV1 (hash : Nat) (mask : List Char) : Nat × Nat × Nat :=
  let o3 := (hash &&& maskV1 mask 3) % 256
  (((hash >>> 16) &&& maskV1 mask 1) % 256, ((hash >>> 8) &&& maskV1 mask 2) % 256,
    if o3 < 2 then 2 else o3)

/-- `V1::topic2mcast` (L134-183). -/
def topic2mcastV1 (w : Nat) (topic : List UInt8) (base mask : List Char) : List Char :=
  let o := octetsV1 (fnv w topic).toNat mask
  base.take 3 ++ '.' :: dec o.1 ++ '.' :: dec o.2.1 ++ '.' :: dec o.2.2

/-- UDP settings that determine addresses. -/
structure UdpConfig where
  network : Bool
  v1      : Bool
  group   : List Char
  mask    : List Char

/-- `GetLocalBroadcastAddress` (ecal_udp_configurations.cpp L84-87). -/
def localBroadcast : List Char := "127.255.255.255".toList

/-- `GetRegistrationAddress` (L89-100). -/
def registrationAddress (c : UdpConfig) : List Char := if c.network then c.group else localBroadcast

/-- `GetTopicPayloadAddress` (L132-154). -/
def topicPayloadAddress (w : Nat) (c : UdpConfig) (topic : List UInt8) : List Char :=
  if c.network then
    if c.v1 then topic2mcastV1 w topic c.group c.mask else topic2mcast w topic c.group c.mask
  else localBroadcast

end Ecal.Udp
