/-
Configuration and its YAML form: reading, writing, merging and dumping.

Sources (all under /repo/ecal/core):
* include/ecal/config/*.h                      (the settings and their defaults)
* src/config/configuration_to_yaml.cpp L1-720  (conversion of every section)
* src/config/configuration_reader.cpp L1-122   (reading, merging)
* src/config/default_configuration.cpp L1-366  (the text dump)
* include/ecal/types/ecal_custom_data_types.h L80-104, src/types/ecal_custom_data_types.cpp L33-77

Trusted (yaml-cpp is a third party library and not part of the sources): reading the text of a
document gives the node tree that was written, `node[key]` finds the entry of a map, gives
nothing for an empty node or a sequence and throws for a scalar, `as<T>` starts from a default
constructed `T` and throws on a failed conversion, a sequence converts to a vector of strings
if all its elements are scalars, `as<std::string>` of an empty node is "null".

Simplifications: a thrown exception is `none`; map keys are strings; elements of sequences are
either strings or "not a scalar" (`none`); signs and blanks around numerals are not accepted;
the settings kept in C++ fixed width integers are `Nat` (their range is part of `Fits` in the
theorems).
-/
namespace Ecal.Config

/-! ### Nodes -/

mutual
/-- A YAML node. -/
inductive Node where
  | null
  | scalar (s : String)
  | seq (l : List (Option String))
  | map (m : Entries)
/-- The entries of a YAML map, in order. -/
inductive Entries where
  | nil
  | cons (k : String) (v : Node) (rest : Entries)
end

/-- Entries from a list. -/
def entries : List (String × Node) → Entries
  | [] => .nil
  | (k, v) :: r => .cons k v (entries r)

/-- A map node from a list of entries. -/
def mk (l : List (String × Node)) : Node := .map (entries l)

/-- First entry with the key. -/
def Entries.find : Entries → String → Option Node
  | .nil, _ => none
  | .cons k v r, x => if k = x then some v else r.find x

/-- Overwrite the entry of a key, or append it. -/
def Entries.set : Entries → String → Node → Entries
  | .nil, x, n => .cons x n .nil
  | .cons k v r, x, n => if k = x then .cons k n r else .cons k v (r.set x n)

/-- `node_[key]` of a constant node: `none` = throws, `some none` = undefined. -/
def Node.sub : Node → String → Option (Option Node)
  | .map m, k => some (m.find k)
  | .scalar _, _ => none
  | .null, _ => some none
  | .seq _, _ => some none

/-- `AssignValue` (configuration_to_yaml.cpp L6-11): the member keeps its old value if the key
is absent. -/
def assign {β : Type} (as : Node → Option β) (n : Node) (key : String) (old : β) : Option β :=
  match n.sub key with
  | none => none
  | some none => some old
  | some (some v) => as v

/-! ### Scalars -/

/-- A decimal digit. -/
def digitChar (n : Nat) : Char :=
  match n with
  | 0 => '0' | 1 => '1' | 2 => '2' | 3 => '3' | 4 => '4'
  | 5 => '5' | 6 => '6' | 7 => '7' | 8 => '8' | _ => '9'

/-- Decimal digits (recursion on fuel; `fuel = n` is enough). -/
def showFuel : Nat → Nat → List Char
  | 0, n => [digitChar n]
  | f + 1, n => if n < 10 then [digitChar n] else showFuel f (n / 10) ++ [digitChar (n % 10)]

/-- Writing an integer: decimal. -/
def showNat (n : Nat) : String := String.ofList (showFuel n n)

/-- Value of a digit in bases up to sixteen. -/
def digitVal (c : Char) : Option Nat :=
  match c with
  | '0' => some 0 | '1' => some 1 | '2' => some 2 | '3' => some 3 | '4' => some 4
  | '5' => some 5 | '6' => some 6 | '7' => some 7 | '8' => some 8 | '9' => some 9
  | 'a' => some 10 | 'b' => some 11 | 'c' => some 12 | 'd' => some 13 | 'e' => some 14
  | 'f' => some 15
  | 'A' => some 10 | 'B' => some 11 | 'C' => some 12 | 'D' => some 13 | 'E' => some 14
  | 'F' => some 15
  | _ => none

/-- Digits of a base, most significant first. -/
def readBase (b : Nat) : List Char → Nat → Option Nat
  | [], acc => some acc
  | c :: r, acc =>
    match digitVal c with
    | some d => if d < b then readBase b r (acc * b + d) else none
    | none => none

/-- Reading an unsigned integer: yaml-cpp clears the base of the stream, so the prefix of the
numeral selects the base. -/
def readNat (s : List Char) : Option Nat :=
  match s with
  | [] => none
  | ['0'] => some 0
  | '0' :: 'x' :: c :: r => readBase 16 (c :: r) 0
  | '0' :: 'X' :: c :: r => readBase 16 (c :: r) 0
  | '0' :: c :: r => readBase 8 (c :: r) 0
  | c :: r => readBase 10 (c :: r) 0

/-- `as<unsigned int>` / `as<size_t>`: unsigned integers below a bound. -/
def asNat (bound : Nat) : Node → Option Nat
  | .scalar s =>
    match readNat s.toList with
    | some n => if n < bound then some n else none
    | none => none
  | _ => none

/-- `unsigned int`. -/
def asUInt : Node → Option Nat := asNat (2 ^ 32)
/-- `size_t`. -/
def asSize : Node → Option Nat := asNat (2 ^ 64)

/-- `as<bool>`. -/
def asBool : Node → Option Bool
  | .scalar s =>
    if s ∈ ["y", "Y", "yes", "Yes", "YES", "true", "True", "TRUE", "on", "On", "ON"] then some true
    else if s ∈ ["n", "N", "no", "No", "NO", "false", "False", "FALSE", "off", "Off", "OFF"] then some false
    else none
  | _ => none

/-- `as<std::string>`. -/
def asStr : Node → Option String
  | .scalar s => some s
  | .null => some "null"
  | _ => none

/-- All elements present. -/
def allSome : List (Option String) → Option (List String)
  | [] => some []
  | some s :: r => (allSome r).map (s :: ·)
  | none :: _ => none

/-- `as<std::vector<std::string>>`. -/
def asStrs : Node → Option (List String)
  | .seq l => allSome l
  | _ => none

/-- Nodes written for the basic types. -/
def ofBool (b : Bool) : Node := .scalar (if b then "true" else "false")
def ofNat (n : Nat) : Node := .scalar (showNat n)
def ofStrs (l : List String) : Node := .seq (l.map some)

/-- `ConstrainedInteger<MIN, STEP, MAX>` from an `unsigned int`
(ecal_custom_data_types.h L84-94): the value becomes an `int` (values from 2^31 on are
negative) and must lie in the range and be a multiple of the step. -/
def asConstrained (min step max : Nat) (n : Node) : Option Nat :=
  match asUInt n with
  | some v => if v < 2 ^ 31 ∧ min ≤ v ∧ v ≤ max ∧ v % step = 0 then some v else none
  | none => none

/-- Greatest `int`. -/
def intMax : Nat := 2 ^ 31 - 1

/-! ### Address strings -/

/-- Regular expressions without repetition. -/
inductive Re where
  | chr (l : List Char)
  | any
  | cat (a b : Re)
  | alt (a b : Re)

/-- What is left after a match of a prefix. -/
def Re.run : Re → List Char → List (List Char)
  | .chr l, c :: r => if c ∈ l then [r] else []
  | .chr _, [] => []
  | .any, _ :: r => [r]
  | .any, [] => []
  | .cat a b, s => (a.run s).flatMap b.run
  | .alt a b, s => a.run s ++ b.run s

/-- `std::regex_match`: the whole string. -/
def Re.full (r : Re) (s : List Char) : Bool := (r.run s).any List.isEmpty

/-- `[0-9]`, `[1-9]`, hexadecimal digits. -/
def reD : Re := .chr ['0', '1', '2', '3', '4', '5', '6', '7', '8', '9']
def reD19 : Re := .chr ['1', '2', '3', '4', '5', '6', '7', '8', '9']
def reX : Re :=
  .chr ['0', '1', '2', '3', '4', '5', '6', '7', '8', '9',
        'a', 'b', 'c', 'd', 'e', 'f', 'A', 'B', 'C', 'D', 'E', 'F']
def reDot : Re := .chr ['.']
/-- A literal string. -/
def reLit (c : Char) (r : List Char) : Re :=
  match r with
  | [] => .chr [c]
  | d :: r' => .cat (.chr [c]) (reLit d r')
/-- `1[0-9][0-9]|2[0-4][0-9]|25[0-5]`. -/
def reBig : Re :=
  .alt (.cat (.chr ['1']) (.cat reD reD))
    (.alt (.cat (.chr ['2']) (.cat (.chr ['0', '1', '2', '3', '4']) reD))
      (.cat (.chr ['2']) (.cat (.chr ['5']) (.chr ['0', '1', '2', '3', '4', '5']))))
/-- Octet in one of the first three places (L38): `[0-9]|[0-9][0-9]|…`. -/
def reOct : Re := .alt reD (.alt (.cat reD reD) reBig)
/-- Last octet (L38): `[0-9]|[1-9][0-9]|…`. -/
def reOctLast : Re := .alt reD (.alt (.cat reD19 reD) reBig)
/-- `(a\.){3}b`. -/
def reQuad (a b : Re) : Re :=
  .cat (.cat a reDot) (.cat (.cat a reDot) (.cat (.cat a reDot) b))
/-- `IPV4_DEC_REGEX` (L38). -/
def reDec : Re := reQuad reOct reOctLast
/-- `[0-9a-fA-F]|[0-9a-fA-F][0-9a-fA-F]`. -/
def reHexOct : Re := .alt reX (.cat reX reX)
/-- `IPV4_HEX_REGEX` (L39). -/
def reHex : Re := reQuad reHexOct reHexOct
/-- `255|[fF][fF]`. -/
def reFF : Re :=
  .alt (reLit '2' ['5', '5']) (.cat (.chr ['f', 'F']) (.chr ['f', 'F']))
/-- `0|00|000` and `1|01|001`. -/
def re0 : Re := .alt (reLit '0' []) (.alt (reLit '0' ['0']) (reLit '0' ['0', '0']))
def re1 : Re := .alt (reLit '1' []) (.alt (reLit '0' ['1']) (reLit '0' ['0', '1']))
/-- `INVALID_IPV4_ADDRESSES` (L33-37). -/
def reBad1 : Re := reQuad reFF reFF
def reBad2 : Re :=
  .cat (.alt (reLit '1' ['2', '7']) (.cat (.chr ['7']) (.chr ['f', 'F'])))
    (.cat .any (.cat (.cat re0 reDot) (.cat (.cat re0 reDot) re1)))
def reBad3 : Re := reQuad re0 re0

/-- `IpAddressV4::validateIpString` (ecal_custom_data_types.cpp L51-72). -/
def ipValid (s : List Char) : Bool :=
  (reDec.full s || reHex.full s) && !(reBad1.full s || reBad2.full s || reBad3.full s)

/-- Assigning a string to an `IpAddressV4`. -/
def asIp (n : Node) : Option String :=
  match asStr n with
  | some s => if ipValid s.toList then some s else none
  | none => none

/-! ### The settings (include/ecal/config/*.h) -/

/-- Transport layers named in priority lists (`TLayer::eTransportLayer`). -/
inductive Layer where
  | shm | udp | tcp | other
  deriving DecidableEq

/-- registration.h, `Layer::SHM`, `Layer::UDP`, `Layer`, and the section itself. -/
structure RegShm where
  enable : Bool := false
  domain : String := "ecal_mon"
  queueSize : Nat := 1024
  deriving DecidableEq
structure RegUdp where
  enable : Bool := true
  port : Nat := 14000
  deriving DecidableEq
structure RegLayer where
  shm : RegShm := {}
  udp : RegUdp := {}
  deriving DecidableEq
structure Reg where
  timeout : Nat := 60000
  refresh : Nat := 1000
  networkEnabled : Bool := false
  loopback : Bool := true
  hostGroupName : String := ""
  layer : RegLayer := {}
  deriving DecidableEq

/-- monitoring.h. -/
structure Mon where
  timeout : Nat := 5000
  filterExcl : String := "^__.*$"
  filterIncl : String := ""
  deriving DecidableEq

/-- transport_layer.h. -/
structure TlShm where
  minSize : Nat := 4096
  reserve : Nat := 50
  deriving DecidableEq
structure TlTcp where
  reader : Nat := 4
  writer : Nat := 4
  reconnections : Nat := 5
  deriving DecidableEq
structure TlNet where
  group : String := "239.0.0.1"
  ttl : Nat := 3
  deriving DecidableEq
structure TlUdp where
  /-- `config_version` is v2. -/
  v2 : Bool := true
  /-- `mode` is local. -/
  isLocal : Bool := true
  port : Nat := 14002
  mask : String := "255.255.255.240"
  sendBuffer : Nat := 5242880
  receiveBuffer : Nat := 5242880
  joinAll : Bool := false
  npcap : Bool := false
  network : TlNet := {}
  deriving DecidableEq
structure Tl where
  udp : TlUdp := {}
  tcp : TlTcp := {}
  shm : TlShm := {}
  deriving DecidableEq

/-- publisher.h. -/
structure PubShm where
  enable : Bool := true
  zeroCopy : Bool := false
  ackTimeout : Nat := 0
  bufferCount : Nat := 1
  deriving DecidableEq
structure Enable where
  enable : Bool
  deriving DecidableEq
structure PubLayer where
  shm : PubShm := {}
  udp : Enable := ⟨true⟩
  tcp : Enable := ⟨true⟩
  deriving DecidableEq
structure Pub where
  layer : PubLayer := {}
  prioLocal : List Layer := [.shm, .udp, .tcp]
  prioRemote : List Layer := [.udp, .tcp]
  shareType : Bool := true
  shareDesc : Bool := true
  deriving DecidableEq

/-- subscriber.h. -/
structure SubLayer where
  shm : Enable := ⟨true⟩
  udp : Enable := ⟨true⟩
  tcp : Enable := ⟨false⟩
  deriving DecidableEq
structure Sub where
  layer : SubLayer := {}
  dropOutOfOrder : Bool := true
  deriving DecidableEq

/-- time.h, service.h, application.h. -/
structure Time where
  rt : String := "ecaltime-localtime"
  replay : String := ""
  deriving DecidableEq
structure Service where
  v0 : Bool := false
  v1 : Bool := true
  deriving DecidableEq
structure App where
  sysFilterExcl : String := "^eCALSysClient$|^eCALSysGUI$|^eCALSys$"
  terminal : String := ""
  deriving DecidableEq

/-- logging.h; a filter is a mask of eight levels. -/
structure LogCon where
  enable : Bool := true
  filter : BitVec 8 := 0x0c#8
  deriving DecidableEq
structure LogFile where
  enable : Bool := false
  path : String := ""
  filter : BitVec 8 := 0#8
  deriving DecidableEq
structure LogUdp where
  enable : Bool := true
  port : Nat := 14001
  filter : BitVec 8 := 0x0f#8
  deriving DecidableEq
structure Log where
  console : LogCon := {}
  file : LogFile := {}
  udp : LogUdp := {}
  deriving DecidableEq

/-- configuration.h (without the command line arguments). -/
structure Cfg where
  tl : Tl := {}
  reg : Reg := {}
  mon : Mon := {}
  sub : Sub := {}
  pub : Pub := {}
  time : Time := {}
  service : Service := {}
  app : App := {}
  log : Log := {}
  deriving DecidableEq

/-! ### Conversions of the sections (configuration_to_yaml.cpp) -/

/-- `ParseLogLevel` (L21-38). -/
def levelBit (s : String) : BitVec 8 :=
  if s = "all" then 255#8 else if s = "info" then 1#8 else if s = "warning" then 2#8
  else if s = "error" then 4#8 else if s = "fatal" then 8#8 else if s = "debug1" then 16#8
  else if s = "debug2" then 32#8 else if s = "debug3" then 64#8 else if s = "debug4" then 128#8
  else 0#8
def parseLevels : List String → BitVec 8
  | [] => 0#8
  | s :: r => levelBit s ||| parseLevels r

/-- One level of `LogLevelToVector`. -/
def levelName (m : BitVec 8) (bit : BitVec 8) (s : String) : List String :=
  if m &&& bit ≠ 0#8 then [s] else []
/-- `LogLevelToVector` (L40-54). -/
def levelNames (m : BitVec 8) : List String :=
  levelName m 255#8 "all" ++ levelName m 1#8 "info" ++ levelName m 2#8 "warning"
    ++ levelName m 4#8 "error" ++ levelName m 8#8 "fatal" ++ levelName m 16#8 "debug1"
    ++ levelName m 32#8 "debug2" ++ levelName m 64#8 "debug3" ++ levelName m 128#8 "debug4"

/-- `transformLayerStrToEnum` (L56-67). -/
def parseLayers : List String → List Layer
  | [] => []
  | s :: r =>
    if s = "shm" then .shm :: parseLayers r else if s = "udp" then .udp :: parseLayers r
    else if s = "tcp" then .tcp :: parseLayers r else parseLayers r
/-- `transformLayerEnumToStr` (L69-91). -/
def layerNames : List Layer → List String
  | [] => []
  | .shm :: r => "shm" :: layerNames r
  | .udp :: r => "udp" :: layerNames r
  | .tcp :: r => "tcp" :: layerNames r
  | .other :: r => layerNames r

/-- L104-118. -/
def encRegUdp (c : RegUdp) : Node := mk [("enable", ofBool c.enable), ("port", ofNat c.port)]
def decRegUdp (n : Node) : Option RegUdp := do
  let enable ← assign asBool n "enable" ({} : RegUdp).enable
  let port ← assign asUInt n "port" ({} : RegUdp).port
  return { enable, port }
/-- L120-135. -/
def encRegShm (c : RegShm) : Node :=
  mk [("enable", ofBool c.enable), ("domain", .scalar c.domain), ("queue_size", ofNat c.queueSize)]
def decRegShm (n : Node) : Option RegShm := do
  let enable ← assign asBool n "enable" ({} : RegShm).enable
  let domain ← assign asStr n "domain" ({} : RegShm).domain
  let queueSize ← assign asSize n "queue_size" ({} : RegShm).queueSize
  return { enable, domain, queueSize }
/-- L137-150. -/
def encRegLayer (c : RegLayer) : Node := mk [("shm", encRegShm c.shm), ("udp", encRegUdp c.udp)]
def decRegLayer (n : Node) : Option RegLayer := do
  let shm ← assign decRegShm n "shm" ({} : RegLayer).shm
  let udp ← assign decRegUdp n "udp" ({} : RegLayer).udp
  return { shm, udp }
/-- L152-172: `layer` is read but not written. -/
def encReg (c : Reg) : Node :=
  mk [("registration_timeout", ofNat c.timeout), ("registration_refresh", ofNat c.refresh),
    ("network_enabled", ofBool c.networkEnabled), ("loopback", ofBool c.loopback),
    ("host_group_name", .scalar c.hostGroupName)]
def decReg (n : Node) : Option Reg := do
  let timeout ← assign asUInt n "registration_timeout" ({} : Reg).timeout
  let refresh ← assign asUInt n "registration_refresh" ({} : Reg).refresh
  let networkEnabled ← assign asBool n "network_enabled" ({} : Reg).networkEnabled
  let loopback ← assign asBool n "loopback" ({} : Reg).loopback
  let hostGroupName ← assign asStr n "host_group_name" ({} : Reg).hostGroupName
  let layer ← assign decRegLayer n "layer" ({} : Reg).layer
  return { timeout, refresh, networkEnabled, loopback, hostGroupName, layer }

/-- L183-200. -/
def encMon (c : Mon) : Node :=
  mk [("timeout", ofNat c.timeout), ("filter_excl", .scalar c.filterExcl),
    ("filter_incl", .scalar c.filterIncl)]
def decMon (n : Node) : Option Mon := do
  let timeout ← assign (asConstrained 1000 1000 intMax) n "timeout" ({} : Mon).timeout
  let filterExcl ← assign asStr n "filter_excl" ({} : Mon).filterExcl
  let filterIncl ← assign asStr n "filter_incl" ({} : Mon).filterIncl
  return { timeout, filterExcl, filterIncl }

/-- L210-223. -/
def encTlShm (c : TlShm) : Node :=
  mk [("memfile_min_size_bytes", ofNat c.minSize), ("memfile_reserve_percent", ofNat c.reserve)]
def decTlShm (n : Node) : Option TlShm := do
  let minSize ← assign (asConstrained 4096 4096 intMax) n "memfile_min_size_bytes" ({} : TlShm).minSize
  let reserve ← assign (asConstrained 50 1 100) n "memfile_reserve_percent" ({} : TlShm).reserve
  return { minSize, reserve }
/-- L225-241: the `size_t` members are read as `unsigned int`. -/
def encTlTcp (c : TlTcp) : Node :=
  mk [("number_executor_reader", ofNat c.reader), ("number_executor_writer", ofNat c.writer),
    ("max_reconnections", ofNat c.reconnections)]
def decTlTcp (n : Node) : Option TlTcp := do
  let reader ← assign asUInt n "number_executor_reader" ({} : TlTcp).reader
  let writer ← assign asUInt n "number_executor_writer" ({} : TlTcp).writer
  let reconnections ← assign asUInt n "max_reconnections" ({} : TlTcp).reconnections
  return { reader, writer, reconnections }
/-- L243-256. -/
def encTlNet (c : TlNet) : Node := mk [("group", .scalar c.group), ("ttl", ofNat c.ttl)]
def decTlNet (n : Node) : Option TlNet := do
  let group ← assign asIp n "group" ({} : TlNet).group
  let ttl ← assign asUInt n "ttl" ({} : TlNet).ttl
  return { group, ttl }
/-- The two words read by the `udp` section (L275-280). -/
def asV2 (n : Node) : Option Bool := (asStr n).map (· = "v2")
def asLocal (n : Node) : Option Bool := (asStr n).map (· = "local")
/-- L258-290. -/
def encTlUdp (c : TlUdp) : Node :=
  mk [("config_version", .scalar (if c.v2 then "v2" else "v1")),
    ("mode", .scalar (if c.isLocal then "local" else "network")),
    ("port", ofNat c.port), ("mask", .scalar c.mask), ("send_buffer", ofNat c.sendBuffer),
    ("receive_buffer", ofNat c.receiveBuffer), ("join_all_interfaces", ofBool c.joinAll),
    ("npcap_enabled", ofBool c.npcap), ("network", encTlNet c.network)]
def decTlUdp (n : Node) : Option TlUdp := do
  let v2 ← assign asV2 n "config_version" true
  let isLocal ← assign asLocal n "mode" true
  let port ← assign asUInt n "port" ({} : TlUdp).port
  let mask ← assign asIp n "mask" ({} : TlUdp).mask
  let sendBuffer ← assign (asConstrained 5242880 1024 intMax) n "send_buffer" ({} : TlUdp).sendBuffer
  let receiveBuffer ←
    assign (asConstrained 5242880 1024 intMax) n "receive_buffer" ({} : TlUdp).receiveBuffer
  let joinAll ← assign asBool n "join_all_interfaces" ({} : TlUdp).joinAll
  let npcap ← assign asBool n "npcap_enabled" ({} : TlUdp).npcap
  let network ← assign decTlNet n "network" ({} : TlUdp).network
  return { v2, isLocal, port, mask, sendBuffer, receiveBuffer, joinAll, npcap, network }
/-- L292-308. -/
def encTl (c : Tl) : Node :=
  mk [("shm", encTlShm c.shm), ("udp", encTlUdp c.udp), ("tcp", encTlTcp c.tcp)]
def decTl (n : Node) : Option Tl := do
  let shm ← assign decTlShm n "shm" ({} : Tl).shm
  let udp ← assign decTlUdp n "udp" ({} : Tl).udp
  let tcp ← assign decTlTcp n "tcp" ({} : Tl).tcp
  return { shm, udp, tcp }

/-- L318-335. -/
def encPubShm (c : PubShm) : Node :=
  mk [("enable", ofBool c.enable), ("zero_copy_mode", ofBool c.zeroCopy),
    ("acknowledge_timeout_ms", ofNat c.ackTimeout), ("memfile_buffer_count", ofNat c.bufferCount)]
def decPubShm (n : Node) : Option PubShm := do
  let enable ← assign asBool n "enable" ({} : PubShm).enable
  let zeroCopy ← assign asBool n "zero_copy_mode" ({} : PubShm).zeroCopy
  let ackTimeout ← assign asUInt n "acknowledge_timeout_ms" ({} : PubShm).ackTimeout
  let bufferCount ← assign asUInt n "memfile_buffer_count" ({} : PubShm).bufferCount
  return { enable, zeroCopy, ackTimeout, bufferCount }
/-- L337-363, L417-454: the sections with the single member `enable`. -/
def encEnable (c : Enable) : Node := mk [("enable", ofBool c.enable)]
def decEnable (dflt : Bool) (n : Node) : Option Enable := do
  let enable ← assign asBool n "enable" dflt
  return { enable }
/-- L365-380. -/
def encPubLayer (c : PubLayer) : Node :=
  mk [("shm", encPubShm c.shm), ("udp", encEnable c.udp), ("tcp", encEnable c.tcp)]
def decPubLayer (n : Node) : Option PubLayer := do
  let shm ← assign decPubShm n "shm" ({} : PubLayer).shm
  let udp ← assign (decEnable true) n "udp" ({} : PubLayer).udp
  let tcp ← assign (decEnable true) n "tcp" ({} : PubLayer).tcp
  return { shm, udp, tcp }
/-- L382-407: the priority lists are read through a temporary that starts empty. -/
def encPub (c : Pub) : Node :=
  mk [("share_topic_description", ofBool c.shareDesc), ("share_topic_type", ofBool c.shareType),
    ("layer", encPubLayer c.layer), ("priority_local", ofStrs (layerNames c.prioLocal)),
    ("priority_network", ofStrs (layerNames c.prioRemote))]
def decPub (n : Node) : Option Pub := do
  let shareDesc ← assign asBool n "share_topic_description" ({} : Pub).shareDesc
  let shareType ← assign asBool n "share_topic_type" ({} : Pub).shareType
  let tmp1 ← assign asStrs n "priority_local" []
  let tmp2 ← assign asStrs n "priority_network" []
  let layer ← assign decPubLayer n "layer" ({} : Pub).layer
  return { layer, prioLocal := parseLayers tmp1, prioRemote := parseLayers tmp2, shareType, shareDesc }

/-- L456-471. -/
def encSubLayer (c : SubLayer) : Node :=
  mk [("shm", encEnable c.shm), ("udp", encEnable c.udp), ("tcp", encEnable c.tcp)]
def decSubLayer (n : Node) : Option SubLayer := do
  let shm ← assign (decEnable true) n "shm" ({} : SubLayer).shm
  let udp ← assign (decEnable true) n "udp" ({} : SubLayer).udp
  let tcp ← assign (decEnable false) n "tcp" ({} : SubLayer).tcp
  return { shm, udp, tcp }
/-- L473-486: the key written is not the key read. -/
def encSub (c : Sub) : Node :=
  mk [("layer", encSubLayer c.layer), ("drop_out_of_order_message", ofBool c.dropOutOfOrder)]
def decSub (n : Node) : Option Sub := do
  let layer ← assign decSubLayer n "layer" ({} : Sub).layer
  let dropOutOfOrder ← assign asBool n "dropt_out_of_order_messages" ({} : Sub).dropOutOfOrder
  return { layer, dropOutOfOrder }

/-- L496-510. -/
def encTime (c : Time) : Node := mk [("replay", .scalar c.replay), ("rt", .scalar c.rt)]
def decTime (n : Node) : Option Time := do
  let replay ← assign asStr n "replay" ({} : Time).replay
  let rt ← assign asStr n "rt" ({} : Time).rt
  return { replay, rt }
/-- L520-534. -/
def encService (c : Service) : Node :=
  mk [("protocol_v0", ofBool c.v0), ("protocol_v1", ofBool c.v1)]
def decService (n : Node) : Option Service := do
  let v0 ← assign asBool n "protocol_v0" ({} : Service).v0
  let v1 ← assign asBool n "protocol_v1" ({} : Service).v1
  return { v0, v1 }
/-- L545-588; the two subsections have one member each. -/
def decOneStr (key dflt : String) (n : Node) : Option String := assign asStr n key dflt
def encApp (c : App) : Node :=
  mk [("terminal", mk [("emulator", .scalar c.terminal)]),
    ("sys", mk [("filter_excl", .scalar c.sysFilterExcl)])]
def decApp (n : Node) : Option App := do
  let terminal ← assign (decOneStr "emulator" ({} : App).terminal) n "terminal" ({} : App).terminal
  let sysFilterExcl ←
    assign (decOneStr "filter_excl" ({} : App).sysFilterExcl) n "sys" ({} : App).sysFilterExcl
  return { terminal, sysFilterExcl }

/-- L598-653: the levels are read through a temporary that starts empty. -/
def encLogUdp (c : LogUdp) : Node :=
  mk [("enable", ofBool c.enable), ("port", ofNat c.port), ("level", ofStrs (levelNames c.filter))]
def decLogUdp (n : Node) : Option LogUdp := do
  let enable ← assign asBool n "enable" ({} : LogUdp).enable
  let port ← assign asUInt n "port" ({} : LogUdp).port
  let tmp ← assign asStrs n "level" []
  return { enable, port, filter := parseLevels tmp }
def encLogCon (c : LogCon) : Node :=
  mk [("enable", ofBool c.enable), ("level", ofStrs (levelNames c.filter))]
def decLogCon (n : Node) : Option LogCon := do
  let enable ← assign asBool n "enable" ({} : LogCon).enable
  let tmp ← assign asStrs n "level" []
  return { enable, filter := parseLevels tmp }
def encLogFile (c : LogFile) : Node :=
  mk [("enable", ofBool c.enable), ("path", .scalar c.path), ("level", ofStrs (levelNames c.filter))]
def decLogFile (n : Node) : Option LogFile := do
  let enable ← assign asBool n "enable" ({} : LogFile).enable
  let path ← assign asStr n "path" ({} : LogFile).path
  let tmp ← assign asStrs n "level" []
  return { enable, path, filter := parseLevels tmp }
/-- L655-684. -/
def encSinks (c : Log) : Node :=
  mk [("console", encLogCon c.console), ("file", encLogFile c.file), ("udp", encLogUdp c.udp)]
def decSinks (n : Node) : Option Log := do
  let console ← assign decLogCon n "console" ({} : Log).console
  let file ← assign decLogFile n "file" ({} : Log).file
  let udp ← assign decLogUdp n "udp" ({} : Log).udp
  return { console, file, udp }
def encLog (c : Log) : Node := mk [("sinks", encSinks c)]
def decLog (n : Node) : Option Log := assign decSinks n "sinks" ({} : Log)

/-- `convert<eCAL::Configuration>::encode` (L694-706): `transport_layer` is not written. -/
def encCfg (c : Cfg) : Node :=
  mk [("publisher", encPub c.pub), ("subscriber", encSub c.sub), ("registration", encReg c.reg),
    ("monitoring", encMon c.mon), ("time", encTime c.time), ("service", encService c.service),
    ("application", encApp c.app), ("logging", encLog c.log)]

/-- `MapConfiguration` (configuration_reader.cpp L5-17): every section is assigned if the
document has it. (After an exception the sections assigned so far keep their new values; the
model only says that loading failed.) -/
def load (n : Node) (c : Cfg) : Option Cfg := do
  let tl ← assign decTl n "transport_layer" c.tl
  let pub ← assign decPub n "publisher" c.pub
  let sub ← assign decSub n "subscriber" c.sub
  let reg ← assign decReg n "registration" c.reg
  let mon ← assign decMon n "monitoring" c.mon
  let time ← assign decTime n "time" c.time
  let service ← assign decService n "service" c.service
  let app ← assign decApp n "application" c.app
  let log ← assign decLog n "logging" c.log
  return { tl, reg, mon, sub, pub, time, service, app, log }

/-! ### Merging (configuration_reader.cpp L52-120) -/

mutual
/-- The value after the entry `v` of the other document was merged into `old` (L82-96). -/
def mergeNode (old : Option Node) : Node → Node
  | .map o =>
    match old with
    | some (.map b) => .map (mergeEntries b o)
    | _ => .map o
  | .null => .null
  | .scalar s => .scalar s
  | .seq l => .seq l
/-- `MergeYamlNodes`: the loop over the entries of the other document. (The code keeps the
pairs of nested maps on a stack and visits them later; they have different keys, so the order
does not matter.) -/
def mergeEntries (b : Entries) : Entries → Entries
  | .nil => b
  | .cons k v r => mergeEntries (b.set k (mergeNode (b.find k) v)) r
end

/-- `MergeYamlNodes` on documents: a document that is not a map has no entries. -/
def mergeDocs : Node → Node → Node
  | .map b, .map o => .map (mergeEntries b o)
  | b, _ => b

/-- `MergeYamlIntoConfiguration` (L101-120), the file being readable. -/
def mergeInto (file : Node) (c : Cfg) : Option Cfg := load (mergeDocs (encCfg c) file) c

/-! ### The text dump (default_configuration.cpp) -/

/-- Reading a double quoted YAML scalar: what is between the quotes, with backslash escapes.
`none`: not a well formed scalar (an inner quote or an unknown escape; both are syntax errors of
the document). Escapes with code numbers and line folding are left out. -/
def unquote : List Char → Option (List Char)
  | [] => some []
  | '"' :: _ => none
  | '\n' :: _ => none
  | ['\\'] => none
  | '\\' :: c :: r =>
    match c with
    | '\\' => (unquote r).map ('\\' :: ·)
    | '"' => (unquote r).map ('"' :: ·)
    | '/' => (unquote r).map ('/' :: ·)
    | ' ' => (unquote r).map (' ' :: ·)
    | 'n' => (unquote r).map ('\n' :: ·)
    | 't' => (unquote r).map ('\t' :: ·)
    | 'r' => (unquote r).map ('\r' :: ·)
    | '0' => (unquote r).map (Char.ofNat 0 :: ·)
    | 'a' => (unquote r).map (Char.ofNat 7 :: ·)
    | 'b' => (unquote r).map (Char.ofNat 8 :: ·)
    | 'e' => (unquote r).map (Char.ofNat 27 :: ·)
    | 'f' => (unquote r).map (Char.ofNat 12 :: ·)
    | 'v' => (unquote r).map (Char.ofNat 11 :: ·)
    | _ => none
  | c :: r => (unquote r).map (c :: ·)

/-- `quoteString` (L10-16): the text of the string between quotes, nothing escaped; as a node of
the document that is read. -/
def quoted (s : String) : Option Node := (unquote s.toList).map (fun l => .scalar (String.ofList l))

/-- `logToArray` (L18-44). -/
def dumpLevels (m : BitVec 8) : List String :=
  levelName m 1#8 "info" ++ levelName m 2#8 "warning"
    ++ levelName m 4#8 "error" ++ levelName m 8#8 "fatal" ++ levelName m 16#8 "debug1"
    ++ levelName m 32#8 "debug2" ++ levelName m 64#8 "debug3" ++ levelName m 128#8 "debug4"

/-- `quoteString(LayerPriorityVector)` (L46-76): two characters are removed at the end if the
list is not empty, even if none of its elements was written; the text is then not a sequence
any more. -/
def dumpLayers (l : List Layer) : Option Node :=
  if l ≠ [] ∧ layerNames l = [] then none else some (ofStrs (layerNames l))

/-- `getConfigAsYamlSS` (L121-350), as the node tree of the written document; `none` if the text
is not a well formed document. -/
def dump (c : Cfg) : Option Node := do
  let group ← quoted c.reg.hostGroupName
  let domain ← quoted c.reg.layer.shm.domain
  let excl ← quoted c.mon.filterExcl
  let incl ← quoted c.mon.filterIncl
  let mask ← quoted c.tl.udp.mask
  let mcast ← quoted c.tl.udp.network.group
  let prioLocal ← dumpLayers c.pub.prioLocal
  let prioRemote ← dumpLayers c.pub.prioRemote
  let rt ← quoted c.time.rt
  let replay ← quoted c.time.replay
  let sysExcl ← quoted c.app.sysFilterExcl
  let terminal ← quoted c.app.terminal
  let path ← quoted c.log.file.path
  return mk [
    ("registration", mk [
      ("registration_refresh", ofNat c.reg.refresh),
      ("registration_timeout", ofNat c.reg.timeout),
      ("loopback", ofBool c.reg.loopback),
      ("host_group_name", group),
      ("network_enabled", ofBool c.reg.networkEnabled),
      ("layer", mk [
        ("shm", mk [
          ("enable", ofBool c.reg.layer.shm.enable),
          ("domain", domain),
          ("queue_size", ofNat c.reg.layer.shm.queueSize)]),
        ("udp", mk [
          ("enable", ofBool c.reg.layer.udp.enable),
          ("port", ofNat c.reg.layer.udp.port)])])]),
    ("monitoring", mk [
      ("timeout", ofNat c.mon.timeout),
      ("filter_excl", excl),
      ("filter_incl", incl)]),
    ("transport_layer", mk [
      ("udp", mk [
        ("config_version", .scalar (if c.tl.udp.v2 then "v2" else "v1")),
        ("mode", .scalar (if c.tl.udp.isLocal then "local" else "network")),
        ("port", ofNat c.tl.udp.port),
        ("mask", mask),
        ("send_buffer", ofNat c.tl.udp.sendBuffer),
        ("receive_buffer", ofNat c.tl.udp.receiveBuffer),
        ("join_all_interfaces", ofBool c.tl.udp.joinAll),
        ("npcap_enabled", ofBool c.tl.udp.npcap),
        ("local", .null),
        ("network", mk [
          ("group", mcast),
          ("ttl", ofNat c.tl.udp.network.ttl)])]),
      ("tcp", mk [
        ("number_executor_reader", ofNat c.tl.tcp.reader),
        ("number_executor_writer", ofNat c.tl.tcp.writer),
        ("max_reconnections", ofNat c.tl.tcp.reconnections)]),
      ("shm", mk [
        ("memfile_min_size_bytes", ofNat c.tl.shm.minSize),
        ("memfile_reserve_percent", ofNat c.tl.shm.reserve)])]),
    ("publisher", mk [
      ("layer", mk [
        ("shm", mk [
          ("enable", ofBool c.pub.layer.shm.enable),
          ("zero_copy_mode", ofBool c.pub.layer.shm.zeroCopy),
          ("acknowledge_timeout_ms", ofNat c.pub.layer.shm.ackTimeout),
          ("memfile_buffer_count", ofNat c.pub.layer.shm.bufferCount)]),
        ("udp", mk [("enable", ofBool c.pub.layer.udp.enable)]),
        ("tcp", mk [("enable", ofBool c.pub.layer.shm.enable)])]),
      ("share_topic_type", ofBool c.pub.shareType),
      ("share_topic_description", ofBool c.pub.shareDesc),
      ("priority_local", prioLocal),
      ("priority_network", prioRemote)]),
    ("subscriber", mk [
      ("layer", mk [
        ("shm", mk [("enable", ofBool c.sub.layer.shm.enable)]),
        ("udp", mk [("enable", ofBool c.sub.layer.udp.enable)]),
        ("tcp", mk [("enable", ofBool c.sub.layer.tcp.enable)])]),
      ("drop_out_of_order_messages", ofBool c.sub.dropOutOfOrder)]),
    ("time", mk [("rt", rt), ("replay", replay)]),
    ("service", mk [("protocol_v0", ofBool c.service.v0), ("protocol_v1", ofBool c.service.v1)]),
    ("application", mk [
      ("sys", mk [("filter_excl", sysExcl)]),
      ("terminal", mk [("emulator", terminal)])]),
    ("logging", mk [("sinks", mk [
      ("console", mk [
        ("enable", ofBool c.log.console.enable),
        ("level", ofStrs (dumpLevels c.log.console.filter))]),
      ("file", mk [
        ("enable", ofBool c.log.file.enable),
        ("level", ofStrs (dumpLevels c.log.file.filter)),
        ("path", path)]),
      ("udp", mk [
        ("enable", ofBool c.log.udp.enable),
        ("level", ofStrs (dumpLevels c.log.udp.filter)),
        ("port", ofNat c.log.udp.port)])])])]

end Ecal.Config
