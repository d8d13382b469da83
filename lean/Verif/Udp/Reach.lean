import Verif.Udp.Mcast

/-!
# Which processes a UDP sample reaches

core/src/readwrite/udp/ecal_writer_udp.cpp, core/src/io/udp/ecal_udp_sample_sender.cpp,
core/src/io/udp/ecal_udp_sample_receiver_asio.cpp, core/src/readwrite/udp/ecal_reader_udp.cpp,
core/src/registration/udp/ecal_registration_sender_udp.cpp, core/src/registration/udp/ecal_registration_receiver_udp.cpp:
the addresses, ports and socket options chosen, and what an IP network makes of them.

Trusted (the operating system, `deliver`): a datagram to 127.255.255.255 reaches every socket of the same host bound to
its port, and none elsewhere; a datagram to a group reaches the sockets bound to its port whose host has joined the group
(with `all`, the default of Linux) or that have joined it themselves (without), on the own host only if the sending socket
has loopback on, on other hosts if the time to live exceeds the number of routers in between.

Simplifications: no losses; options never fail to be set (times to live above 255 are not valid for the operating system
and are outside the model); joining a group never fails.
-/

namespace Ecal.Udp.Reach

/-- Configuration: addresses, `multicast port`, `ttl`, `registration.loopback` (core/include/ecal/config/registration.h
L71: "enable to receive udp messages on the same local machine"). -/
structure Conf where
  udp      : UdpConfig
  port     : Nat
  ttl      : Nat
  loopback : Bool

/-- `GetRegistrationPort`, `GetLoggingPort`, `GetPayloadPort` (core/src/io/udp/ecal_udp_configurations.cpp L102-109, L117-124,
L156-163; offsets core/src/ecal_def.h L44-46). -/
def regPort (c : Conf) : Nat := c.port
def logPort (c : Conf) : Nat := c.port + 1
def payloadPort (c : Conf) : Nat := c.port + 2

/-- `GetMulticastTtl` (L165-177). -/
def multicastTtl (c : Conf) : Nat := if c.udp.network then c.ttl else 1

/-- `SSenderAttr` (core/src/io/udp/ecal_udp_sender_attr.h); the size of the send buffer is left out. -/
structure SenderAttr where
  address   : List Char
  port      : Nat
  ttl       : Nat
  broadcast : Bool
  loopback  : Bool

/-- What `CDataWriterUdpMC` gives its two senders (core/src/readwrite/udp/ecal_writer_udp.cpp L42-56). -/
def writerAttr (w : Nat) (c : Conf) (topic : List UInt8) (loopback : Bool) : SenderAttr :=
  { address := topicPayloadAddress w c.udp topic, port := payloadPort c, ttl := multicastTtl c,
    broadcast := !c.udp.network, loopback := loopback }

/-- `CreateAttributes` (core/src/registration/udp/ecal_registration_sender_udp.cpp L38-48). -/
def regAttr (c : Conf) : SenderAttr :=
  { address := registrationAddress c.udp, port := regPort c, ttl := multicastTtl c, broadcast := !c.udp.network,
    loopback := true }

/-- Options of a sending socket; defaults of the operating system: time to live of multicast 1, loopback on, no
broadcast. -/
structure Options where
  mcTtl     : Nat := 1
  loopback  : Bool := true
  broadcast : Bool := false

/-- `InitializeSocket` (core/src/io/udp/ecal_udp_sample_sender.cpp L68-104): in broadcast mode the time to live of unicast
is set (without effect here) and broadcast is allowed, but not the loopback option. -/
def initSocket (a : SenderAttr) : Options :=
  if a.broadcast then { broadcast := true } else { mcTtl := a.ttl, loopback := a.loopback }

/-- A datagram on its way: destination (the port is cut to 16 bits, L36), options of its socket. -/
structure Datagram where
  dest : List Char
  port : Nat
  opt  : Options

/-- A datagram sent by a `CSampleSender`. -/
def datagram (a : SenderAttr) : Datagram := ⟨a.address, a.port % 65536, initSocket a⟩

/-- `CDataWriterUdpMC::Write` (core/src/readwrite/udp/ecal_writer_udp.cpp L97-113) as called in
core/src/readwrite/ecal_writer.cpp L280-297: the sender with or without loopback, as configured. -/
def sendSample (w : Nat) (c : Conf) (topic : List UInt8) : Datagram :=
  if c.loopback then datagram (writerAttr w c topic true) else datagram (writerAttr w c topic false)

/-- `CRegistrationSenderUDP::SendSample` (core/src/registration/udp/ecal_registration_sender_udp.cpp L61-71). -/
def sendRegistration (c : Conf) : Datagram := datagram (regAttr c)

/-- A listening socket: bound to a port of all addresses, member of some groups. -/
structure Listener where
  port   : Nat
  groups : List (List Char)

/-- The payload receiver of a process with subscribers of `topics` (core/src/readwrite/udp/ecal_reader_udp.cpp L53-85 with
core/src/io/udp/ecal_udp_sample_receiver_asio.cpp L38-56, L107-195): none before the first subscriber; in local mode no
group is joined, otherwise the base group and the groups of the topics.  That the groups are those of the live subscribers
is C25. -/
def payloadListener (w : Nat) (c : Conf) (topics : List (List UInt8)) : Option Listener :=
  if topics.isEmpty then none
  else some { port := payloadPort c % 65536,
              groups := if c.udp.network then registrationAddress c.udp :: topics.map (topicPayloadAddress w c.udp) else [] }

/-- The registration receiver (core/src/registration/udp/ecal_registration_receiver_udp.cpp L31-41). -/
def regListener (c : Conf) : Listener :=
  { port := regPort c % 65536, groups := if c.udp.network then [registrationAddress c.udp] else [] }

/-- The attributes of the sender of log messages (core/src/logging/ecal_log_impl.cpp L141-148; `GetLoggingAddress`,
core/src/io/udp/ecal_udp_configurations.cpp L111-115). -/
def logAttr (c : Conf) : SenderAttr :=
  { address := registrationAddress c.udp, port := logPort c, ttl := multicastTtl c, broadcast := !c.udp.network,
    loopback := true }

/-- The receiver of log messages (core/src/logging/ecal_log_impl.cpp L155-161). -/
def logListener (c : Conf) : Listener :=
  { port := logPort c % 65536, groups := if c.udp.network then [registrationAddress c.udp] else [] }

/-- What a started log has of UDP. -/
structure Log where
  sender   : Option SenderAttr
  listener : Option Listener

/-- `CLog::Start` (core/src/logging/ecal_log_impl.cpp L125-164) with the filter masks for file and UDP: without the log
directory `directory` it gives up where the log file is to be created. -/
def startLog (c : Conf) (fileMask udpMask : Nat) (directory : Bool) : Log :=
  if fileMask != 0 && !directory then ⟨none, none⟩
  else ⟨if udpMask != 0 then some (logAttr c) else none, some (logListener c)⟩

/-- The network: whether a datagram sent on host `src` is given to listener `l` on host `host`. `dist` is the number of
routers between two hosts, `world` are all listeners. -/
def deliver (all : Bool) (dist : Nat → Nat → Nat) (world : List (Nat × Listener)) (src : Nat) (d : Datagram)
    (host : Nat) (l : Listener) : Bool :=
  l.port == d.port &&
  if d.dest = localBroadcast then d.opt.broadcast && host == src
  else
    (if all then world.any (fun x => x.1 == host && x.2.groups.contains d.dest) else l.groups.contains d.dest) &&
    (if host == src then d.opt.loopback else decide (dist src host < d.opt.mcTtl))

end Ecal.Udp.Reach
