import Verif.Sync.Races

/-!
# What the threads of a process do with the data of one subscriber

For every operation on a subscriber - calls of the user, deliveries of samples, registrations of publishers, the registration
cycle, the end of the subscriber - the variables it touches, in program order, and the locks it holds meanwhile.

Simplifications:
* One subscriber; its data is not touched by operations on other ones.
* Callbacks make no calls to the library, all layers are enabled.
* Atomic variables (`m_connected`, `m_created`, `m_clock`, `m_topic_size`, `m_receive_time`) cannot race and are left out, and so are
  variables that are never written after the construction (the type information among them).
* The variables of the layers themselves (`m_datareadertcp_map` and others) are not included.
* `member` is not a lock of the code but the membership in the map of the gate, as in `Verif/Sync/WriterRaces.lean`.
-/

namespace Ecal.Sync.ReaderRaces
open Ecal.Sync.Races

inductive Layer where
  | udp | shm | tcp
deriving DecidableEq, Repr

/-- * `applier`: `m_callback_custom_apply_sample_map_mtx` (ecal/core/src/registration/ecal_registration_sample_applier.cpp L53)
* `gate`: `m_topic_name_datareader_sync` (ecal/core/src/pubsub/ecal_subgate.h L64)
* `mapL`, `bufL`, `recvL`, `evL`, `freqL`: `m_pub_map_mtx`, `m_read_buf_mtx`, `m_receive_callback_mtx`, `m_event_callback_map_mtx`,
  `m_frequency_calculator_mtx` (ecal/core/src/readwrite/ecal_reader.h L159-180)
* `regL`: `m_applied_sample_list_mtx` (ecal/core/src/registration/ecal_registration_provider.h L61) -/
inductive Lk where
  | applier | gate | member | mapL | bufL | recvL | evL | freqL | regL
deriving DecidableEq, Repr

/-- * `handle`: `m_datareader`, `m_created` of the subscriber
* `attr`, `pubMap`, `readBuf`, `recvCb`, `hashes`, `evMap`, `freq`, `idSet`, `counters`, `drops`: members of the data reader
  (ecal/core/src/readwrite/ecal_reader.h L153-187)
* `writeEn`, `readEn`, `active`: its `m_layers` (L192)
* `regList`: `m_applied_sample_list` of the registration provider -/
inductive Var where
  | handle | attr | pubMap | readBuf | recvCb | hashes | evMap | freq | idSet | counters | drops
  | writeEn (l : Layer) | readEn (l : Layer) | active (l : Layer)
  | regList
deriving DecidableEq, Repr

abbrev Prog := List (Act Lk Var)

def rd (v : Var) : Prog := [.rd v]

def wr (v : Var) : Prog := [.wr v]

def under (l : Lk) (p : Prog) : Prog := sect l .excl p

inductive Op where
  /-- A layer delivers a sample; `drop`: samples before it got lost; `callback`: there is a receive callback, otherwise the sample goes to
  the buffer. -/
  | deliver (drop callback : Bool)
  | receive
  /-- Add or remove the receive callback. -/
  | setRecv
  /-- Add or remove an event callback. -/
  | setEvent
  /-- Set the identifiers that are accepted. -/
  | setId
  /-- Set or clear an attribute. -/
  | setAttr
  /-- `IsPublished`, `GetPublisherCount` -/
  | count
  | getInfo
  | dump
  | destroy
  /-- `Finalize` stops the subscribers that are left. -/
  | finalize
  | applyPub
  | removePub
  /-- The registration cycle. -/
  | cycle
deriving DecidableEq, Repr

/-- `ApplySample`, `CheckMessageClock`: ecal/core/src/readwrite/ecal_reader.cpp L368-495, L798-875 -/
def deliverActs (drop callback : Bool) : Prog :=
  under .recvL
    (wr (.active .udp) ++ wr (.active .shm) ++ wr (.active .tcp) ++ rd .hashes ++ wr .hashes ++ rd .idSet ++ rd .counters ++
     (if drop then under .evL (rd .evMap) ++ wr .drops else []) ++ wr .counters ++ under .freqL (wr .freq) ++ rd .recvCb ++
     (if callback then [] else under .bufL (wr .readBuf)))

/-- `Stop`: ecal/core/src/readwrite/ecal_reader.cpp L114-144, L702-736 -/
def stop : Prog :=
  wr (.readEn .udp) ++ wr (.readEn .shm) ++ wr (.readEn .tcp) ++ under .recvL (wr .recvCb) ++ under .evL (wr .evMap) ++
  under .regL (wr .regList)

/-- A layer in the registration sample: ecal/core/src/readwrite/ecal_reader.cpp L597-631 -/
def sampleLayer (l : Layer) : Prog := rd (.readEn l) ++ rd (.active l)

/-- `GetRegistrationSample`: ecal/core/src/readwrite/ecal_reader.cpp L567-644 -/
def sample : Prog :=
  rd .attr ++ sampleLayer .udp ++ sampleLayer .shm ++ sampleLayer .tcp ++ under .freqL (wr .freq) ++ rd .drops

/-- The gate finds the subscriber in its map. -/
def found (p : Prog) : Prog := sect .member .shared p

/-- * the calls of the user: ecal/core/src/pubsub/ecal_subscriber.cpp L99-211, ecal/core/src/readwrite/ecal_reader.cpp L146-282, L497-521,
  ecal/core/src/readwrite/ecal_reader.h L106-120
* `deliver`: ecal/core/src/pubsub/ecal_subgate.cpp L149-175, L189-207 (the lock of the gate is released before the delivery)
* `destroy`: ecal_subscriber.cpp L99-122, ecal_subgate.cpp L84-102
* `finalize`: ecal_subgate.cpp L58-71
* `applyPub`, `removePub`: ecal/core/src/registration/ecal_registration_sample_applier.cpp L52-58, ecal_subgate.cpp L253-273, L292-298,
  ecal_reader.cpp L284-313, L738-774
* `cycle`: ecal_subgate.cpp L305-310, ecal_reader.cpp L547-565, L776-796 -/
def Op.acts : Op → Prog
  | .deliver drop callback => sect .gate .shared (found []) ++ deliverActs drop callback
  | .receive => rd .handle ++ under .bufL (rd .readBuf ++ wr .readBuf)
  | .setRecv => rd .handle ++ under .recvL (wr .recvCb) ++ under .recvL (wr .recvCb)
  | .setEvent => rd .handle ++ under .evL (wr .evMap) ++ under .evL (wr .evMap)
  | .setId => rd .handle ++ wr .idSet
  | .setAttr => rd .handle ++ wr .attr
  | .count => rd .handle ++ under .mapL (rd .pubMap)
  | .getInfo => rd .handle
  | .dump => rd .handle ++ rd .readBuf ++ under .freqL (wr .freq)
  | .destroy => rd .handle ++ under .recvL (wr .recvCb) ++ under .gate [.acq .member .excl] ++ stop ++ wr .handle
  | .finalize => under .gate (found stop)
  | .applyPub =>
    under .applier (sect .gate .shared (found
      (wr (.writeEn .udp) ++ wr (.writeEn .shm) ++ wr (.writeEn .tcp) ++ under .evL (rd .evMap) ++ under .mapL (wr .pubMap))))
  | .removePub => under .applier (sect .gate .shared (found (under .mapL (wr .pubMap))))
  | .cycle => sect .gate .shared (found (under .mapL (wr .pubMap ++ under .evL (rd .evMap)) ++ sample))

/-- Threads that make sequences of operations. -/
def startAll (ts : List (List Op)) : Sys Lk Var := start (ts.map (fun ops => ops.flatMap Op.acts))

end Ecal.Sync.ReaderRaces
