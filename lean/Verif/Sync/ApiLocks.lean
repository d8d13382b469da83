import Verif.Sync.Locks

/-!
# The locks of publishers and subscribers

Which locks the library takes, in which order and around which user callbacks.  A user callback is a list of API
calls (`Op`); everything else it does is irrelevant for the locks.

Simplifications:
* Locks that are never held while another lock is taken and around which no callback runs are left out (memory
  files, log, descriptions, executor of the TCP writer, lock of the periodic thread).
* A receive waits for nothing (the waiting is the subject of C80).
* Waiting for the end of a thread (`join`) is not modelled.
* The data that decides which branch is taken (connected or not, sample dropped or not) is not modelled: every
  choice is allowed, it is a part of the work item.
* Clients and servers are not included.
-/

namespace Ecal.Sync.ApiLocks
open Ecal.Sync.Locks

/-- The locks; `i` numbers subscribers, `j` publishers.
* `applier`: `m_callback_custom_apply_sample_map_mtx` (ecal/core/src/registration/ecal_registration_sample_applier.cpp L53)
* `subGate`, `pubGate`: `m_topic_name_datareader_sync` (ecal/core/src/pubsub/ecal_subgate.h L64),
  `m_topic_name_datawriter_sync` (ecal/core/src/pubsub/ecal_pubgate.h L67)
* `rCb`, `rMap`, `rEv`, `rFreq`, `rBuf`: `m_receive_callback_mtx`, `m_pub_map_mtx`, `m_event_callback_map_mtx`,
  `m_frequency_calculator_mtx`, `m_read_buf_mtx` (ecal/core/src/readwrite/ecal_reader.h L159-180)
* `wMap`, `wEv`, `wFreq`: `m_sub_map_mtx`, `m_event_callback_map_mtx`, `m_frequency_calculator_mtx`
  (ecal/core/src/readwrite/ecal_writer.h L171-181)
* `tcpMap`: `m_datareadertcp_sync` (ecal/core/src/readwrite/tcp/ecal_reader_tcp.h L81)
* `pool`: `m_observer_pool_sync` (ecal/core/src/io/shm/ecal_memfile_pool.h L107)
* `regList`: `m_applied_sample_list_mtx` (ecal/core/src/registration/ecal_registration_provider.h L61) -/
inductive Lk where
  | applier | subGate | pubGate | tcpMap | pool | regList
  | rCb (i : Nat) | rMap (i : Nat) | rEv (i : Nat) | rFreq (i : Nat) | rBuf (i : Nat)
  | wMap (j : Nat) | wEv (j : Nat) | wFreq (j : Nat)
deriving DecidableEq, Repr

/-- A critical section. -/
def sect (l : Lk) (m : Mode) (body : List (Act Lk)) : List (Act Lk) := .acq l m :: (body ++ [.rel l])

/-- Take a lock for a moment. -/
def touch (l : Lk) : List (Act Lk) := sect l .excl []

/-- What a user may call. -/
inductive Op where
  | subCreate
  | subDestroy (i : Nat)
  /-- Add or remove the receive callback. -/
  | setRecv (i : Nat)
  /-- Add or remove an event callback of a subscriber. -/
  | setSubEvent (i : Nat)
  | receive (i : Nat)
  /-- `IsPublished`, `GetPublisherCount` -/
  | subCount (i : Nat)
  | pubCreate
  | pubDestroy (j : Nat)
  | setPubEvent (j : Nat)
  /-- `rereg`: the memory file had to grow, the publisher registers again. -/
  | send (j : Nat) (rereg : Bool)
  /-- `IsSubscribed`, `GetSubscriberCount` -/
  | pubCount (j : Nat)
  /-- `Finalize` with the publishers and subscribers that are left. -/
  | finalize (js is : List Nat)
deriving DecidableEq, Repr

/-- ecal/core/src/readwrite/ecal_reader.cpp L114-144 (`Stop`), L702-736; the TCP layer is taken as enabled -/
def readerStop (i : Nat) : List (Act Lk) := touch .tcpMap ++ touch (.rCb i) ++ touch (.rEv i) ++ touch .regList

/-- ecal/core/src/readwrite/ecal_writer.cpp L136-166 (`Stop`) -/
def writerStop (j : Nat) : List (Act Lk) := touch (.wMap j) ++ touch (.wEv j) ++ touch .regList

/-- `Register`: ecal/core/src/readwrite/ecal_writer.cpp L570-573, L690-704, L951-956,
ecal/core/src/registration/ecal_registration_provider.cpp L135-139 -/
def writerRegister (j : Nat) : List (Act Lk) := touch (.wFreq j) ++ touch (.wMap j) ++ touch .regList

/-- The locks of an API call.
* `subCreate`: ecal/core/src/readwrite/tcp/ecal_reader_tcp.cpp L143, ecal/core/src/pubsub/ecal_subgate.cpp L78
* `subDestroy`: ecal/core/src/pubsub/ecal_subscriber.cpp L99-122, ecal_subgate.cpp L89
* `setRecv`, `setSubEvent`, `receive`: ecal/core/src/readwrite/ecal_reader.cpp L193, L210, L231, L248, L150; adding
  removes first (ecal_subscriber.cpp L149-167), which takes the same lock once more, one after the other
* `subCount`: ecal/core/src/readwrite/ecal_reader.h L106-116
* `pubCreate`, `pubDestroy`: ecal/core/src/pubsub/ecal_pubgate.cpp L87, L98, ecal_publisher.cpp L109-128
* `setPubEvent`: ecal/core/src/readwrite/ecal_writer.cpp L409, L426
* `send`: ecal/core/src/pubsub/ecal_publisher.cpp L160-181, ecal/core/src/readwrite/ecal_writer.cpp L531-544, L225-230
* `pubCount`: ecal/core/src/readwrite/ecal_writer.h L113-123
* `finalize`: ecal/core/src/ecal_globals.cpp L296-312, ecal_pubgate.cpp L57-70, ecal_subgate.cpp L58-71 -/
def Op.acts : Op → List (Act Lk)
  | .subCreate => touch .tcpMap ++ touch .subGate
  | .subDestroy i => touch (.rCb i) ++ touch .subGate ++ readerStop i
  | .setRecv i => touch (.rCb i)
  | .setSubEvent i => touch (.rEv i)
  | .receive i => touch (.rBuf i)
  | .subCount i => touch (.rMap i)
  | .pubCreate => touch .pubGate
  | .pubDestroy j => touch .pubGate ++ writerStop j
  | .setPubEvent j => touch (.wEv j)
  | .send j rereg => touch (.wMap j) ++ touch (.wFreq j) ++ (if rereg then writerRegister j else [])
  | .pubCount j => touch (.wMap j)
  | .finalize js is =>
    sect .pubGate .excl (js.flatMap writerStop) ++ sect .subGate .excl (is.flatMap readerStop) ++ touch .applier ++ touch .regList

/-- A callback. -/
def opsActs (ops : List Op) : List (Act Lk) := ops.flatMap Op.acts

/-- An event: its callback runs with the lock of the callback map held; `none`: the event does not happen. -/
def event (l : Lk) : Option (List Op) → List (Act Lk)
  | none => []
  | some ops => sect l .excl (opsActs ops)

/-- A sample for one subscriber. -/
structure Delivery where
  reader : Nat
  /-- The drop event and its callback. -/
  dropped : Option (List Op)
  /-- The receive callback; `none`: no callback, the sample goes into the buffer. -/
  recv : Option (List Op)

/-- ecal/core/src/readwrite/ecal_reader.cpp L368-495 (`ApplySample`), L854-864 -/
def deliver (d : Delivery) : List (Act Lk) :=
  sect (.rCb d.reader) .excl
    (event (.rEv d.reader) d.dropped ++ touch (.rFreq d.reader) ++
      (match d.recv with
       | some ops => opsActs ops
       | none => touch (.rBuf d.reader)))

/-- The registration of a publisher seen by one subscriber. -/
structure PubSeen where
  reader : Nat
  shm : Bool
  tcp : Bool
  /-- The connected event (only the first time) and its callback. -/
  connected : Option (List Op)
  /-- The update event and its callback. -/
  update : Option (List Op)

/-- ecal/core/src/pubsub/ecal_subgate.cpp L256-273, ecal/core/src/readwrite/ecal_reader.cpp L284-304, L738-774;
ecal/core/src/io/shm/ecal_memfile_pool.cpp L374, ecal/core/src/readwrite/tcp/ecal_reader_tcp.cpp L176 -/
def seePub (p : PubSeen) : List (Act Lk) :=
  (if p.shm then touch .pool else []) ++ (if p.tcp then touch .tcpMap else []) ++
  event (.rEv p.reader) p.connected ++ event (.rEv p.reader) p.update ++ touch (.rMap p.reader)

/-- The registration of a subscriber seen by one publisher. -/
structure SubSeen where
  writer : Nat
  connected : Option (List Op)
  update : Option (List Op)
  /-- A new layer was started, the publisher registers again. -/
  layer : Bool

/-- ecal/core/src/readwrite/ecal_writer.cpp L433-504, L731-767 -/
def seeSub (p : SubSeen) : List (Act Lk) :=
  event (.wEv p.writer) p.connected ++ event (.wEv p.writer) p.update ++
  (if p.layer then writerRegister p.writer else []) ++ touch (.wMap p.writer)

/-- One subscriber in the registration cycle, with the disconnected event and its callback;
ecal/core/src/readwrite/ecal_reader.cpp L547-565, L636, L776-796 -/
def cycleReader (r : Nat × Option (List Op)) : List (Act Lk) :=
  sect (.rMap r.1) .excl (event (.rEv r.1) r.2) ++ touch (.rFreq r.1)

/-- One publisher in the registration cycle; ecal/core/src/readwrite/ecal_writer.cpp L594-611, L690-704, L769-789 -/
def cycleWriter (w : Nat × Option (List Op)) : List (Act Lk) :=
  sect (.wMap w.1) .excl (event (.wEv w.1) w.2) ++ touch (.wFreq w.1) ++ touch (.wMap w.1)

/-- What a thread has to do. -/
inductive Work where
  /-- A thread of the user. -/
  | user (ops : List Op)
  /-- A transport layer delivers a sample. -/
  | sample (ds : List Delivery)
  /-- A registration sample of a publisher, or the end of it. -/
  | regPub (ps : List PubSeen)
  | unregPub (rs : List Nat)
  | regSub (ps : List SubSeen)
  | unregSub (ws : List Nat)
  /-- The registration cycle. -/
  | cycle (rs ws : List (Nat × Option (List Op)))

/-- * `sample`: ecal/core/src/pubsub/ecal_subgate.cpp L149-175, L189-207
* `regPub`, `unregPub`: ecal/core/src/registration/ecal_registration_sample_applier.cpp L51-58, ecal_subgate.cpp
  L254-274, L293-298
* `regSub`, `unregSub`: ecal/core/src/pubsub/ecal_pubgate.cpp L165-171, L190-196
* `cycle`: ecal/core/src/registration/ecal_registration_provider.cpp L141-178, ecal_subgate.cpp L305-310,
  ecal_pubgate.cpp L203-208 -/
def Work.acts : Work → List (Act Lk)
  | .user ops => opsActs ops
  | .sample ds => sect .subGate .shared [] ++ ds.flatMap deliver
  | .regPub ps => sect .applier .excl (sect .subGate .shared (ps.flatMap seePub))
  | .unregPub rs => sect .applier .excl (sect .subGate .shared (rs.flatMap (fun i => touch (.rMap i))))
  | .regSub ps => sect .applier .excl (sect .pubGate .shared (ps.flatMap seeSub))
  | .unregSub ws => sect .applier .excl (sect .pubGate .shared (ws.flatMap (fun j => touch (.wMap j))))
  | .cycle rs ws =>
    sect .subGate .shared (rs.flatMap cycleReader) ++ sect .pubGate .shared (ws.flatMap cycleWriter) ++ touch .regList

/-- The threads at their start. -/
def startAll (ws : List Work) : Sys Lk := start (ws.map Work.acts)

end Ecal.Sync.ApiLocks
