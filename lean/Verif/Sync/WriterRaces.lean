import Verif.Sync.Races

/-!
# What the threads of a process do with the data of one publisher

For every operation on a publisher - calls of the user, registrations of subscribers, the registration cycle, the
end of the publisher - the variables it touches, in program order, and the locks it holds meanwhile.

Simplifications:
* One publisher; its data is not touched by operations on other ones.
* The callbacks of events make no calls to the library.
* Zero copy is off (the payload is always copied), types and descriptions are shared.
* All three layers of the publisher are up when it describes itself (`sample`).
* Atomic variables (`m_connected`, `m_created` of the data writer) cannot race and are left out, and so are
  variables that are never written after the construction.
* `member` is not a lock of the code.  It stands for the fact that the gate finds a publisher only as long as it is in
  its map: finding it is holding `member` shared, removing it is taking `member` exclusively and keeping it for ever.  A thread that
  does not find the publisher waits for ever in the model; in the code it does nothing with it, like a thread
  without this operation.
-/

namespace Ecal.Sync.WriterRaces
open Ecal.Sync.Races

inductive Layer where
  | udp | shm | tcp
deriving DecidableEq, Repr

/-- * `applier`: `m_callback_custom_apply_sample_map_mtx` (ecal/core/src/registration/ecal_registration_sample_applier.cpp L53)
* `gate`: `m_topic_name_datawriter_sync` (ecal/core/src/pubsub/ecal_pubgate.h L67)
* `member`: see above
* `subMapL`, `evMapL`, `freqL`: `m_sub_map_mtx`, `m_event_callback_map_mtx`, `m_frequency_calculator_mtx`
  (ecal/core/src/readwrite/ecal_writer.h L171-181)
* `handlesL`: `m_event_handle_map_sync` (ecal/core/src/io/shm/ecal_memfile_sync.h L85)
* `regL`: `m_applied_sample_list_mtx` (ecal/core/src/registration/ecal_registration_provider.h L61) -/
inductive Lk where
  | applier | gate | member | subMapL | evMapL | freqL | handlesL | regL
deriving DecidableEq, Repr

/-- * `handle`: `m_datawriter`, `m_created` of the publisher; `pubId`: its `m_id` (ecal/core/include/ecal/ecal_publisher.h L284-286)
* `info`, `attr`, `size`, `payload`, `subMap`, `evMap`, `id`, `clock`, `freq`, `ptr`: members of the data writer
  (ecal/core/src/readwrite/ecal_writer.h L161-192)
* `enabled`, `active`, `readEn`: its `m_layers` (L194): `write_enabled`, `active`, `read_enabled`
* `fileName`, `file`, `handles`: `m_memfile_name` and `m_created`, `m_memfile`, `m_event_handle_map` of the memory files
  (ecal/core/src/io/shm/ecal_memfile_sync.h L73-86); `fileIdx`: `m_write_idx` (ecal/core/src/readwrite/shm/ecal_writer_shm.h L58)
* `regList`: `m_applied_sample_list` of the registration provider -/
inductive Var where
  | handle | pubId | info | attr | size | payload | subMap | evMap | id | clock | freq
  | ptr (l : Layer) | enabled (l : Layer) | active (l : Layer) | readEn (l : Layer)
  | fileName | file | fileIdx | handles | regList
deriving DecidableEq, Repr

abbrev Prog := List (Act Lk Var)

def rd (v : Var) : Prog := [.rd v]

def wr (v : Var) : Prog := [.wr v]

def under (l : Lk) (p : Prog) : Prog := sect l .excl p

inductive Op where
  /-- A send with subscribers over the layers given; `grow`: the memory file had to grow. -/
  | send (udp shm tcp grow : Bool)
  /-- A send without subscribers. -/
  | idle
  | setInfo
  | getInfo
  /-- Set or clear an attribute. -/
  | setAttr
  | setId
  /-- Add or remove an event callback. -/
  | setEvent
  /-- `IsSubscribed`, `GetSubscriberCount` -/
  | count
  | dump
  | destroy
  /-- `Finalize` stops the publishers that are left. -/
  | finalize
  /-- The registration of a subscriber; it starts a layer, or none; `connect`: it connects to the memory files. -/
  | applySub (start : Option Layer) (connect : Bool)
  | removeSub
  /-- The registration cycle. -/
  | cycle
deriving DecidableEq, Repr

/-- `RefreshSendCounter`: ecal/core/src/readwrite/ecal_writer.cpp L531-544 -/
def refresh : Prog := rd .clock ++ wr .clock ++ under .freqL (wr .freq)

/-- `GetFrequency`: ecal/core/src/readwrite/ecal_writer.cpp L951-956 -/
def frequency : Prog := under .freqL (wr .freq)

/-- A layer in the registration sample: ecal/core/src/readwrite/ecal_writer.cpp L644-684; the names of the memory files:
ecal/core/src/readwrite/shm/ecal_writer_shm.cpp L104-112 -/
def sampleLayer (l : Layer) : Prog :=
  rd (.ptr l) ++ rd (.enabled l) ++ rd (.active l) ++ (if l = .shm then rd .fileName else [])

/-- `GetRegistrationSample`: ecal/core/src/readwrite/ecal_writer.cpp L613-709 -/
def sample : Prog :=
  rd .info ++ rd .attr ++ rd .size ++ sampleLayer .udp ++ sampleLayer .shm ++ sampleLayer .tcp ++
  rd .id ++ rd .clock ++ frequency ++ under .subMapL (rd .subMap)

/-- `Register`: ecal/core/src/readwrite/ecal_writer.cpp L570-580,
ecal/core/src/registration/ecal_registration_provider.cpp L135-139 -/
def register : Prog := sample ++ under .regL (wr .regList)

/-- `Connect` of a memory file: ecal/core/src/io/shm/ecal_memfile_sync.cpp L51-91 -/
def connectFile : Prog := rd .fileName ++ under .handlesL (wr .handles)

/-- `Recreate` of a memory file: ecal/core/src/io/shm/ecal_memfile_sync.cpp L305-330, L277-303, L240-275 -/
def recreateFile : Prog :=
  under .handlesL (rd .handles) ++ wr .fileName ++ under .handlesL (wr .handles) ++ wr .file ++ wr .fileName ++ wr .file ++ connectFile

/-- The memory files in a send: ecal/core/src/readwrite/ecal_writer.cpp L204-262,
ecal/core/src/readwrite/shm/ecal_writer_shm.cpp L62-88, ecal/core/src/io/shm/ecal_memfile_sync.cpp L115-228, L332-394 -/
def sendShm (grow : Bool) : Prog :=
  rd .id ++ rd .clock ++ wr .fileIdx ++ rd .fileName ++ rd .file ++
  (if grow then recreateFile ++ register else []) ++
  rd .payload ++ rd .fileName ++ wr .file ++ under .handlesL (wr .handles) ++ wr .fileIdx ++ wr (.active .shm)

/-- A network layer in a send: ecal/core/src/readwrite/ecal_writer.cpp L269-313, L320-355 -/
def sendNet (l : Layer) : Prog := rd .id ++ rd .clock ++ rd .payload ++ wr (.active l)

/-- `Send`: ecal/core/src/pubsub/ecal_publisher.cpp L160-181, ecal/core/src/readwrite/ecal_writer.cpp L168-361, L896-913 -/
def sendActs (udp shm tcp grow : Bool) : Prog :=
  rd .handle ++ under .subMapL (rd .subMap) ++ rd .pubId ++ rd (.ptr .udp) ++ rd (.ptr .tcp) ++ wr .payload ++
  wr .id ++ refresh ++ rd .clock ++ wr .size ++
  rd (.ptr .shm) ++ (if shm then sendShm grow else []) ++
  rd (.ptr .udp) ++ (if udp then sendNet .udp else []) ++
  rd (.ptr .tcp) ++ (if tcp then sendNet .tcp else [])

/-- The end of a layer: ecal/core/src/readwrite/ecal_writer.cpp L869-894; with its memory files
(ecal/core/src/io/shm/ecal_memfile_sync.cpp L277-303) -/
def stopLayer (l : Layer) : Prog :=
  wr (.enabled l) ++ wr (.ptr l) ++ (if l = .shm then wr .fileName ++ under .handlesL (wr .handles) ++ wr .file else [])

/-- `Stop`: ecal/core/src/readwrite/ecal_writer.cpp L136-166 -/
def stop : Prog :=
  stopLayer .udp ++ stopLayer .shm ++ stopLayer .tcp ++ under .subMapL (wr .subMap) ++ under .evMapL (wr .evMap) ++
  under .regL (wr .regList)

/-- The gate finds the publisher in its map. -/
def found (p : Prog) : Prog := sect .member .shared p

/-- The registration of a subscriber: ecal/core/src/readwrite/ecal_writer.cpp L433-504, L731-767, L791-867,
ecal/core/src/readwrite/shm/ecal_writer_shm.cpp L90-102 -/
def applyActs (start : Option Layer) (connect : Bool) : Prog :=
  under .evMapL (rd .evMap) ++ wr (.readEn .udp) ++ wr (.readEn .shm) ++ wr (.readEn .tcp) ++
  (match start with
   | some l => rd (.enabled l) ++ wr (.enabled l) ++ wr (.ptr l) ++ register
   | none => rd (.enabled .udp) ++ rd (.enabled .shm) ++ rd (.enabled .tcp)) ++
  under .subMapL (wr .subMap) ++ rd (.ptr .udp) ++ rd (.ptr .shm) ++ (if connect then connectFile else []) ++ rd (.ptr .tcp)

/-- * the calls of the user: ecal/core/src/pubsub/ecal_publisher.cpp L109-241, ecal/core/src/readwrite/ecal_writer.cpp L363-431,
  L546-568, ecal/core/src/readwrite/ecal_writer.h L113-126
* `destroy`: ecal_publisher.cpp L109-128, ecal/core/src/pubsub/ecal_pubgate.cpp L93-111
* `finalize`: ecal_pubgate.cpp L57-70
* `applySub`, `removeSub`: ecal/core/src/registration/ecal_registration_sample_applier.cpp L52-58, ecal_pubgate.cpp
  L165-171, L190-196, ecal_writer.cpp L506-529
* `cycle`: ecal_pubgate.cpp L203-208, ecal_writer.cpp L594-611, L769-789 -/
def Op.acts : Op → Prog
  | .send udp shm tcp grow => sendActs udp shm tcp grow
  | .idle => rd .handle ++ under .subMapL (rd .subMap) ++ refresh
  | .setInfo => rd .handle ++ wr .info
  | .getInfo => rd .handle ++ rd .info
  | .setAttr => rd .handle ++ wr .attr
  | .setId => wr .pubId
  | .setEvent => rd .handle ++ under .evMapL (wr .evMap) ++ under .evMapL (wr .evMap)
  | .count => rd .handle ++ under .subMapL (rd .subMap)
  | .dump => rd .handle ++ rd .info ++ rd .id ++ rd .clock ++ frequency
  | .destroy => rd .handle ++ under .gate [.acq .member .excl] ++ stop ++ wr .handle
  | .finalize => under .gate (found stop)
  | .applySub start connect => under .applier (sect .gate .shared (found (applyActs start connect)))
  | .removeSub =>
    under .applier (sect .gate .shared (found (under .subMapL (wr .subMap) ++ rd (.ptr .udp) ++ rd (.ptr .shm) ++ rd (.ptr .tcp))))
  | .cycle => sect .gate .shared (found (under .subMapL (wr .subMap ++ under .evMapL (rd .evMap)) ++ sample))

/-- Threads that make sequences of operations. -/
def startAll (ts : List (List Op)) : Sys Lk Var := start (ts.map (fun ops => ops.flatMap Op.acts))

end Ecal.Sync.WriterRaces
