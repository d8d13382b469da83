import Verif.Sync.Races

/-!
# What the threads of a process do with the data of one service server

For every operation on a service server - calls of the user, requests, connections, the registration cycle, the end of the server - the
variables it touches, in program order, and the locks it holds meanwhile.

Simplifications:
* One server; its data is not touched by operations on other ones.
* Callbacks make no calls to the library; both protocol versions are enabled; a build without the additional log lines of debug builds.
* Atomic variables (`m_created` of the implementation) cannot race and are left out, and so is what `Start` does before the first server is
  there.
* `member` is not a lock of the code but the membership in the set of the gate, as in `Verif/Sync/WriterRaces.lean`.
* `pool` is not a lock of the code either: requests and events run in the service threads, and `Finalize` waits for the end of these threads
  before it stops the gates (ecal/core/src/ecal_globals.cpp L292-294; C85, `C85_stopped_quiet`).
-/

namespace Ecal.Sync.ServerRaces
open Ecal.Sync.Races

/-- * `gate`: `m_service_set_sync` (ecal/core/src/service/ecal_servicegate.h L55)
* `methodL`, `evL`, `connL`: `m_method_map_sync`, `m_event_callback_map_sync`, `m_connected_mutex`
  (ecal/core/src/service/ecal_service_server_impl.h L120-127)
* `regL`: `m_applied_sample_list_mtx` (ecal/core/src/registration/ecal_registration_provider.h L61) -/
inductive Lk where
  | gate | member | pool | methodL | evL | connL | regL
deriving DecidableEq, Repr

/-- * `handle`: `m_service_server_impl`, `m_created` of the server (ecal/core/include/ecal/ecal_server.h L157-158)
* `srv0`, `srv1`, `name`, `sid`, `methods`, `evMap`, `conn`: members of the implementation; `conn` stands for both flags of connected
  protocols (ecal/core/src/service/ecal_service_server_impl.h L105-129)
* `regList`: `m_applied_sample_list` of the registration provider -/
inductive Var where
  | handle | srv0 | srv1 | name | sid | methods | evMap | conn | regList
deriving DecidableEq, Repr

abbrev Prog := List (Act Lk Var)

def rd (v : Var) : Prog := [.rd v]

def wr (v : Var) : Prog := [.wr v]

def under (l : Lk) (p : Prog) : Prog := sect l .excl p

inductive Op where
  /-- The user creates the server; the part from the moment the first TCP server is there. -/
  | create
  /-- A request of a client. -/
  | request
  /-- A client connected or disconnected; `changed`: the state of the server changes by this. -/
  | event (changed : Bool)
  /-- Add or remove a method or a description. -/
  | setMethod
  /-- Add or remove an event callback. -/
  | setEvent
  | isConnected
  | getName
  | destroy
  /-- `Finalize` stops the servers that are left. -/
  | finalize
  /-- The registration cycle. -/
  | cycle
deriving DecidableEq, Repr

/-- `Stop`: ecal/core/src/service/ecal_service_server_impl.cpp L134-173, L356-374, L388-398 -/
def stop : Prog :=
  under .methodL (wr .methods) ++ under .evL (wr .evMap) ++ rd .srv0 ++ rd .srv1 ++ rd .name ++ rd .sid ++ under .regL (wr .regList) ++
  wr .name ++ wr .sid ++ under .connL (wr .conn)

/-- `GetRegistrationSample`: ecal/core/src/service/ecal_service_server_impl.cpp L310-354 -/
def sample : Prog := rd .srv0 ++ rd .srv1 ++ rd .sid ++ rd .name ++ under .methodL (rd .methods)

/-- `EventCallback`: ecal/core/src/service/ecal_service_server_impl.cpp L482-543 -/
def eventActs (changed : Bool) : Prog :=
  under .connL (rd .conn ++ rd .srv0 ++ rd .srv1 ++ (if changed then wr .conn ++ rd .name else [])) ++
  (if changed then under .evL (rd .evMap ++ rd .name) else [])

/-- The gate finds the server in its set. -/
def found (p : Prog) : Prog := sect .member .shared p

/-- * `create`: ecal/core/src/service/ecal_service_server.cpp L73-86, ecal/core/src/service/ecal_service_server_impl.cpp L116-129,
  ecal/core/src/service/ecal_servicegate.cpp L63-72. The server gets into the set of the gate at the end.
* the other calls of the user: ecal_service_server.cpp L119-208, ecal_service_server_impl.cpp L175-295
* `request`: ecal_service_server_impl.cpp L400-480
* `destroy`: ecal_service_server.cpp L93-106, ecal_servicegate.cpp L74-95
* `finalize`: ecal_servicegate.cpp L49-61 (the lock of the gate is shared)
* `cycle`: ecal_servicegate.cpp L97-107 -/
def Op.acts : Op → Prog
  | .create => [.acq .member .excl] ++ wr .srv0 ++ wr .srv1 ++ wr .handle ++ under .gate [.rel .member] ++ wr .handle
  | .request => sect .pool .shared (rd .name ++ rd .sid ++ under .methodL (wr .methods))
  | .event changed => sect .pool .shared (eventActs changed)
  | .setMethod => rd .handle ++ under .methodL (wr .methods)
  | .setEvent => rd .handle ++ under .evL (wr .evMap)
  | .isConnected => rd .handle ++ rd .srv0 ++ rd .srv1
  | .getName => rd .handle ++ rd .name
  | .destroy => rd .handle ++ wr .handle ++ under .gate [.acq .member .excl] ++ stop ++ wr .handle
  | .finalize => [.acq .pool .excl] ++ sect .gate .shared (found stop)
  | .cycle => sect .gate .shared (found sample)

/-- Threads that make sequences of operations. -/
def startAll (ts : List (List Op)) : Sys Lk Var := start (ts.map (fun ops => ops.flatMap Op.acts))

end Ecal.Sync.ServerRaces
