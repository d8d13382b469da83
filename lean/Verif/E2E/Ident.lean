import Verif.Writer.Model
import Verif.Reader.Model
import Verif.Mon.Monitor

/-!
# Identities of publishers

Every publisher, subscriber, server and client makes its identity out of the steady clock alone: the number of
ticks since the clock's epoch, as decimal text (core/src/readwrite/ecal_writer.cpp L113-116,
core/src/readwrite/ecal_reader.cpp L87-90, core/src/service/ecal_service_client_impl.cpp L83-86,
core/src/service/ecal_service_server_impl.cpp L70-73).  A steady clock does not go back, but two readings may be
equal, and the clocks of two hosts have nothing to do with each other.

Modelled: any number of publishers of one topic, on any hosts, created at any clock readings, and the samples
they send to one subscriber.  Simplifications: clock readings are natural numbers (the epoch of the steady clock
lies in the past); every sample is handed to one layer and arrives, in the order of sending (loss, copies over
several layers and reordering are in `Verif.Reader` and `Verif.Writer`).
-/

namespace Ecal.E2E.Ident

/-- The identity made from a clock reading (ecal_writer.cpp L114-116). -/
def idOf (tick : Nat) : String := String.ofList (Mon.toDec tick)

/-- A publisher: where it lives, the clock reading of its construction, `m_clock`. -/
structure Obj where
  host  : String
  pid   : Int
  tick  : Nat
  clock : Nat
deriving Repr, DecidableEq

/-- As another process knows it (`SPublicationInfo`, ecal_reader.h L67-78; filled from the registration). -/
def Obj.peer (o : Obj) : Conn.Peer := ⟨o.host, o.pid, idOf o.tick⟩

/-- The part of the publisher's configuration samples are built from (ecal_writer.cpp L896-913); `H` is
`std::hash<std::string>`. -/
def wcfg (H : String → BitVec 64) (tick : Nat) : Writer.Config :=
  { udp := true, shm := true, tcp := true, prioLocal := [], prioRemote := [], zeroCopy := false, host := "",
    tid := idOf tick, tidHash := H (idOf tick) }

inductive Op where
  | create (host : String) (pid : Int) (tick : Nat)       -- constructor of CDataWriter (L96-124)
  | send (i : Nat) (m : Writer.Msg) (l : Reader.Layer)    -- CPublisher::Send of the i-th publisher
deriving Repr, DecidableEq

/-- One step; the samples sent, with the index of their publisher. -/
def step (H : String → BitVec 64) (w : List Obj) : Op → List Obj × List (Nat × Reader.Sample)
  | .create host pid tick => (w ++ [⟨host, pid, tick, 0⟩], [])
  | .send i m l =>
    match w[i]? with
    | none => (w, [])
    | some o =>
      (w.set i { o with clock := o.clock + 1 }, [(i, Writer.copyOf (wcfg H o.tick) (o.clock + 1) m l)])

def run (H : String → BitVec 64) : List Obj → List Op → List Obj × List (Nat × Reader.Sample)
  | w, [] => (w, [])
  | w, op :: h =>
    let r := step H w op
    let r2 := run H r.1 h
    (r2.1, r.2 ++ r2.2)

/-- What the subscriber hands to the application. -/
def received (H : String → BitVec 64) (rc : Reader.Config) (h : List Op) : List Reader.Sample :=
  Reader.delivered (Reader.run rc Reader.init (((run H [] h).2.map Prod.snd).map .sample)).2

/-- A publisher as the monitoring knows it. -/
def Obj.ident (o : Obj) (topic : List Char) : Mon.Ident :=
  ⟨o.host.toList, topic, Mon.toDec o.tick, o.pid.toNat⟩

end Ecal.E2E.Ident
