import Verif.Common.AMap

/-!
# Subscriber side reception: `CDataReader` (core/src/readwrite/ecal_reader.cpp)

`ApplySample` runs completely under `m_receive_callback_mtx`; the receive buffer has its
own mutex; so each call below is one atomic step and any interleaving of receiving threads
and application threads is a list of such steps.
-/

namespace Ecal.Reader

/-- `eTLayerType` as far as `ApplySample` distinguishes it. -/
inductive Layer where
  | udp | shm | tcp | other
deriving Repr, DecidableEq

/-- Parameters of one `ApplySample` call (L368).  `tid` is the publisher's topic id,
`clock` its send counter, `hash` the sample hash computed by the publisher. -/
structure Sample where
  tid     : String
  payload : List UInt8
  id      : Int
  clock   : Int
  time    : Int
  hash    : Nat
  layer   : Layer
deriving Repr, DecidableEq

/-- Configuration used by reception: `m_config.layer.{udp,shm,tcp}.enable` and
`Config::Experimental::GetDropOutOfOrderMessages()` (default true,
core/include/ecal/config/subscriber.h L73). -/
structure Config where
  udp  : Bool
  shm  : Bool
  tcp  : Bool
  drop : Bool
deriving Repr, DecidableEq

/-- Members of `CDataReader` used by reception (core/src/readwrite/ecal_reader.h L146-193).
Not modelled here: frequency statistics (own model), `m_receive_time`. `buf` is
`m_read_buf`/`m_read_time` together with the flag `m_read_buf_received`; `hasCb` says
whether a receive callback is set. -/
structure State where
  created : Bool
  active  : List Layer                 -- layers flagged active
  hashQ   : List Nat                   -- m_sample_hash_queue, oldest first
  idSet   : List Int                   -- m_id_set
  clocks  : AMap String Int            -- m_writer_counter_map
  drops   : Int                        -- m_message_drops
  clock   : Nat                        -- m_clock
  size    : Nat                        -- m_topic_size
  hasCb   : Bool
  buf     : Option (List UInt8 × Int)
deriving Repr, DecidableEq

/-- A created reader (constructor L65-101). -/
def init : State :=
  { created := true, active := [], hashQ := [], idSet := [], clocks := [], drops := 0,
    clock := 0, size := 0, hasCb := false, buf := none }

/-- `hash_queue_size` (L395). -/
def hashQueueSize : Nat := 64

/-- Layer check of `ApplySample` (L374-388). -/
def layerEnabled (c : Config) : Layer → Bool
  | .udp => c.udp
  | .shm => c.shm
  | .tcp => c.tcp
  | .other => true

/-- `while (size() > 64) pop_front()` (L411). -/
def trim (q : List Nat) : List Nat := q.drop (q.length - hashQueueSize)

/-- `CheckMessageClock` (L798-915): accepted?, new counter map, increment of the drop
counter, clock of the drop event if one is fired. -/
def checkClock (drop : Bool) (m : AMap String Int) (tid : String) (cur : Int) :
    Bool × AMap String Int × Int × Option Int :=
  match m.find tid with
  | none => (true, m.set tid cur, 0, none)
  | some last =>
    let d := cur - last
    if d = 1 then (true, m.set tid cur, 0, none)
    else if d = 0 then (false, m, 0, none)
    else if d > 1 then (true, m.set tid cur, d, some cur)
    else if drop then (false, m, 0, none)
    else (true, m, 0, none)

/-- Observable effects of a call. -/
inductive Ev where
  | callback (s : Sample)                       -- receive callback invoked with the sample
  | buffered (s : Sample)                       -- sample put into the receive buffer
  | dropEvent (clock : Int)                     -- sub_event_dropped
  | readOk (payload : List UInt8) (time : Int)  -- Receive() returned this sample
  | readEmpty                                   -- Receive() returned false
deriving Repr, DecidableEq

/-- `ApplySample` (L368-495). -/
def applySample (c : Config) (st : State) (s : Sample) : State × List Ev :=
  if !st.created then (st, []) else
  if !layerEnabled c s.layer then (st, []) else
  let st := { st with active := if s.layer ∈ st.active then st.active else s.layer :: st.active }
  if s.hash ∈ st.hashQ then (st, []) else
  let st := { st with hashQ := trim (st.hashQ ++ [s.hash]) }
  if !st.idSet.isEmpty && !(s.id ∈ st.idSet) then (st, []) else
  let r := checkClock c.drop st.clocks s.tid s.clock
  let dropEv := match r.2.2.2 with | some k => [Ev.dropEvent k] | none => []
  let st := { st with clocks := r.2.1, drops := st.drops + r.2.2.1 }
  if !r.1 then (st, dropEv) else
  let st := { st with clock := st.clock + 1, size := s.payload.length }
  if st.hasCb then (st, dropEv ++ [.callback s])
  else ({ st with buf := some (s.payload, s.time) }, dropEv ++ [.buffered s])

/-- `Read` (L146-185) at the moment it tests the flag (for the blocking variants: after the
wait on the condition variable has ended). -/
def read (st : State) : State × List Ev :=
  if !st.created then (st, [.readEmpty]) else
  match st.buf with
  | some (p, t) => ({ st with buf := none }, [.readOk p t])
  | none => (st, [.readEmpty])

/-- Calls on a subscriber. -/
inductive Op where
  | sample (s : Sample)      -- ApplySample by a transport layer
  | read                     -- Read
  | addCb                    -- AddReceiveCallback (L187-203)
  | remCb                    -- RemReceiveCallback (L205-220)
  | setId (ids : List Int)   -- SetID (L279-282)
  | stop                     -- Stop (L114-144)
deriving Repr, DecidableEq

def step (c : Config) (st : State) : Op → State × List Ev
  | .sample s  => applySample c st s
  | .read      => read st
  | .addCb     => (if st.created then { st with hasCb := true } else st, [])
  | .remCb     => (if st.created then { st with hasCb := false } else st, [])
  | .setId ids => ({ st with idSet := ids }, [])
  | .stop      => (if st.created then { st with created := false, hasCb := false } else st, [])

/-- A history with its observable effects in order. -/
def run (c : Config) : State → List Op → State × List Ev
  | st, [] => (st, [])
  | st, op :: h =>
    let r := step c st op
    let r2 := run c r.1 h
    (r2.1, r.2 ++ r2.2)

/-- The sample delivered to the application by an effect, if any. -/
def Ev.sample? : Ev → Option Sample
  | .callback s => some s
  | .buffered s => some s
  | _ => none

/-- All samples delivered to the application, in order. -/
def delivered (evs : List Ev) : List Sample := evs.filterMap Ev.sample?

end Ecal.Reader
