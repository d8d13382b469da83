import Verif.Writer.Model

/-! # Specification of layer choice, send counter and end-to-end delivery (C12, C15, C56, C59) -/

namespace Ecal.Writer

/-- The subscriber announced layer `l` as usable: enabled, or a version without this flag. -/
def Announced (ls : List Gate.Layer) (l : TL) : Prop :=
  ∃ x ∈ ls, (x.enabled = true ∨ x.version < 2) ∧
    ((l = .udp ∧ x.type = .udp) ∨ (l = .shm ∧ x.type = .shm) ∨ (l = .tcp ∧ x.type = .tcp))

/-- The publisher has layer `l` enabled. -/
def Configured (c : Config) (l : TL) : Prop :=
  (l = .udp ∧ c.udp = true) ∨ (l = .shm ∧ c.shm = true) ∨ (l = .tcp ∧ c.tcp = true)

/-- Layer `l` is the first one of the priority list both sides can use. -/
def FirstCommon (c : Config) (prio : List TL) (ls : List Gate.Layer) (l : TL) : Prop :=
  ∃ pre post, prio = pre ++ l :: post ∧ Configured c l ∧ Announced ls l ∧
    ∀ x ∈ pre, ¬ (Configured c x ∧ Announced ls x)

/-- The layer a subscription calls for. -/
def Wanted (c : Config) (p : Conn.Peer) (ls : List Gate.Layer) (l : TL) : Prop :=
  (p.host = c.host ∧ FirstCommon c c.prioLocal ls l) ∨
  (p.host ≠ c.host ∧ FirstCommon c c.prioRemote ls l)

/-- Layer `l` is started. -/
def Started (st : State) (l : TL) : Prop :=
  (l = .udp ∧ st.udp = true) ∨ (l = .shm ∧ st.shm = true) ∨ (l = .tcp ∧ st.tcp = true)

/-- The messages sent in a history, in order. -/
def sent (h : List Op) : List Msg :=
  h.filterMap (fun op => match op with | .send m => some m | _ => none)

/-- A sample without the layer it arrived on. -/
def strip (s : Reader.Sample) : List UInt8 × Int × Int := (s.payload, s.time, s.id)

def Msg.strip (m : Msg) : List UInt8 × Int × Int := (m.payload, m.time, m.id)

end Ecal.Writer
