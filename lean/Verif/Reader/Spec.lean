import Verif.Reader.Model

/-!
# Specifications for reception (C06-C11)

They speak about the calls made on the subscriber and the samples it delivers only.
-/

namespace Ecal.Reader

/-- Samples delivered that come from publisher `tid`. -/
def fromPub (tid : String) (l : List Sample) : List Sample := l.filter (fun s => s.tid == tid)

/-- Number of send counters skipped between consecutive deliveries of the same publisher,
and the number of gaps.  `last` is the last delivered counter per publisher. -/
def lostAndGaps : (String → Option Int) → List Sample → Int × Int
  | _, [] => (0, 0)
  | last, s :: l =>
    let r := lostAndGaps (fun t => if t = s.tid then some s.clock else last t) l
    match last s.tid with
    | none => r
    | some k => if s.clock - k > 1 then (r.1 + (s.clock - k - 1), r.2 + 1) else r

/-- Number of skipped samples. -/
def lostCount (l : List Sample) : Int := (lostAndGaps (fun _ => none) l).1
/-- Number of places where something was skipped. -/
def gapCount (l : List Sample) : Int := (lostAndGaps (fun _ => none) l).2

/-- The layer a sample arrived on is switched off in the configuration. -/
def Disabled (c : Config) (l : Layer) : Prop :=
  (l = .udp ∧ c.udp = false) ∨ (l = .shm ∧ c.shm = false) ∨ (l = .tcp ∧ c.tcp = false)

instance (c : Config) (l : Layer) : Decidable (Disabled c l) := by unfold Disabled; infer_instance

/-- The ideal subscriber (out-of-order dropping on): a sample is delivered iff its layer is
enabled, its id is accepted and it is newer than everything delivered from its publisher. -/
def ideal (c : Config) (ids : List Int) : (String → Option Int) → List Sample → List Sample
  | _, [] => []
  | last, s :: l =>
    if ¬ Disabled c s.layer ∧ (ids = [] ∨ s.id ∈ ids) ∧
        (∀ k, last s.tid = some k → k < s.clock) then
      s :: ideal c ids (fun t => if t = s.tid then some s.clock else last t) l
    else ideal c ids last l

/-- The samples arriving in a history. -/
def arrivals (h : List Op) : List Sample :=
  h.filterMap (fun op => match op with | .sample s => some s | _ => none)

/-- The history neither changes the id filter nor stops the subscriber. -/
def Steady (h : List Op) : Prop := ∀ op ∈ h, (∀ ids, op ≠ .setId ids) ∧ op ≠ .stop

/-- Different samples have different hashes (equal hash means same publisher, counter and
id). -/
def HashesDistinct (l : List Sample) : Prop :=
  ∀ a ∈ l, ∀ b ∈ l, a.hash = b.hash → a.tid = b.tid ∧ a.clock = b.clock ∧ a.id = b.id

/-- One-place mailbox: every `Receive` that succeeds returns the newest sample put into the
buffer since the previous successful `Receive`; it fails only if there is none. -/
def MailboxOk : Option (List UInt8 × Int) → List Ev → Prop
  | _, [] => True
  | _, .buffered s :: l => MailboxOk (some (s.payload, s.time)) l
  | b, .readOk p t :: l => b = some (p, t) ∧ MailboxOk none l
  | b, .readEmpty :: l => b = none ∧ MailboxOk b l
  | b, _ :: l => MailboxOk b l

/-- All arrivals of one sample lie within 64 consecutive arrivals. -/
def Window (l : List Sample) : Prop :=
  ∀ i j, i < j → ∀ a b, l[i]? = some a → l[j]? = some b →
    a.tid = b.tid → a.clock = b.clock → j - i ≤ 64

end Ecal.Reader
