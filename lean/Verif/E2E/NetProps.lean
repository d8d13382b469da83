import Verif.E2E.Net
import Verif.Writer.Props
import Verif.Udp.FrameProps
import Verif.Wire.PayloadProps

/-! # Property C104: samples over the network, from `Send` to the subscriber -/

namespace Ecal.E2E

open Ecal.Wire (PayloadSample)

/-! ## Specification -/

/-- An input that does not claim to come from the publisher with this id. -/
def Foreign (tid : Bytes) : In → Prop
  | .udp (.datagram d) => ∀ name data m, Udp.decode d = .sample name data →
      Wire.deserializePayload {} data = some m → m.tid ≠ tid
  | .udp .error => True
  | .tcp msg _ => ∀ last h p, Wire.tcpRead last msg = .sample h p → h.tid ≠ tid
  | .app (.sample s) => s.tid ≠ str tid
  | .app _ => True

/-- An input that is the copy `s` of a sample, sent by the publisher. -/
def Carries (n : Names) (s : Reader.Sample) : In → Prop
  | .udp (.datagram d) => s.layer = .udp ∧ d = datagram n s ∧ d.length < 2 ^ 32
  | .udp .error => False
  | .tcp msg _ => s.layer = .tcp ∧ tcpMessage n s = .ok msg ∧ s.payload.length < 2 ^ 31
  | .app op => op = .sample s

/-- Times and ids are 64-bit numbers; fewer than 2^63 sends. -/
def Sane (h : List Writer.Op) : Prop :=
  (Writer.sent h).length < 2 ^ 63 ∧
  ∀ m ∈ Writer.sent h, (-2 ^ 63 ≤ m.time ∧ m.time < 2 ^ 63) ∧ (-2 ^ 63 ≤ m.id ∧ m.id < 2 ^ 63)

/-- Names a publisher can have: non-empty topic name without zero byte that fits the size field,
non-empty id. -/
def Names.Ok (n : Names) : Prop :=
  n.topic ≠ [] ∧ (0 : UInt8) ∉ n.topic ∧ n.topic.length < 65535 ∧ n.tid ≠ []

/-! ## Lemmas -/

theorem str_inj {a b : Bytes} (h : str a = str b) : a = b := by
  unfold str at h
  have h1 := String.ofList_injective h
  clear h
  induction a generalizing b with
  | nil => cases b <;> simp_all
  | cons x a ih =>
    cases b with
    | nil => simp at h1
    | cons y b =>
      simp only [List.map_cons, List.cons.injEq] at h1
      have hxy : x = y := by
        have h2 := congrArg Char.toNat h1.1
        have key : ∀ z : UInt8, (Char.ofNat z.toNat).toNat = z.toNat := by
          intro z
          have hz := z.toNat_lt
          have hv : z.toNat.isValidChar := Or.inl (by omega)
          simp [Char.ofNat, hv, Char.ofNatAux, Char.toNat]
        rw [key, key] at h2
        exact UInt8.toNat_inj.1 h2
      rw [hxy, ih h1.2]

theorem toInt_ofInt64 (x : Int) (h : -2 ^ 63 ≤ x ∧ x < 2 ^ 63) : (BitVec.ofInt 64 x).toInt = x := by
  rw [BitVec.toInt_ofInt, Int.bmod_def]
  simp only [Int.reducePow, Nat.reducePow] at *
  omega

/-- A copy, as it was handed over. -/
structure Copy (wc : Writer.Config) (h : List Writer.Op) (s : Reader.Sample) : Prop where
  mem  : ∃ cs ∈ (Writer.run wc Writer.init h).2, s ∈ cs

theorem Copy.ranges {wc h s} (c : Copy wc h s) (hs : Sane h) :
    s.tid = wc.tid ∧ (-2 ^ 63 ≤ s.time ∧ s.time < 2 ^ 63) ∧ (-2 ^ 63 ≤ s.id ∧ s.id < 2 ^ 63) ∧
      (-2 ^ 63 ≤ s.clock ∧ s.clock < 2 ^ 63) ∧ s.hash < 2 ^ 64 := by
  obtain ⟨cs, hcs, hmem⟩ := c.mem
  obtain ⟨i, m, l, hm, rfl⟩ := Writer.run_copies wc h Writer.init cs hcs s hmem
  have hi := (List.getElem?_eq_some_iff.1 hm).1
  have hmm := hs.2 m (List.mem_of_getElem? hm)
  have := hs.1
  refine ⟨rfl, hmm.1, hmm.2, ?_, BitVec.isLt _⟩
  simp only [Writer.copyOf, Writer.init]
  constructor <;> omega

theorem fromWire_eq (n : Names) (wc : Writer.Config) (h : List Writer.Op) (s : Reader.Sample)
    (c : Copy wc h s) (hs : Sane h) (ht : wc.tid = str n.tid) (m : PayloadSample)
    (h1 : m.tid = n.tid) (h2 : m.id = .ofInt 64 s.id) (h3 : m.clock = .ofInt 64 s.clock)
    (h4 : m.time = .ofInt 64 s.time) (h5 : m.hash = .ofNat 64 s.hash) :
    fromWire m s.payload s.layer = s := by
  obtain ⟨r1, r2, r3, r4, r5⟩ := c.ranges hs
  have hh : (BitVec.ofNat 64 s.hash).toNat = s.hash := by
    rw [BitVec.toNat_ofNat]; exact Nat.mod_eq_of_lt r5
  unfold fromWire
  rw [h1, h2, h3, h4, h5, toInt_ofInt64 _ r2, toInt_ofInt64 _ r3, toInt_ofInt64 _ r4, hh, ← ht, ← r1]

theorem datagram_parsed (n : Names) (hn : n.Ok) (s : Reader.Sample) (hl : (datagram n s).length < 2 ^ 32) :
    Udp.decode (datagram n s) = .sample n.topic (Wire.serializePayload (udpSample n s)) ∧
    Wire.deserializePayload {} (Wire.serializePayload (udpSample n s)) = some (udpSample n s) := by
  refine ⟨Udp.C23_roundtrip _ _ hn.2.1 hn.2.2.1, Wire.C27_roundtrip _ ?_⟩
  unfold datagram Udp.encode at hl
  simp only [List.length_append] at hl
  omega

/-- What a step does to the subscriber: nothing, or one call. -/
theorem step_ops (rc : Reader.Config) (has : Bytes → Bool) (topic : Bytes) (r r' : Rcv) (i : In)
    (h : step rc has topic r i = some r') :
    (r'.rd = r.rd ∧ r'.evs = r.evs) ∨
    ∃ op, r'.rd = (Reader.step rc r.rd op).1 ∧ r'.evs = r.evs ++ (Reader.step rc r.rd op).2 ∧
      (i = .app op ∨
       (∃ d name data m, i = .udp (.datagram d) ∧ Udp.decode d = .sample name data ∧
          Wire.deserializePayload {} data = some m ∧ op = .sample (fromWire m m.payload .udp)) ∨
       (∃ msg left hd p, i = .tcp msg left ∧ Wire.tcpRead r.hdr msg = .sample hd p ∧
          op = .sample (fromWire hd p .tcp))) := by
  cases i with
  | app op =>
    simp only [step, Option.some.injEq] at h
    exact .inr ⟨op, by rw [← h]; rfl, by rw [← h]; rfl, .inl rfl⟩
  | tcp msg left =>
    simp only [step] at h
    split at h
    · cases h
    · simp only [Option.some.injEq] at h
      exact .inl (by rw [← h]; exact ⟨rfl, rfl⟩)
    · next hd p hr =>
      simp only [Option.some.injEq] at h
      split at h
      · exact .inr ⟨.sample (fromWire hd p .tcp), by rw [← h]; rfl, by rw [← h]; rfl,
          .inr (.inr ⟨msg, left, hd, p, rfl, hr, rfl⟩)⟩
      · exact .inl (by rw [← h]; exact ⟨rfl, rfl⟩)
  | udp e =>
    simp only [step, Udp.rx] at h
    by_cases ha : r.armed
    · simp only [ha, Bool.not_true, Bool.false_eq_true, if_false] at h
      cases e with
      | error =>
        simp only [Option.some.injEq] at h
        exact .inl (by rw [← h]; exact ⟨rfl, rfl⟩)
      | datagram d =>
        simp only at h
        cases hd : Udp.decode d with
        | overread => simp [hd] at h
        | damaged =>
          simp only [hd, Option.some.injEq] at h
          exact .inl (by rw [← h]; exact ⟨rfl, rfl⟩)
        | sample name data =>
          simp only [hd, Option.some.injEq] at h
          by_cases hh : has name
          · simp only [hh, if_true, List.nil_append, List.foldl_cons, List.foldl_nil] at h
            unfold subApply at h
            split at h
            · exact .inl (by rw [← h]; exact ⟨rfl, rfl⟩)
            · next m hm =>
              split at h
              · exact .inr ⟨_, by rw [← h]; rfl, by rw [← h]; rfl,
                  .inr (.inl ⟨d, name, data, m, rfl, hd, hm, rfl⟩)⟩
              · exact .inl (by rw [← h]; exact ⟨rfl, rfl⟩)
          · simp only [hh, Bool.false_eq_true, if_false, List.foldl_nil] at h
            exact .inl (by rw [← h]; exact ⟨rfl, rfl⟩)
    · simp only [ha, Bool.not_false, if_true, Option.some.injEq, List.foldl_nil] at h
      exact .inl (by rw [← h]; exact ⟨rfl, rfl⟩)

theorem arrivals_cons (op : Reader.Op) (a : List Reader.Op) (s : Reader.Sample) :
    s ∈ Reader.arrivals (op :: a) ↔ op = .sample s ∨ s ∈ Reader.arrivals a := by
  unfold Reader.arrivals
  cases op <;> simp [eq_comm]

/-- The inputs amount to a list of calls on the subscriber in which everything under the
publisher's id is one of its copies. -/
theorem run_calls (n : Names) (hn : n.Ok) (wc : Writer.Config) (ht : wc.tid = str n.tid)
    (h : List Writer.Op) (hs : Sane h) (rc : Reader.Config) (has : Bytes → Bool) (ins : List In)
    (hi : ∀ i ∈ ins, Foreign n.tid i ∨ ∃ s, Copy wc h s ∧ Carries n s i) (r r' : Rcv)
    (hr : run rc has n.topic r ins = some r') :
    ∃ a, r'.rd = (Reader.run rc r.rd a).1 ∧ r'.evs = r.evs ++ (Reader.run rc r.rd a).2 ∧
      ∀ s ∈ Reader.arrivals a, s.tid = wc.tid → Copy wc h s := by
  induction ins generalizing r with
  | nil =>
    simp only [run, Option.some.injEq] at hr
    exact ⟨[], by rw [hr]; rfl, by rw [hr]; simp [Reader.run], by simp [Reader.arrivals]⟩
  | cons i ins ih =>
    simp only [run] at hr
    cases hst : step rc has n.topic r i with
    | none => simp [hst] at hr
    | some r1 =>
      simp only [hst] at hr
      obtain ⟨a, h1, h2, h3⟩ := ih (fun j hj => hi j (by simp [hj])) r1 hr
      rcases step_ops rc has n.topic r r1 i hst with ⟨e1, e2⟩ | ⟨op, e1, e2, hop⟩
      · exact ⟨a, by rw [h1, e1], by rw [h2, e1, e2], h3⟩
      · refine ⟨op :: a, by rw [h1, e1]; rfl, by rw [h2, e1, e2]; simp [Reader.run], ?_⟩
        intro s hsm htid
        rcases (arrivals_cons op a s).1 hsm with hos | hos
        · -- the call made by this input
          rcases hi i (by simp) with hf | ⟨s0, hc, hcar⟩
          · exfalso
            rcases hop with rfl | ⟨d, name, data, m, rfl, hd, hm, rfl⟩ | ⟨msg, left, hd, p, rfl, hrd, rfl⟩
            · subst hos; exact hf (htid.trans ht)
            · injection hos with hos
              have : str m.tid = str n.tid := by rw [← ht, ← htid, ← hos]; rfl
              exact hf name data m hd hm (str_inj this)
            · injection hos with hos
              have : str hd.tid = str n.tid := by rw [← ht, ← htid, ← hos]; rfl
              exact hf _ hd p hrd (str_inj this)
          · rcases hop with rfl | ⟨d, name, data, m, rfl, hd, hm, rfl⟩ | ⟨msg, left, hd, p, rfl, hrd, rfl⟩
            · subst hos
              have : Reader.Op.sample s = .sample s0 := hcar
              injection this with this
              exact this ▸ hc
            · obtain ⟨hl, rfl, hlen⟩ := hcar
              obtain ⟨p1, p2⟩ := datagram_parsed n hn s0 hlen
              rw [p1] at hd
              injection hd with _ hd
              rw [← hd, p2] at hm
              injection hm with hm
              injection hos with hos
              have := fromWire_eq n wc h s0 hc hs ht (udpSample n s0) rfl rfl rfl rfl rfl
              rw [hl] at this
              rw [← hos, ← hm, show (udpSample n s0).payload = s0.payload from rfl, this]
              exact hc
            · obtain ⟨hl, hmsg, hlen⟩ := hcar
              obtain ⟨hdr, q1, q2, q3, q4, q5, q6, q7, _, _⟩ :=
                Wire.C31_received _ _ _ _ _ _ _ _ r.hdr hn.1 hn.2.2.2 hlen hmsg
              rw [q1] at hrd
              injection hrd with e1 e2
              injection hos with hos
              have := fromWire_eq n wc h s0 hc hs ht hdr q3 q4 q5 q6 q7
              rw [hl] at this
              rw [← hos, ← e1, ← e2, this]
              exact hc
        · exact h3 s hos htid

/-! ## C104 -/

def exN : Names := ⟨[104], [116], [49]⟩
def exC : Writer.Config := { Writer.cfg with tid := str exN.tid }
def exSub : Writer.Op := .applySub ⟨"h2", 1, "b"⟩ [⟨.udp, 2, true⟩]
def exRc : Reader.Config := ⟨true, true, true, true⟩
def exH : List Writer.Op := [exSub, .send ⟨[1, 2], 10, 0⟩, .send ⟨[], 20, -1⟩, .send ⟨[3], 30, 5⟩]

/-- **C104 (safety).** A publisher sends, a subscriber in another process receives: over UDP,
TCP and shared memory, whatever is lost, duplicated or reordered on the way and whatever else
comes in from others (damaged and malicious bytes included, as long as they do not claim the
publisher's id and the process survives), the messages the application gets from that
publisher are a subsequence of those sent, with payload, time and id as sent. -/
theorem C104_delivered_is_subsequence (n : Names) (hn : n.Ok) (wc : Writer.Config)
    (ht : wc.tid = str n.tid) (h : List Writer.Op) (hs : Sane h) (rc : Reader.Config)
    (hd : rc.drop = true) (has : Bytes → Bool) (ins : List In)
    (hi : ∀ i ∈ ins, Foreign n.tid i ∨
      ∃ s, (∃ cs ∈ (Writer.run wc Writer.init h).2, s ∈ cs) ∧ Carries n s i) (r : Rcv)
    (hr : run rc has n.topic {} ins = some r) :
    ((Reader.fromPub wc.tid (Reader.delivered r.evs)).map Writer.strip).Sublist
      ((Writer.sent h).map Writer.Msg.strip) := by
  obtain ⟨a, _, h2, h3⟩ := run_calls n hn wc ht h hs rc has ins
    (fun i hm => (hi i hm).imp id (fun ⟨s, hc, x⟩ => ⟨s, ⟨hc⟩, x⟩)) {} r hr
  rw [h2]
  exact Writer.C59_delivered_is_subsequence wc h rc hd a (fun s hm e => (h3 s hm e).mem)

/-- One copy, arriving undamaged at a listening receiver, is one call on the subscriber. -/
theorem arrival_step (n : Names) (hn : n.Ok) (wc : Writer.Config) (ht : wc.tid = str n.tid)
    (h : List Writer.Op) (hs : Sane h) (rc : Reader.Config) (has : Bytes → Bool)
    (hhas : has n.topic = true) (s : Reader.Sample) (c : Copy wc h s) (i : In)
    (hi : arrival n s = some i) (hl : s.payload.length < 2 ^ 31)
    (hu : (datagram n s).length < 2 ^ 32) (r : Rcv) (ha : r.armed = true) :
    ∃ r', step rc has n.topic r i = some r' ∧ r'.armed = true ∧
      r'.rd = (Reader.step rc r.rd (.sample s)).1 ∧
      r'.evs = r.evs ++ (Reader.step rc r.rd (.sample s)).2 := by
  unfold arrival at hi
  split at hi
  · next hlay =>
    injection hi with hi
    subst hi
    obtain ⟨p1, p2⟩ := datagram_parsed n hn s hu
    have hf := fromWire_eq n wc h s c hs ht (udpSample n s) rfl rfl rfl rfl rfl
    rw [hlay] at hf
    refine ⟨feed rc r (.sample s), ?_, ha, rfl, rfl⟩
    simp only [step, Udp.rx, ha, p1, hhas, Bool.not_true, Bool.false_eq_true, if_false, if_true,
      List.nil_append, List.foldl_cons, List.foldl_nil]
    unfold subApply
    rw [p2]
    simp only [show (udpSample n s).cmd = 1 from rfl, show (udpSample n s).tname = n.topic from rfl,
      show (udpSample n s).payload = s.payload from rfl, and_self, if_true, hf]
    rw [← ha]
  · next hlay =>
    split at hi
    · next msg hmsg =>
      injection hi with hi
      subst hi
      obtain ⟨hdr, q1, q2, q3, q4, q5, q6, q7, _, _⟩ :=
        Wire.C31_received _ _ _ _ _ _ _ _ r.hdr hn.1 hn.2.2.2 hl hmsg
      have hf := fromWire_eq n wc h s c hs ht hdr q3 q4 q5 q6 q7
      rw [hlay] at hf
      refine ⟨feed rc { r with hdr := hdr } (.sample s), ?_, ha, rfl, rfl⟩
      simp only [step, q1, q2, if_true, hf]
    · cases hi
  · injection hi with hi
    subst hi
    exact ⟨feed rc r (.sample s), rfl, ha, rfl, rfl⟩

theorem arrival_run (n : Names) (hn : n.Ok) (wc : Writer.Config) (ht : wc.tid = str n.tid)
    (h : List Writer.Op) (hs : Sane h) (rc : Reader.Config) (has : Bytes → Bool)
    (hhas : has n.topic = true) (l : List Reader.Sample) (hc : ∀ s ∈ l, Copy wc h s) (ins : List In)
    (hi : l.map (arrival n) = ins.map some) (hl : ∀ s ∈ l, s.payload.length < 2 ^ 31)
    (hu : ∀ s ∈ l, (datagram n s).length < 2 ^ 32) (r : Rcv) (ha : r.armed = true) :
    ∃ r', run rc has n.topic r ins = some r' ∧
      r'.evs = r.evs ++ (Reader.run rc r.rd (l.map .sample)).2 := by
  induction l generalizing ins r with
  | nil =>
    cases ins with
    | nil => exact ⟨r, rfl, by simp [Reader.run]⟩
    | cons i ins => simp at hi
  | cons s l ih =>
    cases ins with
    | nil => simp at hi
    | cons i ins =>
      simp only [List.map_cons, List.cons.injEq] at hi
      obtain ⟨r1, e1, e2, e3, e4⟩ := arrival_step n hn wc ht h hs rc has hhas s (hc s (by simp)) i hi.1
        (hl s (by simp)) (hu s (by simp)) r ha
      obtain ⟨r2, f1, f2⟩ := ih (fun x hx => hc x (by simp [hx])) ins hi.2 (fun x hx => hl x (by simp [hx]))
        (fun x hx => hu x (by simp [hx])) r1 e2
      refine ⟨r2, by simp only [run, e1, f1], ?_⟩
      rw [f2, e3, e4]
      simp [Reader.run]

/-- **C104 (completeness).** If every copy arrives, in sending order, the subscriber's
application gets every message for which a layer was started, exactly once and unchanged. -/
theorem C104_lossless_network (n : Names) (hn : n.Ok) (wc : Writer.Config)
    (ht : wc.tid = str n.tid) (h : List Writer.Op) (hs : Sane h) (rc : Reader.Config)
    (hd : rc.drop = true) (hcu : rc.udp = true) (hcs : rc.shm = true) (hct : rc.tcp = true)
    (has : Bytes → Bool) (hhas : has n.topic = true) (ins : List In)
    (hi : (Writer.run wc Writer.init h).2.flatten.map (arrival n) = ins.map some)
    (hl : ∀ m ∈ Writer.sent h, m.payload.length < 2 ^ 31)
    (hu : ∀ s ∈ (Writer.run wc Writer.init h).2.flatten, (datagram n s).length < 2 ^ 32) :
    ∃ r, run rc has n.topic {} ins = some r ∧
      Reader.delivered r.evs = (Writer.run wc Writer.init h).2.filterMap List.head? := by
  have hc : ∀ s ∈ (Writer.run wc Writer.init h).2.flatten, Copy wc h s := by
    intro s hm
    obtain ⟨cs, h1, h2⟩ := List.mem_flatten.1 hm
    exact ⟨⟨cs, h1, h2⟩⟩
  have hl' : ∀ s ∈ (Writer.run wc Writer.init h).2.flatten, s.payload.length < 2 ^ 31 := by
    intro s hm
    obtain ⟨cs, h1, h2⟩ := (hc s hm).mem
    obtain ⟨i, m, l, e, rfl⟩ := Writer.run_copies wc h Writer.init cs h1 s h2
    exact hl m (List.mem_of_getElem? e)
  obtain ⟨r, h1, h2⟩ := arrival_run n hn wc ht h hs rc has hhas _ hc ins hi hl' hu {} rfl
  refine ⟨r, h1, ?_⟩
  rw [h2]
  exact Writer.C59_lossless_transport_delivers_all wc h rc hd hcu hcs hct hs.1

theorem sane_ex : Sane exH := by
  refine ⟨by decide, ?_⟩
  intro m hm
  have : m = ⟨[1, 2], 10, 0⟩ ∨ m = ⟨[], 20, -1⟩ ∨ m = ⟨[3], 30, 5⟩ := by
    simpa [exH, Writer.sent, exSub] using hm
  rcases this with rfl | rfl | rfl <;> decide

example : exN.Ok := by unfold Names.Ok exN; decide

/-- Three messages over UDP; the network duplicates the second, swaps it with the third and
adds a damaged TCP header of somebody else: the first and the third are delivered. -/
example :
    let ds := (Writer.run exC Writer.init exH).2.flatten.map (fun s => In.udp (.datagram (datagram exN s)))
    ds.length = 3 ∧
    (run exRc (fun _ => true) exN.topic {}
      [ds.getD 0 (.app .read), .tcp [69, 67, 65, 76, 1, 0, 7] {}, ds.getD 2 (.app .read),
       ds.getD 1 (.app .read), ds.getD 1 (.app .read)]).map
      (fun r => (Reader.delivered r.evs).map Writer.strip) = some [([1, 2], 10, 0), ([3], 30, 5)] := by
  decide +kernel

/-- The hypotheses of both theorems are met by the three messages over UDP. -/
example : ∃ r, run exRc (fun _ => true) exN.topic {}
      ((Writer.run exC Writer.init exH).2.flatten.map (fun s => .udp (.datagram (datagram exN s)))) = some r ∧
      Reader.delivered r.evs = (Writer.run exC Writer.init exH).2.filterMap List.head? :=
  C104_lossless_network exN (by unfold Names.Ok exN; decide) exC rfl exH sane_ex exRc rfl rfl rfl rfl _ rfl _
    (by decide +kernel)
    (by intro m hm
        have : m = ⟨[1, 2], 10, 0⟩ ∨ m = ⟨[], 20, -1⟩ ∨ m = ⟨[3], 30, 5⟩ := by
          simpa [exH, Writer.sent, exSub] using hm
        rcases this with rfl | rfl | rfl <;> decide)
    (by decide +kernel)

example (d : Bytes) (hd : d ∈ [[255, 255, 0], datagram { exN with tid := [50] } ⟨"2", [9], 0, 1, 0, 3, .udp⟩]) :
    Foreign exN.tid (.udp (.datagram d)) := by
  simp only [List.mem_cons, List.not_mem_nil, or_false] at hd
  rcases hd with rfl | rfl
  · intro name data m h
    rw [show Udp.decode [255, 255, 0] = .damaged by decide +kernel] at h
    cases h
  · intro name data m h1 h2
    obtain ⟨p1, p2⟩ := datagram_parsed { exN with tid := [50] } (by unfold Names.Ok exN; decide)
      ⟨"2", [9], 0, 1, 0, 3, .udp⟩ (by decide +kernel)
    rw [p1] at h1
    injection h1 with _ h1
    rw [← h1, p2] at h2
    injection h2 with h2
    rw [← h2]
    decide

/-- **C104 violated (liveness).** After one damaged datagram — three bytes from anywhere —
nothing sent over UDP arrives any more, although the subscription stays; what comes over TCP
still does. -/
theorem C104_violated_deaf (rc : Reader.Config) (has : Bytes → Bool) (topic : Bytes) (ds : List Bytes) :
    run rc has topic {} (.udp (.datagram [255, 255, 0]) :: ds.map (fun d => .udp (.datagram d))) =
      some { armed := false } := by
  have h1 : Udp.decode [255, 255, 0] = .damaged := by decide +kernel
  have h2 : ∀ ds : List Bytes, run rc has topic { armed := false } (ds.map (fun d => .udp (.datagram d))) =
      some { armed := false } := by
    intro ds
    induction ds with
    | nil => rfl
    | cons d ds ih => simp only [List.map_cons, run, step, Udp.rx]; exact ih
  simp only [run, step, Udp.rx, h1]
  exact h2 ds

end Ecal.E2E
