import Verif.E2E.Flow
import Verif.E2E.NetProps

/-! # Lemmas for C111 -/

namespace Ecal.E2E.Flow

open Ecal.Wire (PayloadSample)
open Ecal.E2E.Disc (Proc)

/-! ## Specification -/

/-- The history creates publisher `i` of process `p`. -/
def isNewPub (p i : Nat) : In → Bool
  | .disc (.newPub p' i' _) => p' = p ∧ i' = i
  | _ => false

/-- The messages publisher `i` of process `p` was given in a history, in order. -/
def sends (p i : Nat) (h : List In) : List Writer.Msg :=
  h.filterMap (fun x => match x with
    | .send p' i' m => if p' = p ∧ i' = i then some m else none
    | _ => none)

/-- The sample an input of somebody else amounts to, if it is one. -/
def Claims (s : Reader.Sample) : E2E.In → Prop
  | .udp (.datagram d) => ∃ name data m, Udp.decode d = .sample name data ∧
      Wire.deserializePayload {} data = some m ∧ s = fromWire m m.payload .udp
  | .udp .error => False
  | .tcp msg _ => ∃ last h p, Wire.tcpRead last msg = .sample h p ∧ s = fromWire h p .tcp
  | .app op => op = .sample s

/-- Topic names are non-empty, have no zero byte and fit the size field. -/
def TopicOk (t : Bytes) : Prop := t ≠ [] ∧ (0 : UInt8) ∉ t ∧ t.length < 65535

/-- Times and ids are 64-bit numbers. -/
def MsgOk (m : Writer.Msg) : Prop := (-2 ^ 63 ≤ m.time ∧ m.time < 2 ^ 63) ∧ (-2 ^ 63 ≤ m.id ∧ m.id < 2 ^ 63)

/-- The sizes on the wire fit their fields. -/
def Small (c : Names × Reader.Sample) : Prop := (datagram c.1 c.2).length < 2 ^ 32 ∧ c.2.payload.length < 2 ^ 31

/-- General assumptions about a history: ids are non-empty, names and numbers are in range. -/
structure Fine (P : Nat → Proc) (h : List In) (w : World) : Prop where
  ids    : ∀ p i, (P p).ptid i ≠ []
  topics : ∀ p i t, In.disc (.newPub p i t) ∈ h → TopicOk t
  msgs   : ∀ p i m, In.send p i m ∈ h → MsgOk m
  len    : h.length < 2 ^ 63
  small  : ∀ c ∈ w.net, Small c

/-! ## Lists and runs -/

theorem snoc_ind {α : Type} {motive : List α → Prop} (nil : motive [])
    (snoc : ∀ l a, motive l → motive (l ++ [a])) (l : List α) : motive l := by
  have : ∀ n (l : List α), l.length = n → motive l := by
    intro n
    induction n with
    | zero => intro l hl; rw [List.length_eq_zero_iff.1 hl]; exact nil
    | succ n ih =>
      intro l hl
      have hne : l ≠ [] := by intro e; rw [e] at hl; simp at hl
      rw [← List.dropLast_concat_getLast hne]
      exact snoc _ _ (ih _ (by simp [hl]))
  exact this _ l rfl

theorem run_append (C : Cfg) (P : Nat → Proc) (w : World) (a b : List In) :
    run C P w (a ++ b) = (run C P w a).bind (fun w' => run C P w' b) := by
  induction a generalizing w with
  | nil => rfl
  | cons x a ih =>
    simp only [List.cons_append, run]
    cases step C P w x with
    | none => rfl
    | some w' => exact ih w'

theorem run_split {C : Cfg} {P : Nat → Proc} {w w2 : World} {a b : List In}
    (h : run C P w (a ++ b) = some w2) : ∃ w1, run C P w a = some w1 ∧ run C P w1 b = some w2 := by
  rw [run_append, Option.bind_eq_some_iff] at h
  exact h

theorem run_snoc {C : Cfg} {P : Nat → Proc} {w w2 : World} {a : List In} {x : In}
    (h : run C P w (a ++ [x]) = some w2) : ∃ w1, run C P w a = some w1 ∧ step C P w1 x = some w2 := by
  obtain ⟨w1, h1, h2⟩ := run_split h
  refine ⟨w1, h1, ?_⟩
  simp only [run] at h2
  cases e : step C P w1 x with
  | none => simp [e] at h2
  | some w' => simpa [e] using h2

theorem input_same {C : Cfg} {w w' : World} {p j : Nat} {i : E2E.In} (h : input C w p j i = some w') :
    w'.disc = w.disc ∧ w'.pub = w.pub ∧ w'.net = w.net := by
  unfold input at h
  split at h
  · split at h
    · cases h
    · simp only [Option.some.injEq] at h; subst h; exact ⟨rfl, rfl, rfl⟩
  · split at h
    · simp only [Option.some.injEq] at h; subst h; exact ⟨rfl, rfl, rfl⟩
    · split at h
      · cases h
      · simp only [Option.some.injEq] at h; subst h; exact ⟨rfl, rfl, rfl⟩

theorem arriveAt_cases {C : Cfg} {w w' : World} {p j k : Nat} (h : arriveAt C w p j k = some w') :
    w' = w ∨ ∃ n s i, w.net[k]? = some (n, s) ∧ arrival n s = some i ∧
      (s.layer = .udp ∨ s.layer = .tcp ∨ (w.sub p j).map Sub.topic = some n.topic) ∧
      input C w p j i = some w' := by
  unfold arriveAt at h
  split at h
  · simp only [Option.some.injEq] at h; exact .inl h.symm
  · next n s hk =>
    split at h
    · simp only [Option.some.injEq] at h; exact .inl h.symm
    · next i hi =>
      by_cases hc : s.layer = .udp ∨ s.layer = .tcp ∨ (w.sub p j).map Sub.topic = some n.topic
      · rw [if_pos hc] at h; exact .inr ⟨n, s, i, hk, hi, hc, h⟩
      · rw [if_neg hc] at h; simp only [Option.some.injEq] at h; exact .inl h.symm

theorem arriveAt_same {C : Cfg} {w w' : World} {p j k : Nat} (h : arriveAt C w p j k = some w') :
    w'.disc = w.disc ∧ w'.pub = w.pub ∧ w'.net = w.net := by
  rcases arriveAt_cases h with rfl | ⟨_, _, _, _, _, _, h⟩
  · exact ⟨rfl, rfl, rfl⟩
  · exact input_same h

/-- What a `send` does. -/
theorem send_cases {C : Cfg} {P : Nat → Proc} {w w' : World} {p i : Nat} {m : Writer.Msg}
    (h : step C P w (.send p i m) = some w') :
    (w.pub p i = none ∧ w' = w) ∨ ∃ b, w.pub p i = some b ∧
      w'.pub = (fun q i' => if q = p ∧ i' = i then
        some { b with st := (Writer.step (wcfg C P p i) b.st (.send m)).1, log := b.log ++ [.send m] }
        else w.pub q i') ∧
      w'.net = w.net ++ (Writer.step (wcfg C P p i) b.st (.send m)).2.map (fun s => (names P p i b.topic, s)) ∧
      w'.disc = w.disc ∧ w'.sub = w.sub ∧ w'.armed = w.armed ∧
      ∀ s ∈ (Writer.step (wcfg C P p i) b.st (.send m)).2, ∃ x, arrival (names P p i b.topic) s = some x := by
  simp only [step] at h
  cases hb : w.pub p i with
  | none =>
    rw [hb] at h
    simp only [Option.some.injEq] at h
    exact .inl ⟨rfl, h.symm⟩
  | some b =>
    rw [hb] at h
    simp only at h
    by_cases ha : (Writer.step (wcfg C P p i) b.st (.send m)).2.any
        (fun s => (arrival (names P p i b.topic) s).isNone) = true
    · rw [if_pos ha] at h; cases h
    · rw [if_neg ha] at h
      simp only [Option.some.injEq] at h
      subst h
      refine .inr ⟨b, rfl, rfl, rfl, rfl, rfl, rfl, ?_⟩
      intro s hs
      simp only [List.any_eq_true, not_exists, not_and] at ha
      have := ha s hs
      cases e : arrival (names P p i b.topic) s with
      | none => rw [e] at this; simp at this
      | some x => exact ⟨x, rfl⟩

theorem net_step {C : Cfg} {P : Nat → Proc} {w w' : World} {x : In} (h : step C P w x = some w') :
    ∃ l, w'.net = w.net ++ l := by
  cases x with
  | disc x => simp only [step, Option.some.injEq] at h; subst h; exact ⟨[], by simp⟩
  | send p i m =>
    rcases send_cases h with ⟨_, rfl⟩ | ⟨b, _, _, h3, _⟩
    · exact ⟨[], by simp⟩
    · exact ⟨_, h3⟩
  | arrive p j k => exact ⟨[], by rw [(arriveAt_same h).2.2]; simp⟩
  | noise p j i => exact ⟨[], by rw [(input_same h).2.2]; simp⟩

theorem net_run {C : Cfg} {P : Nat → Proc} {w w' : World} {h : List In} (hr : run C P w h = some w') :
    ∃ l, w'.net = w.net ++ l := by
  induction h generalizing w with
  | nil => simp only [run, Option.some.injEq] at hr; subst hr; exact ⟨[], by simp⟩
  | cons x h ih =>
    simp only [run] at hr
    split at hr
    · cases hr
    · next w1 h1 =>
      obtain ⟨l1, e1⟩ := net_step h1
      obtain ⟨l2, e2⟩ := ih hr
      exact ⟨l1 ++ l2, by rw [e2, e1]; simp⟩

theorem Fine.before {P : Nat → Proc} {C : Cfg} {a b : List In} {w w' : World} (hf : Fine P (a ++ b) w')
    (hr : run C P w b = some w') : Fine P a w := by
  obtain ⟨l, hl⟩ := net_run hr
  refine ⟨hf.ids, fun p i t hm => hf.topics p i t (List.mem_append_left _ hm),
    fun p i m hm => hf.msgs p i m (List.mem_append_left _ hm), ?_, ?_⟩
  · have := hf.len; rw [List.length_append] at this; omega
  · intro c hc; apply hf.small; rw [hl]; exact List.mem_append_left _ hc

/-! ## Publishers -/

theorem writer_run_append (c : Writer.Config) (st : Writer.State) (a b : List Writer.Op) :
    Writer.run c st (a ++ b) = ((Writer.run c (Writer.run c st a).1 b).1,
      (Writer.run c st a).2 ++ (Writer.run c (Writer.run c st a).1 b).2) := by
  induction a generalizing st with
  | nil => rfl
  | cons op a ih => simp only [List.cons_append, Writer.run, ih]

/-- The calls of discovery send nothing. -/
theorem wops_no_send (P : Nat → Proc) (w : World) (x : Disc.In) (p i : Nat) (b : Pub) :
    Writer.sent (wops P w x p i b) = [] := by
  have key : ∀ op ∈ wops P w x p i b, ∀ m, op ≠ .send m := by
    intro op hop m
    unfold wops at hop
    split at hop
    · obtain ⟨g, _, hg⟩ := List.mem_flatMap.1 hop
      cases g with
      | create => cases hg
      | destroy => simp only [wop] at hg; split at hg <;> simp at hg <;> rw [hg] <;> simp
      | subReg => simp only [wop] at hg; split at hg <;> simp at hg <;> rw [hg] <;> simp
      | subUnreg => simp only [wop] at hg; split at hg <;> simp at hg <;> rw [hg] <;> simp
      | cycle =>
        simp only [wop, List.mem_map] at hg
        obtain ⟨q, _, rfl⟩ := hg
        simp
    · cases hop
  unfold Writer.sent
  rw [List.filterMap_eq_nil_iff]
  intro op hop
  have := key op hop
  cases op with
  | send m => exact absurd rfl (this m)
  | _ => rfl

theorem sent_append (a b : List Writer.Op) : Writer.sent (a ++ b) = Writer.sent a ++ Writer.sent b := by
  simp [Writer.sent]

theorem sends_append (p i : Nat) (a b : List In) : sends p i (a ++ b) = sends p i a ++ sends p i b := by
  simp [sends]

theorem clock_le (c : Writer.Config) (ops : List Writer.Op) (st : Writer.State) :
    (Writer.run c st ops).1.clock ≤ st.clock + (Writer.sent ops).length := by
  induction ops generalizing st with
  | nil => simp [Writer.run]
  | cons op ops ih =>
    have h1 := ih (Writer.step c st op).1
    have h2 := Writer.step_clock c st op
    simp only [Writer.run]
    have h3 : (Writer.sent (op :: ops)).length = (Writer.sent ops).length + (if op.isSend = true then 1 else 0) := by
      cases op <;> simp [Writer.sent, Writer.Op.isSend]
    rw [h3]
    by_cases hs : op.isSend = true
    · simp only [hs, if_true]
      split at h2 <;> omega
    · simp only [hs, if_false, Bool.false_eq_true, and_false] at h2 ⊢
      omega

/-- What is known of a publisher. -/
structure PubInv (C : Cfg) (P : Nat → Proc) (h : List In) (p i : Nat) (b : Pub) : Prop where
  st   : b.st = (Writer.run (wcfg C P p i) Writer.init b.log).1
  made : In.disc (.newPub p i b.topic) ∈ h
  sent : (Writer.sent b.log).Sublist (sends p i h)

/-- A copy stems from a publisher and one of its messages. -/
def FromPub (C : Cfg) (P : Nat → Proc) (h : List In) (c : Names × Reader.Sample) : Prop :=
  ∃ p i t m l k, c.1 = names P p i t ∧ In.disc (.newPub p i t) ∈ h ∧ In.send p i m ∈ h ∧
    c.2 = Writer.copyOf (wcfg C P p i) k m l ∧ k ≤ h.length

theorem FromPub.more {C : Cfg} {P : Nat → Proc} {h : List In} {c : Names × Reader.Sample} (hc : FromPub C P h c)
    (h2 : List In) : FromPub C P (h ++ h2) c := by
  obtain ⟨p, i, t, m, l, k, a, b, c, d, e⟩ := hc
  exact ⟨p, i, t, m, l, k, a, List.mem_append_left _ b, List.mem_append_left _ c, d, by simp; omega⟩

theorem PubInv.more {C : Cfg} {P : Nat → Proc} {h : List In} {p i : Nat} {b : Pub} (hb : PubInv C P h p i b)
    (h2 : List In) : PubInv C P (h ++ h2) p i b := by
  refine ⟨hb.st, List.mem_append_left _ hb.made, ?_⟩
  rw [sends_append]
  exact hb.sent.trans (List.sublist_append_left _ _)

theorem pub_calls {C : Cfg} {P : Nat → Proc} {h : List In} {p i : Nat} {b : Pub} (hb : PubInv C P h p i b)
    (ops : List Writer.Op) (ho : Writer.sent ops = []) : PubInv C P h p i (b.calls (wcfg C P p i) ops) := by
  refine ⟨?_, hb.made, ?_⟩
  · simp only [Pub.calls, writer_run_append, hb.st]
  · simp only [Pub.calls, sent_append, ho, List.append_nil]; exact hb.sent

/-- A publisher after a step of discovery: new, or some calls later. -/
theorem pub'_cases (C : Cfg) (P : Nat → Proc) (w : World) (x : Disc.In) (p i : Nat) (b : Pub)
    (h : pub' C P w x p i = some b) :
    (∃ t, x = .newPub p i t ∧ b = { topic := t }) ∨
    ∃ b0, w.pub p i = some b0 ∧ b = b0.calls (wcfg C P p i) (wops P w x p i b0) ∧ ∀ t, x ≠ .newPub p i t := by
  have other : ∀ y, y = x → (∀ t, y ≠ .newPub p i t) →
      (w.pub p i).map (fun b => b.calls (wcfg C P p i) (wops P w x p i b)) = some b →
      ∃ b0, w.pub p i = some b0 ∧ b = b0.calls (wcfg C P p i) (wops P w x p i b0) ∧ ∀ t, x ≠ .newPub p i t := by
    intro y hy hn he
    obtain ⟨b0, h1, h2⟩ := Option.map_eq_some_iff.1 he
    exact ⟨b0, h1, h2.symm, hy ▸ hn⟩
  unfold pub' at h
  split at h
  · next p' i' t =>
    by_cases hc : p' = p ∧ i' = i
    · rw [if_pos hc] at h
      obtain ⟨rfl, rfl⟩ := hc
      simp only [Option.some.injEq] at h
      exact .inl ⟨t, rfl, h.symm⟩
    · rw [if_neg hc] at h
      exact .inr (other _ rfl (by intro t e; injection e with e1 e2 _; exact hc ⟨e1, e2⟩) h)
  · next x hx => exact .inr (other _ rfl (fun t => hx p i t) h)

theorem fix_newPub {C : Cfg} {x : Disc.In} {p i : Nat} {t : Bytes} : fix C x = .newPub p i t ↔ x = .newPub p i t := by
  cases x <;> simp [fix]

theorem fix_newSub {C : Cfg} {x : Disc.In} {p i : Nat} {t : Bytes} : fix C x = .newSub p i t ↔ x = .newSub p i t := by
  cases x <;> simp [fix]

/-- Publishers and copies. -/
theorem pubs_inv (C : Cfg) (P : Nat → Proc) (h : List In) : ∀ w, run C P {} h = some w →
    (∀ p i b, w.pub p i = some b → PubInv C P h p i b) ∧ ∀ c ∈ w.net, FromPub C P h c := by
  refine snoc_ind (motive := fun h => ∀ w, run C P {} h = some w →
    (∀ p i b, w.pub p i = some b → PubInv C P h p i b) ∧ ∀ c ∈ w.net, FromPub C P h c) ?_ ?_ h
  · intro w hw
    simp only [run, Option.some.injEq] at hw
    subst hw
    constructor
    · intro p i b hb; cases hb
    · intro c hc; cases hc
  · intro h x ih w' hw'
    obtain ⟨w, hw, hs⟩ := run_snoc hw'
    obtain ⟨ip, ic⟩ := ih w hw
    cases x with
    | disc x =>
      simp only [step, Option.some.injEq] at hs
      subst hs
      refine ⟨?_, fun c hc => (ic c hc).more _⟩
      intro p i b hb
      rcases pub'_cases C P w (fix C x) p i b hb with ⟨t, hx, rfl⟩ | ⟨b0, h0, rfl, _⟩
      · rw [fix_newPub] at hx
        subst hx
        exact ⟨rfl, by simp, by simp [Writer.sent]⟩
      · exact (pub_calls (ip p i b0 h0) _ (wops_no_send _ _ _ _ _ _)).more _
    | send p i m =>
      rcases send_cases hs with ⟨_, rfl⟩ | ⟨b, hb, e1, e2, _, _, _, _⟩
      · exact ⟨fun p i b hb => (ip p i b hb).more _, fun c hc => (ic c hc).more _⟩
      · have hpb := ip p i b hb
        constructor
        · intro q i' b' hb'
          rw [e1] at hb'
          simp only at hb'
          by_cases hc : q = p ∧ i' = i
          · rw [if_pos hc] at hb'
            obtain ⟨rfl, rfl⟩ := hc
            simp only [Option.some.injEq] at hb'
            subst hb'
            refine ⟨?_, List.mem_append_left _ hpb.made, ?_⟩
            · simp only [writer_run_append]
              rw [← hpb.st]; rfl
            · simp only [sent_append, sends_append]
              exact hpb.sent.append (by simp [Writer.sent, sends])
          · rw [if_neg hc] at hb'
            exact (ip q i' b' hb').more _
        · intro c hc
          rw [e2] at hc
          rcases List.mem_append.1 hc with hc | hc
          · exact (ic c hc).more _
          · obtain ⟨s, hsm, rfl⟩ := List.mem_map.1 hc
            obtain ⟨m', l, hm', _, rfl⟩ := Writer.step_copies _ _ _ s hsm
            injection hm' with hm'
            subst hm'
            refine ⟨p, i, b.topic, m, l, _, rfl, List.mem_append_left _ hpb.made, by simp, rfl, ?_⟩
            have h1 := clock_le (wcfg C P p i) b.log Writer.init
            rw [← hpb.st] at h1
            have h2 := hpb.sent.length_le
            have h3 : (sends p i h).length ≤ h.length := List.length_filterMap_le _ _
            simp only [Writer.init] at h1
            simp
            omega
    | arrive p j k =>
      obtain ⟨_, e1, e2⟩ := arriveAt_same hs
      rw [e1, e2]
      exact ⟨fun p i b hb => (ip p i b hb).more _, fun c hc => (ic c hc).more _⟩
    | noise p j i =>
      obtain ⟨_, e1, e2⟩ := input_same hs
      rw [e1, e2]
      exact ⟨fun p i b hb => (ip p i b hb).more _, fun c hc => (ic c hc).more _⟩

/-! ## Subscribers -/

/-- The numbers of a copy are in range. -/
def InRange (s : Reader.Sample) : Prop :=
  (-2 ^ 63 ≤ s.time ∧ s.time < 2 ^ 63) ∧ (-2 ^ 63 ≤ s.id ∧ s.id < 2 ^ 63) ∧
    (-2 ^ 63 ≤ s.clock ∧ s.clock < 2 ^ 63) ∧ s.hash < 2 ^ 64

theorem fromWire_copy (n : Names) (s : Reader.Sample) (ht : s.tid = str n.tid) (hr : InRange s) (m : PayloadSample)
    (h1 : m.tid = n.tid) (h2 : m.id = .ofInt 64 s.id) (h3 : m.clock = .ofInt 64 s.clock)
    (h4 : m.time = .ofInt 64 s.time) (h5 : m.hash = .ofNat 64 s.hash) :
    fromWire m s.payload s.layer = s := by
  obtain ⟨r2, r3, r4, r5⟩ := hr
  have hh : (BitVec.ofNat 64 s.hash).toNat = s.hash := by
    rw [BitVec.toNat_ofNat]; exact Nat.mod_eq_of_lt r5
  unfold fromWire
  rw [h1, h2, h3, h4, h5, toInt_ofInt64 _ r2, toInt_ofInt64 _ r3, toInt_ofInt64 _ r4, hh, ← ht]

/-- A copy that arrives is nothing to a subscriber or one call; over UDP and TCP only to those of the topic. -/
theorem arrival_take (rc : Reader.Config) (hs : Bytes → Bool) (topic : Bytes) (r r' : Rcv) (n : Names)
    (s : Reader.Sample) (i : E2E.In) (hi : arrival n s = some i) (hn : n.Ok) (hsm : Small (n, s))
    (ht : s.tid = str n.tid) (hr : InRange s)
    (hl : s.layer = .udp ∨ s.layer = .tcp ∨ topic = n.topic)
    (h : E2E.step rc hs topic r i = some r') :
    (r'.rd = r.rd ∧ r'.evs = r.evs) ∨
    (topic = n.topic ∧ r'.rd = (Reader.step rc r.rd (.sample s)).1 ∧
      r'.evs = r.evs ++ (Reader.step rc r.rd (.sample s)).2) := by
  unfold arrival at hi
  split at hi
  · next hlay =>
    injection hi with hi
    subst hi
    obtain ⟨p1, p2⟩ := datagram_parsed n hn s hsm.1
    have hf := fromWire_copy n s ht hr (udpSample n s) rfl rfl rfl rfl rfl
    rw [hlay] at hf
    simp only [E2E.step, Udp.rx] at h
    by_cases ha : r.armed
    · simp only [ha, Bool.not_true, Bool.false_eq_true, if_false, p1, Option.some.injEq] at h
      by_cases hh : hs n.topic
      · simp only [hh, if_true, List.nil_append, List.foldl_cons, List.foldl_nil] at h
        unfold subApply at h
        rw [p2] at h
        simp only [show (udpSample n s).cmd = 1 from rfl, show (udpSample n s).tname = n.topic from rfl,
          show (udpSample n s).payload = s.payload from rfl, true_and, hf] at h
        by_cases htop : n.topic = topic
        · rw [if_pos htop] at h
          exact .inr ⟨htop.symm, by rw [← h]; rfl, by rw [← h]; rfl⟩
        · rw [if_neg htop] at h
          exact .inl (by rw [← h]; exact ⟨rfl, rfl⟩)
      · simp only [hh, Bool.false_eq_true, if_false, List.foldl_nil] at h
        exact .inl (by rw [← h]; exact ⟨rfl, rfl⟩)
    · simp only [ha, Bool.not_false, if_true, Option.some.injEq, List.foldl_nil] at h
      exact .inl (by rw [← h]; exact ⟨rfl, rfl⟩)
  · next hlay =>
    split at hi
    · next msg hmsg =>
      injection hi with hi
      subst hi
      obtain ⟨hdr, q1, q2, q3, q4, q5, q6, q7, _, _⟩ :=
        Wire.C31_received _ _ _ _ _ _ _ _ r.hdr hn.1 hn.2.2.2 hsm.2 hmsg
      have hf := fromWire_copy n s ht hr hdr q3 q4 q5 q6 q7
      rw [hlay] at hf
      simp only [E2E.step, q1, q2, hf, Option.some.injEq] at h
      by_cases htop : n.topic = topic
      · rw [if_pos htop] at h
        exact .inr ⟨htop.symm, by rw [← h]; rfl, by rw [← h]; rfl⟩
      · rw [if_neg htop] at h
        exact .inl (by rw [← h]; exact ⟨rfl, rfl⟩)
    · cases hi
  · next h1 h2 =>
    injection hi with hi
    subst hi
    simp only [E2E.step, Option.some.injEq] at h
    have htop : topic = n.topic := by
      rcases hl with e | e | e
      · exact absurd e h1
      · exact absurd e h2
      · exact e
    exact .inr ⟨htop, by rw [← h]; rfl, by rw [← h]; rfl⟩

/-- What is known of a subscriber: everything that reached it is a copy of a sample of its topic, or noise. -/
structure SubInv (C : Cfg) (h : List In) (w : World) (p j : Nat) (b : Sub) (a : List Reader.Op) : Prop where
  rd   : b.rcv.rd = (Reader.run (C.rc p j) Reader.init a).1
  evs  : b.rcv.evs = (Reader.run (C.rc p j) Reader.init a).2
  from_ : ∀ s ∈ Reader.arrivals a, (∃ n, (n, s) ∈ w.net ∧ n.topic = b.topic) ∨
    ∃ j' i, In.noise p j' i ∈ h ∧ Claims s i

theorem reader_run_snoc (c : Reader.Config) (st : Reader.State) (a : List Reader.Op) (op : Reader.Op) :
    Reader.run c st (a ++ [op]) = ((Reader.step c (Reader.run c st a).1 op).1,
      (Reader.run c st a).2 ++ (Reader.step c (Reader.run c st a).1 op).2) := by
  induction a generalizing st with
  | nil => simp [Reader.run]
  | cons x a ih => simp only [List.cons_append, Reader.run, ih, List.append_assoc]

theorem SubInv.more {C : Cfg} {h : List In} {w w' : World} {p j : Nat} {b : Sub} {a : List Reader.Op}
    (hb : SubInv C h w p j b a) (h2 : List In) (hn : ∃ l, w'.net = w.net ++ l) : SubInv C (h ++ h2) w' p j b a := by
  obtain ⟨l, hl⟩ := hn
  refine ⟨hb.rd, hb.evs, ?_⟩
  intro s hs
  rcases hb.from_ s hs with ⟨n, h1, h2⟩ | ⟨j', i, h1, h2⟩
  · exact .inl ⟨n, by rw [hl]; exact List.mem_append_left _ h1, h2⟩
  · exact .inr ⟨j', i, List.mem_append_left _ h1, h2⟩

theorem arrivals_snoc (a : List Reader.Op) (op : Reader.Op) (s : Reader.Sample) :
    s ∈ Reader.arrivals (a ++ [op]) ↔ s ∈ Reader.arrivals a ∨ op = .sample s := by
  unfold Reader.arrivals
  cases op <;> simp [eq_comm]

/-- One more call. -/
theorem SubInv.call {C : Cfg} {h : List In} {w : World} {p j : Nat} {b b' : Sub} {a : List Reader.Op}
    (hb : SubInv C h w p j b a) (op : Reader.Op) (e1 : b'.rcv.rd = (Reader.step (C.rc p j) b.rcv.rd op).1)
    (e2 : b'.rcv.evs = b.rcv.evs ++ (Reader.step (C.rc p j) b.rcv.rd op).2) (e3 : b'.topic = b.topic)
    (hop : ∀ s, op = .sample s → (∃ n, (n, s) ∈ w.net ∧ n.topic = b.topic) ∨
      ∃ j' i, In.noise p j' i ∈ h ∧ Claims s i) : SubInv C h w p j b' (a ++ [op]) := by
  refine ⟨?_, ?_, ?_⟩
  · rw [e1, reader_run_snoc, hb.rd]
  · rw [e2, reader_run_snoc, hb.rd, hb.evs]
  · intro s hs
    rw [e3]
    rcases (arrivals_snoc a op s).1 hs with hs | hs
    · exact hb.from_ s hs
    · exact hop s hs

theorem SubInv.still {C : Cfg} {h : List In} {w : World} {p j : Nat} {b b' : Sub} {a : List Reader.Op}
    (hb : SubInv C h w p j b a) (e1 : b'.rcv.rd = b.rcv.rd) (e2 : b'.rcv.evs = b.rcv.evs)
    (e3 : b'.topic = b.topic) : SubInv C h w p j b' a :=
  ⟨by rw [e1]; exact hb.rd, by rw [e2]; exact hb.evs, by rw [e3]; exact hb.from_⟩

/-- Who is concerned by an input. -/
theorem input_sub {C : Cfg} {w w' : World} {p j : Nat} {i : E2E.In} (h : input C w p j i = some w')
    (q j' : Nat) (b' : Sub) (hb' : w'.sub q j' = some b') :
    w.sub q j' = some b' ∨ (q = p ∧ ∃ b, w.sub p j' = some b ∧ take C w p j' b i = some b' ∧
      (j' = j ∨ ∃ e, i = .udp e)) := by
  unfold input at h
  split at h
  · next e =>
    split at h
    · cases h
    · simp only [Option.some.injEq] at h
      subst h
      simp only at hb'
      by_cases hq : q = p
      · rw [if_pos hq] at hb'
        obtain ⟨b, h1, h2⟩ := Option.bind_eq_some_iff.1 hb'
        exact .inr ⟨hq, b, h1, h2, .inr ⟨e, rfl⟩⟩
      · rw [if_neg hq] at hb'
        exact .inl hb'
  · split at h
    · simp only [Option.some.injEq] at h; subst h; exact .inl hb'
    · next b hb =>
      split at h
      · cases h
      · next b1 hb1 =>
        simp only [Option.some.injEq] at h
        subst h
        simp only at hb'
        by_cases hq : q = p ∧ j' = j
        · rw [if_pos hq] at hb'
          simp only [Option.some.injEq] at hb'
          subst hb'
          obtain ⟨rfl, rfl⟩ := hq
          exact .inr ⟨rfl, b, hb, hb1, .inl rfl⟩
        · rw [if_neg hq] at hb'
          exact .inl hb'

theorem take_some {C : Cfg} {w : World} {p j : Nat} {b b' : Sub} {i : E2E.In} (h : take C w p j b i = some b') :
    ∃ r, E2E.step (C.rc p j) (has w p) b.topic { b.rcv with armed := w.armed p } i = some r ∧
      b' = { b with rcv := r } := by
  unfold take at h
  obtain ⟨r, h1, h2⟩ := Option.map_eq_some_iff.1 h
  exact ⟨r, h1, h2.symm⟩

/-- Noise is nothing to a subscriber or one call. -/
theorem noise_take {rc : Reader.Config} {hs : Bytes → Bool} {topic : Bytes} {r r' : Rcv} {i : E2E.In}
    (h : E2E.step rc hs topic r i = some r') :
    (r'.rd = r.rd ∧ r'.evs = r.evs) ∨
    ∃ op, r'.rd = (Reader.step rc r.rd op).1 ∧ r'.evs = r.evs ++ (Reader.step rc r.rd op).2 ∧
      ((∀ s, op = .sample s → Claims s i) ∧ ((∀ o, i = .app o → op = o) ∧ ((∀ o, i ≠ .app o) → ∃ s, op = .sample s))) := by
  rcases step_ops rc hs topic r r' i h with h | ⟨op, e1, e2, hop⟩
  · exact .inl h
  · refine .inr ⟨op, e1, e2, ?_⟩
    rcases hop with rfl | ⟨d, name, data, m, rfl, hd, hm, rfl⟩ | ⟨msg, left, hd, p, rfl, hr, rfl⟩
    · refine ⟨fun s hs => hs, fun o ho => ?_, fun hx => absurd rfl (hx op)⟩
      injection ho
    · refine ⟨?_, (by intro o ho; cases ho), fun _ => ⟨_, rfl⟩⟩
      intro s hs
      injection hs with hs
      exact ⟨name, data, m, hd, hm, hs.symm⟩
    · refine ⟨?_, (by intro o ho; cases ho), fun _ => ⟨_, rfl⟩⟩
      intro s hs
      injection hs with hs
      exact ⟨_, hd, p, hr, hs.symm⟩

theorem copy_ok {C : Cfg} {P : Nat → Proc} {h : List In} {w : World} (hf : Fine P h w) {n : Names}
    {s : Reader.Sample} (hc : FromPub C P h (n, s)) (hm : (n, s) ∈ w.net) :
    n.Ok ∧ Small (n, s) ∧ s.tid = str n.tid ∧ InRange s := by
  obtain ⟨p, i, t, m, l, k, e1, h1, h2, e2, hk⟩ := hc
  simp only at e1 e2
  subst e1
  subst e2
  have := hf.msgs p i m h2
  have hl := hf.len
  refine ⟨⟨(hf.topics p i t h1).1, (hf.topics p i t h1).2.1, (hf.topics p i t h1).2.2, hf.ids p i⟩,
    hf.small _ hm, rfl, this.1, this.2, ?_, BitVec.isLt _⟩
  simp only [Writer.copyOf]
  omega

theorem subs_inv (C : Cfg) (P : Nat → Proc) (h : List In) : ∀ w, run C P {} h = some w → Fine P h w →
    ∀ p j b, w.sub p j = some b → ∃ a, SubInv C h w p j b a := by
  refine snoc_ind (motive := fun h => ∀ w, run C P {} h = some w → Fine P h w →
    ∀ p j b, w.sub p j = some b → ∃ a, SubInv C h w p j b a) ?_ ?_ h
  · intro w hw _ p j b hb
    simp only [run, Option.some.injEq] at hw
    subst hw
    cases hb
  · intro h x ih w' hw' hf p j b' hb'
    obtain ⟨w, hw, hs⟩ := run_snoc hw'
    have hr1 : run C P w [x] = some w' := by simp only [run, hs]
    have hf1 := hf.before hr1
    have ih := ih w hw hf1
    have hnet := net_step hs
    cases x with
    | disc x =>
      simp only [step, Option.some.injEq] at hs
      subst hs
      simp only [sub'] at hb'
      split at hb'
      · next p' j' t hx =>
        by_cases hc : p' = p ∧ j' = j
        · rw [if_pos hc] at hb'
          simp only [Option.some.injEq] at hb'
          subst hb'
          exact ⟨[], rfl, rfl, by simp [Reader.arrivals]⟩
        · rw [if_neg hc] at hb'
          obtain ⟨a, ha⟩ := ih p j b' hb'
          exact ⟨a, ha.more _ hnet⟩
      · next p' j' t info hx =>
        obtain ⟨b, hb, e⟩ := Option.map_eq_some_iff.1 hb'
        obtain ⟨a, ha⟩ := ih p j b hb
        by_cases hc : p' = p ∧ j' = j ∧ t = b.topic
        · rw [if_pos hc] at e
          subst e
          exact ⟨a ++ [.stop], (ha.more _ hnet).call .stop (by rfl) (by rfl) (by rfl) (by intro s e; cases e)⟩
        · rw [if_neg hc] at e
          subst e
          exact ⟨a, ha.more _ hnet⟩
      · obtain ⟨a, ha⟩ := ih p j b' hb'
        exact ⟨a, ha.more _ hnet⟩
    | send p' i m =>
      rcases send_cases hs with ⟨_, rfl⟩ | ⟨b, hb, _, _, _, e4, _⟩
      · obtain ⟨a, ha⟩ := ih p j b' hb'
        exact ⟨a, ha.more _ hnet⟩
      · rw [e4] at hb'
        obtain ⟨a, ha⟩ := ih p j b' hb'
        exact ⟨a, ha.more _ hnet⟩
    | arrive p' j' k =>
      rcases arriveAt_cases hs with rfl | ⟨n, s, i, hk, hi, hl, hin⟩
      · obtain ⟨a, ha⟩ := ih p j b' hb'
        exact ⟨a, ha.more _ hnet⟩
      · rcases input_sub hin p j b' hb' with hb | ⟨rfl, b, hb, htk, hjj⟩
        · obtain ⟨a, ha⟩ := ih p j b' hb
          exact ⟨a, ha.more _ hnet⟩
        · obtain ⟨a, ha⟩ := ih p j b hb
          obtain ⟨r, hst, rfl⟩ := take_some htk
          have hmem := List.mem_of_getElem? hk
          obtain ⟨hn, hsm, htid, hrg⟩ := copy_ok hf1 ((pubs_inv C P h w hw).2 _ hmem) hmem
          have hl' : s.layer = .udp ∨ s.layer = .tcp ∨ b.topic = n.topic := by
            rcases hl with e | e | e
            · exact .inl e
            · exact .inr (.inl e)
            · rcases hjj with rfl | ⟨e', rfl⟩
              · rw [hb] at e
                simp only [Option.map_some, Option.some.injEq] at e
                exact .inr (.inr e)
              · left
                unfold arrival at hi
                split at hi
                · assumption
                · split at hi <;> cases hi
                · cases hi
          rcases arrival_take _ _ _ _ _ n s i hi hn hsm htid hrg hl' hst with ⟨e1, e2⟩ | ⟨e0, e1, e2⟩
          · exact ⟨a, (ha.more _ hnet).still e1 e2 (by rfl)⟩
          · refine ⟨a ++ [.sample s], (ha.more _ hnet).call (.sample s) e1 e2 (by rfl) ?_⟩
            intro s' e
            injection e with e
            subst e
            obtain ⟨l, hl⟩ := hnet
            exact .inl ⟨n, by rw [hl]; exact List.mem_append_left _ hmem, e0.symm⟩
    | noise p' j' i =>
      have hs' : input C w p' j' i = some w' := hs
      rcases input_sub hs' p j b' hb' with hb | ⟨rfl, b, hb, htk, _⟩
      · obtain ⟨a, ha⟩ := ih p j b' hb
        exact ⟨a, ha.more _ hnet⟩
      · obtain ⟨a, ha⟩ := ih p j b hb
        obtain ⟨r, hst, rfl⟩ := take_some htk
        rcases noise_take hst with ⟨e1, e2⟩ | ⟨op, e1, e2, hop, _⟩
        · exact ⟨a, (ha.more _ hnet).still e1 e2 (by rfl)⟩
        · refine ⟨a ++ [op], (ha.more _ hnet).call op e1 e2 (by rfl) ?_⟩
          intro s e
          exact .inr ⟨j', i, by simp, hop s e⟩

end Ecal.E2E.Flow
