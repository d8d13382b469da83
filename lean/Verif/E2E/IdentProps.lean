import Verif.E2E.Ident
import Verif.Writer.Props
import Verif.Reader.Props
import Verif.Mon.MonitorProps
import Verif.Conn.Props

/-!
# C125: publishers are told apart
-/

namespace Ecal.E2E.Ident

open Reader (Sample)

/-! ## Specification -/

/-- Clock readings of the constructions, in order. -/
def ticks (h : List Op) : List Nat :=
  h.filterMap (fun op => match op with | .create _ _ t => some t | .send _ _ _ => none)

/-- Hosts of the constructions with the readings, in order. -/
def made (h : List Op) : List (String × Nat) :=
  h.filterMap (fun op => match op with | .create a _ t => some (a, t) | .send _ _ _ => none)

/-- What a steady clock promises: on one host, readings do not go back. -/
def ClocksSteady (h : List Op) : Prop := (made h).Pairwise (fun a b => a.1 = b.1 → a.2 ≤ b.2)

/-- Number of messages handed to publisher `i`. -/
def sentBy (i : Nat) (h : List Op) : Nat :=
  h.countP (fun op => match op with | .send j _ _ => j == i | .create _ _ _ => false)

/-- The hashes of two texts never lead to the same sample hash within `n` messages. -/
def Apart (H : String → BitVec 64) (n : Nat) (t u : String) : Prop :=
  ∀ a b, a ≤ n → b ≤ n → H t ^^^ (BitVec.ofNat 64 a <<< 1) ≠ H u ^^^ (BitVec.ofNat 64 b <<< 1)

/-! ## Lemmas -/

theorem idOf_inj {t u : Nat} (h : idOf t = idOf u) : t = u := by
  have : Mon.toDec t = Mon.toDec u := by
    have := congrArg String.toList h
    simpa [idOf] using this
  exact Mon.toDec_inj _ _ this

theorem run_ticks (H : String → BitVec 64) (h : List Op) (w : List Obj) :
    (run H w h).1.map Obj.tick = w.map Obj.tick ++ ticks h := by
  induction h generalizing w with
  | nil => simp [run, ticks]
  | cons op h ih =>
    simp only [run, ih]
    cases op with
    | create a p t => simp [step, ticks]
    | send i m l =>
      have : (step H w (.send i m l)).1.map Obj.tick = w.map Obj.tick := by
        simp only [step]
        cases hw : w[i]? with
        | none => rfl
        | some o =>
          apply List.ext_getElem?
          intro j
          simp only [List.getElem?_map, List.getElem?_set]
          by_cases hij : i = j
          · subst hij
            obtain ⟨hi, rfl⟩ := List.getElem?_eq_some_iff.1 hw
            simp [hi]
          · simp [hij]
      rw [this]; simp [ticks]

def clockOf (w : List Obj) (i : Nat) : Nat := (w[i]?.map Obj.clock).getD 0

theorem run_out (H : String → BitVec 64) (h : List Op) (w : List Obj) :
    ∀ x ∈ (run H w h).2, ∃ t m l k, (w.map Obj.tick ++ ticks h)[x.1]? = some t ∧
      x.2 = Writer.copyOf (wcfg H t) k m l ∧ clockOf w x.1 < k ∧ k ≤ clockOf w x.1 + sentBy x.1 h := by
  induction h generalizing w with
  | nil => simp [run]
  | cons op h ih =>
    intro x hx
    simp only [run, List.mem_append] at hx
    cases op with
    | create a p t =>
      simp only [step, List.not_mem_nil, false_or] at hx
      obtain ⟨t', m, l, k, h1, h2, h3, h4⟩ := ih _ x hx
      refine ⟨t', m, l, k, ?_, h2, ?_⟩
      · simpa [ticks] using h1
      · have : clockOf (w ++ [⟨a, p, t, 0⟩]) x.1 = clockOf w x.1 := by
          unfold clockOf
          rw [List.getElem?_append]
          by_cases hl : x.1 < w.length
          · simp [hl]
          · rw [if_neg hl, List.getElem?_eq_none (by omega : w.length ≤ x.1)]
            cases hd : x.1 - w.length with
            | zero => simp
            | succ n => simp
        rw [this] at h3 h4
        exact ⟨h3, by simpa [sentBy] using h4⟩
    | send i m l =>
      have hcount : sentBy x.1 (.send i m l :: h) = sentBy x.1 h + if i = x.1 then 1 else 0 := by
        simp [sentBy, List.countP_cons]
      cases hw : w[i]? with
      | none =>
        simp only [step, hw, List.not_mem_nil, false_or] at hx
        obtain ⟨t', m', l', k, h1, h2, h3, h4⟩ := ih _ x hx
        exact ⟨t', m', l', k, by simpa [ticks] using h1, h2, h3, by rw [hcount]; omega⟩
      | some o =>
        obtain ⟨hi, ho⟩ := List.getElem?_eq_some_iff.1 hw
        simp only [step, hw, List.mem_singleton] at hx
        rcases hx with rfl | hx
        · refine ⟨o.tick, m, l, o.clock + 1, ?_, rfl, ?_, ?_⟩
          · rw [List.getElem?_append_left (by simpa using hi)]
            simp [hw]
          · simp [clockOf, hw]
          · rw [hcount]; simp [clockOf, hw]
        · obtain ⟨t', m', l', k, h1, h2, h3, h4⟩ := ih _ x hx
          refine ⟨t', m', l', k, ?_, h2, ?_⟩
          · have : (w.set i { o with clock := o.clock + 1 }).map Obj.tick = w.map Obj.tick := by
              apply List.ext_getElem?
              intro j
              simp only [List.getElem?_map, List.getElem?_set]
              by_cases hij : i = j
              · subst hij; simp [hi]; rw [ho]
              · simp [hij]
            rw [this] at h1
            simpa [ticks] using h1
          · have hc : clockOf (w.set i { o with clock := o.clock + 1 }) x.1 =
                clockOf w x.1 + if i = x.1 then 1 else 0 := by
              unfold clockOf
              rw [List.getElem?_set]
              by_cases hix : i = x.1
              · rw [← hix]; simp [hi]; rw [ho]
              · simp [hix]
            rw [hc] at h3 h4
            rw [hcount]
            by_cases hix : i = x.1
            · rw [if_pos hix] at h3 h4 ⊢; omega
            · rw [if_neg hix] at h3 h4 ⊢; omega

theorem run_pairwise (H : String → BitVec 64) (h : List Op) (w : List Obj) :
    (run H w h).2.Pairwise (fun a b => a.1 = b.1 → a.2.clock < b.2.clock) := by
  induction h generalizing w with
  | nil => simp [run]
  | cons op h ih =>
    simp only [run]
    rw [List.pairwise_append]
    refine ⟨?_, ih _, ?_⟩
    · cases op with
      | create a p t => simp [step]
      | send i m l =>
        simp only [step]
        split <;> simp
    · intro a ha b hb hab
      cases op with
      | create a p t => simp [step] at ha
      | send i m l =>
        simp only [step] at ha hb
        cases hw : w[i]? with
        | none => simp [hw] at ha
        | some o =>
          simp only [hw, List.mem_singleton] at ha hb
          subst ha
          obtain ⟨hi, ho⟩ := List.getElem?_eq_some_iff.1 hw
          obtain ⟨t', m', l', k, _, h2, h3, _⟩ := run_out H h _ b hb
          simp only at hab
          rw [← hab] at h3
          simp only [clockOf, List.getElem?_set, hi, if_true, Option.map_some, Option.getD_some] at h3
          rw [h2]
          simp only [Writer.copyOf]
          omega

theorem pairwise_unique : ∀ {l : List (Nat × Sample)},
    l.Pairwise (fun a b => a.1 = b.1 → a.2.clock < b.2.clock) →
    ∀ a ∈ l, ∀ b ∈ l, a.1 = b.1 → a.2.clock = b.2.clock → a = b
  | [], _, a, ha, _, _, _, _ => by cases ha
  | x :: l, hp, a, ha, b, hb, h1, h2 => by
    obtain ⟨hx, hp'⟩ := List.pairwise_cons.1 hp
    rcases List.mem_cons.1 ha with ha' | ha'
    · rcases List.mem_cons.1 hb with hb' | hb'
      · rw [ha', hb']
      · subst ha'; have := hx b hb' h1; omega
    · rcases List.mem_cons.1 hb with hb' | hb'
      · subst hb'; have := hx a ha' h1.symm; omega
      · exact pairwise_unique hp' a ha' b hb' h1 h2

theorem ideal_all (c : Reader.Config) (hu : c.udp = true) (hs : c.shm = true) (ht : c.tcp = true) :
    ∀ (l : List Sample) (last : String → Option Int),
      l.Pairwise (fun a b => a.tid = b.tid → a.clock < b.clock) →
      (∀ s ∈ l, ∀ k, last s.tid = some k → k < s.clock) → Reader.ideal c [] last l = l
  | [], _, _, _ => rfl
  | s :: l, last, hp, hl => by
    obtain ⟨hx, hp'⟩ := List.pairwise_cons.1 hp
    have hd : ¬ Reader.Disabled c s.layer := by simp [Reader.Disabled, hu, hs, ht]
    rw [Reader.ideal, if_pos ⟨hd, Or.inl rfl, hl s (by simp)⟩]
    rw [ideal_all c hu hs ht l _ hp' ?_]
    intro s' hs' k hk
    by_cases he : s'.tid = s.tid
    · simp only [he, if_true, Option.some.injEq] at hk
      have := hx s' hs' he.symm; omega
    · simp only [he, if_false] at hk
      exact hl s' (by simp [hs']) k hk

theorem delivered_mem (c : Reader.Config) (h : List Reader.Op) (st : Reader.State) :
    ∀ s ∈ Reader.delivered (Reader.run c st h).2, Reader.Op.sample s ∈ h := by
  induction h generalizing st with
  | nil => intro s hs; simp [Reader.run, Reader.delivered] at hs
  | cons op h ih =>
    intro s hs
    simp only [Reader.run, Reader.delivered_append, List.mem_append] at hs
    rcases hs with hs | hs
    · have none_of : Reader.delivered (Reader.step c st op).2 = [] → s ∈ ([] : List Sample) := fun e => e ▸ hs
      cases op with
      | sample s' =>
        simp only [Reader.step] at hs
        have hcase := Reader.applyCase c st s'
        generalize Reader.applySample c st s' = r at hs hcase
        cases hcase with
        | ignored h => simp [Reader.delivered] at hs
        | dup hc hl h act => simp [Reader.delivered] at hs
        | filtered hc hl h hid act => simp [Reader.delivered] at hs
        | rejected hc hl h hid last hf hle act => simp [Reader.delivered] at hs
        | accepted hc hl h hid g evs hcase act b hb =>
          rw [Reader.delivered_append, Reader.delivered_end] at hs
          have he : Reader.delivered evs = [] := by
            rcases hcase with ⟨_, _, he⟩ | ⟨_, _, _, ⟨_, _, he⟩ | ⟨_, _, he⟩⟩ <;> rw [he] <;> rfl
          rw [he] at hs
          simp only [List.nil_append, List.mem_singleton] at hs
          simp [hs]
        | late hc hl h hid hd last hf hlt act b hb =>
          rw [Reader.delivered_end] at hs
          simp only [List.mem_singleton] at hs
          simp [hs]
      | read =>
        exfalso
        have := none_of (by
          simp only [Reader.step, Reader.read]
          split
          · rfl
          · split <;> rfl)
        cases this
      | addCb => exact absurd (none_of (by simp [Reader.step, Reader.delivered])) (by simp)
      | remCb => exact absurd (none_of (by simp [Reader.step, Reader.delivered])) (by simp)
      | setId ids => exact absurd (none_of (by simp [Reader.step, Reader.delivered])) (by simp)
      | stop => exact absurd (none_of (by simp [Reader.step, Reader.delivered])) (by simp)
    · exact List.mem_cons_of_mem _ (ih _ s hs)

/-- Strictly increasing whole numbers from 1 to `n` are at most `n` many. -/
theorem increasing_length : ∀ (l : List Int) (a : Int) (n : Nat), l.Pairwise (· < ·) →
    (∀ x ∈ l, a < x ∧ x ≤ a + n) → l.length ≤ n
  | [], _, _, _, _ => by simp
  | x :: l, a, n, hp, hb => by
    obtain ⟨hx, hp'⟩ := List.pairwise_cons.1 hp
    have h1 := hb x (by simp)
    have := increasing_length l x (a + n - x).toNat hp' (fun y hy => by
      have := hx y hy
      have := hb y (by simp [hy])
      omega)
    simp only [List.length_cons]
    omega

/-! ## C125 -/

def msg (b : UInt8) : Writer.Msg := ⟨[b], 0, 0⟩
def rcfg : Reader.Config := { udp := true, shm := true, tcp := true, drop := true }

/-- **C125 (identities).** Two publishers have the same identity exactly if their constructions read the same
number from the clock of their host – nothing else enters the identity. -/
theorem C125_id_iff (t u : Nat) : idOf t = idOf u ↔ t = u := ⟨idOf_inj, fun h => by rw [h]⟩

example : idOf 1207 = "1207" := by decide +kernel

/-- **C125 (one host, advancing clock).** As long as the clock of a host advances between the constructions, the
objects of that host have different identities, however many there are. -/
theorem C125_one_host_partial (l : List Nat) (h : l.Pairwise (· < ·)) : (l.map idOf).Nodup := by
  induction l with
  | nil => simp
  | cons t l ih =>
    obtain ⟨h1, h2⟩ := List.pairwise_cons.1 h
    rw [List.map_cons, List.nodup_cons]
    refine ⟨?_, ih h2⟩
    intro hm
    obtain ⟨u, hu, he⟩ := List.mem_map.1 hm
    have := idOf_inj he
    have := h1 u hu
    omega

example : ([5, 9, 10] : List Nat).Pairwise (· < ·) := by decide

/-- **C125 (all messages arrive).** If all constructions read different numbers and the texts' hashes are apart,
then every message of every publisher is delivered, once and in the order of sending: publishers do not disturb
one another, also if they come and go and each counts its messages from one.  Missing for the full claim: equal
clock readings and hash collisions. -/
theorem C125_all_delivered_partial (H : String → BitVec 64) (rc : Reader.Config) (hd : rc.drop = true)
    (hu : rc.udp = true) (hs : rc.shm = true) (ht : rc.tcp = true) (h : List Op) (hlen : h.length < 2 ^ 63)
    (htick : (ticks h).Nodup)
    (happ : ∀ t ∈ ticks h, ∀ u ∈ ticks h, t ≠ u → Apart H h.length (idOf t) (idOf u)) :
    received H rc h = (run H [] h).2.map Prod.snd := by
  have hout := run_out H h []
  have hpair := run_pairwise H h []
  have hsb : ∀ i, sentBy i h ≤ h.length := fun i => List.countP_le_length
  -- equal identities belong to the same publisher
  have hidx : ∀ x ∈ (run H [] h).2, ∀ y ∈ (run H [] h).2, x.2.tid = y.2.tid → x.1 = y.1 := by
    intro x hx y hy he
    obtain ⟨t, m, l, k, h1, h2, _, _⟩ := hout x hx
    obtain ⟨u, m', l', k', h3, h4, _, _⟩ := hout y hy
    rw [h2, h4] at he
    have htu : t = u := idOf_inj he
    subst htu
    simp only [List.map_nil, List.nil_append] at h1 h3
    obtain ⟨i1, e1⟩ := List.getElem?_eq_some_iff.1 h1
    obtain ⟨i2, e2⟩ := List.getElem?_eq_some_iff.1 h3
    exact (List.getElem_inj htick).1 (e1.trans e2.symm)
  have harr : ∀ l : List Sample, Reader.arrivals (l.map .sample) = l := by
    intro l; induction l with
    | nil => rfl
    | cons s l ih => simp [Reader.arrivals] at ih ⊢; exact ih
  have hsteady : ∀ l : List Sample, Reader.Steady (l.map .sample) := by
    intro l op hop
    obtain ⟨s, _, rfl⟩ := List.mem_map.1 hop
    exact ⟨by simp, by simp⟩
  have hdist : Reader.HashesDistinct ((run H [] h).2.map Prod.snd) := by
    intro a ha b hb he
    obtain ⟨x, hx, rfl⟩ := List.mem_map.1 ha
    obtain ⟨y, hy, rfl⟩ := List.mem_map.1 hb
    obtain ⟨t, m, l, k, h1, h2, h3, h4⟩ := hout x hx
    obtain ⟨u, m', l', k', h5, h6, h7, h8⟩ := hout y hy
    simp only [List.map_nil, List.nil_append] at h1 h5
    have c0 : ∀ i, clockOf [] i = 0 := fun i => by simp [clockOf]
    rw [c0] at h3 h4 h7 h8
    have b1 := hsb x.1
    have b2 := hsb y.1
    have hhash : Writer.sndHash (wcfg H t) k = Writer.sndHash (wcfg H u) k' := by
      rw [h2, h6] at he
      exact BitVec.eq_of_toNat_eq he
    by_cases htu : t = u
    · subst htu
      have hk := Writer.sndHash_inj _ _ _ (by omega) (by omega) hhash
      have htid : x.2.tid = y.2.tid := by rw [h2, h6]; rfl
      have hcl : x.2.clock = y.2.clock := by rw [h2, h6, hk]; rfl
      have := pairwise_unique hpair x hx y hy (hidx x hx y hy htid) hcl
      rw [this]; exact ⟨rfl, rfl, rfl⟩
    · exact absurd hhash (happ t (List.mem_of_getElem? h1) u (List.mem_of_getElem? h5) htu k k' (by omega) (by omega))
  have hq : Reader.QInv [] Reader.init [] := ⟨rfl, rfl, by simp [Reader.init]⟩
  have := Reader.run_ideal rc hd [] _ (hsteady ((run H [] h).2.map Prod.snd)) Reader.init []
    (by rw [harr]; simpa using hdist) hq
  unfold received
  rw [this, harr]
  apply ideal_all rc hu hs ht
  · rw [List.pairwise_map]
    refine List.Pairwise.imp_of_mem ?_ hpair
    intro a b ha hb hab htid
    exact hab (hidx a ha b hb htid)
  · intro s _ k hk
    simp [Reader.init] at hk

/-- **C125 (a sufficient condition).** Texts whose hashes differ in the lowest bit are apart, for any number of
messages: the counter is shifted left before it is mixed in. -/
theorem C125_apart_odd (H : String → BitVec 64) (n : Nat) (t u : String)
    (h : (H t).getLsbD 0 ≠ (H u).getLsbD 0) : Apart H n t u := by
  intro a b _ _ he
  have := congrArg (fun v => BitVec.getLsbD v 0) he
  simp at this
  exact h this

/-- **C125 (another one).** Texts whose hashes differ in a bit above those the counters can reach are apart. -/
theorem C125_apart_high (H : String → BitVec 64) (n i : Nat) (t u : String) (hi : i < 64) (hn : n * 2 < 2 ^ i)
    (h : (H t).getLsbD i ≠ (H u).getLsbD i) : Apart H n t u := by
  intro a b ha hb he
  have := congrArg (fun v => BitVec.getLsbD v i) he
  have hz : ∀ x, x ≤ n → (BitVec.ofNat 64 x <<< 1).getLsbD i = false := by
    intro x hx
    rw [BitVec.getLsbD]
    apply Nat.testBit_lt_two_pow
    rw [BitVec.toNat_shiftLeft, BitVec.toNat_ofNat, Nat.shiftLeft_eq]
    have h1 : 2 ^ i ≤ 2 ^ 63 := Nat.pow_le_pow_right (by omega) (by omega)
    rw [Nat.mod_eq_of_lt (by omega : x < 2 ^ 64)]
    rw [Nat.mod_eq_of_lt (by omega)]
    omega
  simp only [BitVec.getLsbD_xor, hz a ha, hz b hb, Bool.xor_false] at this
  exact h this

/-- Three publishers on two hosts, the third one replacing the first. -/
def busy : List Op :=
  [.create "a" 1 100, .create "b" 1 205, .send 0 (msg 1) .shm, .send 1 (msg 2) .tcp, .send 0 (msg 3) .shm,
   .create "a" 2 300, .send 2 (msg 4) .shm, .send 1 (msg 5) .tcp]

/-- A hash function for the example. -/
def exampleHash (s : String) : BitVec 64 := if s = "100" then 0x4000 else if s = "205" then 0x8001 else 0x10000

example : (received exampleHash rcfg busy).map Sample.payload = [[1], [2], [3], [4], [5]] := by decide +kernel
example : (ticks busy).Nodup ∧ ClocksSteady busy := by
  constructor
  · decide
  · unfold ClocksSteady; decide
example : Apart exampleHash 8 (idOf 100) (idOf 300) :=
  C125_apart_high _ _ 14 _ _ (by omega) (by omega) (by decide +kernel)

/-- **C125 (shared identity).** However many publishers share an identity and whatever they send: the subscriber
delivers at most as many of their messages as the busiest of them has sent. -/
theorem C125_shared (H : String → BitVec 64) (rc : Reader.Config) (hd : rc.drop = true) (h : List Op)
    (tick n : Nat) (hn : ∀ i, (ticks h)[i]? = some tick → sentBy i h ≤ n) :
    ((received H rc h).filter (fun s => s.tid == idOf tick)).length ≤ n := by
  have hinc := Reader.C07_counters_increase rc hd (idOf tick)
    (((run H [] h).2.map Prod.snd).map .sample)
  have := increasing_length _ 0 n hinc (by
    intro x hx
    obtain ⟨s, hs, rfl⟩ := List.mem_map.1 hx
    simp only [Reader.fromPub, List.mem_filter, beq_iff_eq] at hs
    have hm := delivered_mem rc _ _ s hs.1
    obtain ⟨s', hs', he⟩ := List.mem_map.1 hm
    cases he
    obtain ⟨y, hy, rfl⟩ := List.mem_map.1 hs'
    obtain ⟨t, m, l, k, h1, h2, h3, h4⟩ := run_out H h [] y hy
    have htk : t = tick := idOf_inj (by have := hs.2; rw [h2] at this; exact this)
    subst htk
    simp only [List.map_nil, List.nil_append] at h1
    have hb := hn _ h1
    simp only [clockOf, List.getElem?_nil, Option.map_none, Option.getD_none] at h3 h4
    rw [h2]; simp only [Writer.copyOf]
    omega)
  simpa [Reader.fromPub, received] using this

/-- Two publishers, both created when their clock showed 77, each sending once. -/
def twins (a b : String) : List Op :=
  [.create a 1 77, .create b 1 77, .send 0 (msg 1) .shm, .send 1 (msg 2) .tcp]

example : ((received exampleHash rcfg (twins "a" "b")).filter (fun s => s.tid == idOf 77)).map Sample.payload = [[1]] := by
  decide +kernel

/-- **C125 violated (two hosts).** The clocks of two hosts are steady and independent, yet two publishers on them
can get the same identity; one of their two messages is not delivered, whatever the hash function. -/
theorem C125_violated_hosts (H : String → BitVec 64) :
    ClocksSteady (twins "a" "b") ∧ ((run H [] (twins "a" "b")).2.map Prod.snd).length = 2 ∧
      ((received H rcfg (twins "a" "b")).filter (fun s => s.tid == idOf 77)).length ≤ 1 := by
  refine ⟨by unfold ClocksSteady; decide, by simp [twins, run, step], ?_⟩
  apply C125_shared H rcfg rfl
  intro i hi
  match i with
  | 0 => decide
  | 1 => decide
  | i + 2 => simp [twins, ticks] at hi

/-- **C125 violated (one process).** Also on one host: a steady clock may show the same number twice, for example
to two threads that create a publisher at the same moment. -/
theorem C125_violated_same_tick (H : String → BitVec 64) :
    ClocksSteady (twins "a" "a") ∧ ((run H [] (twins "a" "a")).2.map Prod.snd).length = 2 ∧
      ((received H rcfg (twins "a" "a")).filter (fun s => s.tid == idOf 77)).length ≤ 1 := by
  refine ⟨by unfold ClocksSteady; decide, by simp [twins, run, step], ?_⟩
  apply C125_shared H rcfg rfl
  intro i hi
  match i with
  | 0 => decide
  | 1 => decide
  | i + 2 => simp [twins, ticks] at hi

/-- **C125 (hashes).** Messages of two publishers have the same sample hash exactly if the difference of their
texts' hashes equals the difference of the doubled counters. -/
theorem C125_hash_iff (H : String → BitVec 64) (t u a b : Nat) :
    Writer.sndHash (wcfg H t) a = Writer.sndHash (wcfg H u) b ↔
      H (idOf t) ^^^ H (idOf u) = (BitVec.ofNat 64 a <<< 1) ^^^ (BitVec.ofNat 64 b <<< 1) := by
  simp only [Writer.sndHash, wcfg]
  generalize H (idOf t) = p
  generalize H (idOf u) = q
  generalize BitVec.ofNat 64 a <<< 1 = x
  generalize BitVec.ofNat 64 b <<< 1 = y
  constructor
  · intro h
    have : (p ^^^ x) ^^^ (x ^^^ q) = (q ^^^ y) ^^^ (x ^^^ q) := by rw [h]
    have e1 : (p ^^^ x) ^^^ (x ^^^ q) = p ^^^ q := by
      rw [BitVec.xor_assoc, ← BitVec.xor_assoc x, BitVec.xor_self, BitVec.zero_xor]
    have e2 : (q ^^^ y) ^^^ (x ^^^ q) = x ^^^ y := by
      rw [BitVec.xor_comm x q, BitVec.xor_comm q y, BitVec.xor_assoc, ← BitVec.xor_assoc q, BitVec.xor_self,
        BitVec.zero_xor, BitVec.xor_comm]
    rw [e1, e2] at this; exact this
  · intro h
    have : (p ^^^ q) ^^^ (q ^^^ x) = (x ^^^ y) ^^^ (q ^^^ x) := by rw [h]
    have e1 : (p ^^^ q) ^^^ (q ^^^ x) = p ^^^ x := by
      rw [BitVec.xor_assoc, ← BitVec.xor_assoc q, BitVec.xor_self, BitVec.zero_xor]
    have e2 : (x ^^^ y) ^^^ (q ^^^ x) = q ^^^ y := by
      rw [BitVec.xor_comm q x, BitVec.xor_comm x y, BitVec.xor_assoc, ← BitVec.xor_assoc x, BitVec.xor_self,
        BitVec.zero_xor, BitVec.xor_comm]
    rw [e1, e2] at this; exact this

/-- A hash function under which the identities 1 and 2 collide. -/
def badHash (s : String) : BitVec 64 := if s = "1" then 2 else if s = "2" then 4 else 0

/-- **C125 violated (hashes).** Different identities are not enough: the messages carry only one number made from
identity and counter.  For a hash function with a small difference between two identities the second message of
the second publisher is taken for a copy of the first publisher's first one, and is lost. -/
theorem C125_violated_hash :
    ∃ h : List Op, (ticks h).Nodup ∧ ClocksSteady h ∧ (run badHash [] h).2.length = 3 ∧
      (received badHash rcfg h).map Sample.payload = [[1], [2]] :=
  ⟨[.create "a" 1 1, .create "a" 1 2, .send 0 (msg 1) .shm, .send 1 (msg 2) .shm, .send 1 (msg 3) .shm],
    by decide, by unfold ClocksSteady; decide, by decide +kernel, by decide +kernel⟩

/-- **C125 (who is connected).** A subscriber tells its publishers apart by host, process and identity. -/
theorem C125_peer_iff (a b : Obj) : a.peer = b.peer ↔ a.host = b.host ∧ a.pid = b.pid ∧ a.tick = b.tick := by
  constructor
  · intro h
    injection h with h1 h2 h3
    exact ⟨h1, h2, idOf_inj h3⟩
  · rintro ⟨h1, h2, h3⟩
    simp [Obj.peer, h1, h2, h3]

/-- **C125 violated (who is connected).** Two publishers of one process with the same clock reading count as one;
when one of them is destroyed the subscriber forgets both. -/
theorem C125_violated_peers :
    ∃ a b : Obj, a ≠ b ∧
      (Conn.run (Conn.init 10000) [(1, .apply a.peer), (1, .apply b.peer)]).map (fun r => Conn.count r.1) = some 1 ∧
      (Conn.run (Conn.init 10000) [(1, .apply a.peer), (1, .apply b.peer), (2, .remove a.peer)]).map
        (fun r => Conn.count r.1) = some 0 :=
  ⟨⟨"a", 1, 77, 0⟩, ⟨"a", 1, 77, 3⟩, by decide, by decide +kernel, by decide +kernel⟩

/-- **C125 (monitoring).** The monitoring of a topic tells publishers apart by their identity only. -/
theorem C125_monitor_iff (topic : List Char) (a b : Obj) :
    Mon.key .publisher (a.ident topic) = Mon.key .publisher (b.ident topic) ↔ a.tick = b.tick := by
  simp only [Mon.key, Obj.ident]
  constructor
  · intro h
    exact Mon.toDec_inj _ _ (List.append_cancel_left h)
  · intro h; rw [h]

/-- **C125 violated (monitoring).** Of two publishers of a topic on different hosts only the one registered last is
listed, if their clock readings agree. -/
theorem C125_violated_monitor :
    ∃ a b : Obj, a.host ≠ b.host ∧
      (Mon.mrun .publisher (ExpMap.init _ _ 10000)
        [(1, .register ⟨a.ident ['t'], 0⟩), (2, .register ⟨b.ident ['t'], 0⟩)]).map
        (fun s => (Mon.listing s 3).map (fun e => e.ident.host)) = some [['b']] :=
  ⟨⟨"a", 1, 77, 0⟩, ⟨"b", 1, 77, 0⟩, by decide, by decide +kernel⟩

end Ecal.E2E.Ident
