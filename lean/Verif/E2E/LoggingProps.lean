import Verif.E2E.Logging
import Verif.Wire.MessageProps
import Verif.Udp.FrameProps
import Verif.Capi.CopyProps
import Verif.Mon.MonitorProps

/-!
# C126: log messages reach other processes and the log file as they were logged
-/

namespace Ecal.E2E.Logging

open Ecal.Wire (LogMsg)

/-! ## Specification -/

/-- The messages meant for the network, as they should arrive. -/
def meant (h : List (Sender × Entry)) : List LogMsg :=
  (h.filter (fun x => x.2.text ≠ [] ∧ x.2.level &&& x.1.udp ≠ 0)).map (fun x =>
    { time := .ofNat 64 x.2.time, hname := x.1.who.host, pid := .ofNat 32 x.1.who.pid, pname := x.1.who.pname,
      uname := x.1.who.uname, level := x.2.level, content := x.2.text })

/-- The datagrams that arrive in a history of the collecting process; an `error` is not a datagram. -/
def arrived (ins : List In) : List Bytes :=
  ins.filterMap (fun i => match i with | .udp (.datagram d) => some d | _ => none)

/-- The receive operation never fails, and the C function is not used. -/
def Calm (ins : List In) : Prop := ∀ i ∈ ins, i ≠ .udp .error ∧ ∀ m t l, i ≠ .fetchC m t l

/-- The messages the application has in its hands after a call. -/
def Got.read : Got → List LogMsg
  | .nothing => []
  | .msgs l => l
  | .text b => (Wire.deserializeLogList [] b).getD []
  | .c (.ret v (.bytes buf)) => (Wire.deserializeLogList [] (buf.take v.toNat)).getD []
  | .c (.ret _ (.slot (some b))) => (Wire.deserializeLogList [] b).getD []
  | .c _ => []

/-- Small enough to be sent in a datagram of the framing. -/
def Short (h : List (Sender × Entry)) : Prop := ∀ m ∈ meant h, (Wire.serializeLog m).length < 2 ^ 32

/-! ## Lemmas -/

theorem mem_meant_ne {h : List (Sender × Entry)} {m : LogMsg} (hm : m ∈ meant h) : m ≠ {} := by
  obtain ⟨x, hx, rfl⟩ := List.mem_map.1 hm
  have := (List.mem_filter.1 hx).2
  simp only [ne_eq, decide_eq_true_eq] at this
  intro he
  exact this.1 (congrArg LogMsg.content he)

theorem sendAll_meant (h : List (Sender × Entry)) : sendAll h = (meant h).map datagram := by
  induction h with
  | nil => rfl
  | cons x h ih =>
    have hc : sendAll (x :: h) = send x.1 x.2 ++ sendAll h := by simp [sendAll]
    rw [hc, ih]
    unfold meant
    by_cases h1 : x.2.text = []
    · simp [send, h1]
    · by_cases h2 : x.2.level &&& x.1.udp = 0
      · simp [send, h1, h2]
      · have hf : (decide (x.2.text ≠ [] ∧ x.2.level &&& x.1.udp ≠ 0)) = true := decide_eq_true ⟨h1, h2⟩
        rw [List.filter_cons_of_pos (by exact hf)]
        simp only [send, if_neg h1, if_neg h2, List.map_cons, record, List.singleton_append]

theorem logName_ok : (0 : UInt8) ∉ logName ∧ logName.length < 65535 := by decide

/-- Arrival of a datagram of the logging at a listening receiver. -/
theorem step_datagram (host : Bytes) (network : Bool) (r : Rcv) (m : LogMsg) (hr : r.armed = true) (h0 : m ≠ {})
    (hl : (Wire.serializeLog m).length < 2 ^ 32) :
    step host network r (.udp (.datagram (datagram m))) =
      some (if m.hname = host ∨ network = true then { r with stored := r.stored ++ [m] } else r, .nothing) := by
  have h1 : Udp.decode (datagram m) = .sample logName (Wire.serializeLog m) :=
    Udp.C23_roundtrip _ _ logName_ok.1 logName_ok.2
  have h2 := Wire.C30_log_roundtrip m h0 hl
  simp only [step, Udp.rx, hr, h1]
  simp only [Bool.not_true, Bool.false_eq_true, if_false, beq_self_eq_true, if_true, List.nil_append, List.foldl_cons,
    List.foldl_nil]
  simp only [applySample, h2]
  cases r
  simp only at hr
  subst hr
  rfl

theorem text_read (l : List LogMsg) (hl : (Wire.serializeLogList l).length < 2 ^ 32) :
    (Wire.deserializeLogList [] (Wire.serializeLogList l)).getD [] = l := by
  by_cases h : l = []
  · subst h; rw [Wire.C30_violated_empty_list]; rfl
  · rw [Wire.C30_list_roundtrip l [] h hl]; simp

/-- The collecting process over a whole history. -/
theorem run_collects (host : Bytes) (network : Bool) (ins : List In) (hc : Calm ins) :
    ∀ (r : Rcv) (ms : List LogMsg), r.armed = true → arrived ins = ms.map datagram →
      (∀ m ∈ ms, m ≠ {} ∧ (Wire.serializeLog m).length < 2 ^ 32) →
      ∃ r' got, run host network r ins = some (r', got) ∧ r'.armed = true ∧
        ((∀ b, .text b ∈ got → b.length < 2 ^ 32) →
          (got.flatMap Got.read) ++ r'.stored =
            r.stored ++ ms.filter (fun m => m.hname = host ∨ network = true)) := by
  induction ins with
  | nil =>
    intro r ms hr ha _
    have : ms = [] := by
      cases ms with
      | nil => rfl
      | cons m ms => simp [arrived] at ha
    subst this
    exact ⟨r, [], rfl, hr, by simp⟩
  | cons i ins ih =>
    intro r ms hr ha hm
    have hc' : Calm ins := fun j hj => hc j (by simp [hj])
    have hi := hc i (by simp)
    cases i with
    | udp e =>
      cases e with
      | error => exact absurd rfl hi.1
      | datagram d =>
        have ha' : d :: arrived ins = ms.map datagram := by simpa [arrived] using ha
        cases ms with
        | nil => cases ha'
        | cons m ms =>
          rw [List.map_cons, List.cons.injEq] at ha'
          obtain ⟨rfl, ha'⟩ := ha'
          have h1 := hm m (by simp)
          have hs := step_datagram host network r m hr h1.1 h1.2
          obtain ⟨r', got, h2, h3, h4⟩ := ih hc'
            (if m.hname = host ∨ network = true then { r with stored := r.stored ++ [m] } else r) ms
            (by split <;> exact hr) ha' (fun m' hm' => hm m' (by simp [hm']))
          refine ⟨r', .nothing :: got, ?_, h3, ?_⟩
          · simp only [run, hs, h2]
          · intro ht
            have := h4 (fun b hb => ht b (by simp [hb]))
            simp only [List.flatMap_cons, Got.read, List.nil_append]
            rw [this, List.filter_cons]
            by_cases hp : m.hname = host ∨ network = true
            · simp [hp]
            · simp [hp]
    | fetch =>
      obtain ⟨r', got, h2, h3, h4⟩ := ih hc' { r with stored := [] } ms hr (by simpa [arrived] using ha) hm
      refine ⟨r', .msgs r.stored :: got, by simp only [run, step, h2], h3, ?_⟩
      intro ht
      have := h4 (fun b hb => ht b (by simp [hb]))
      simp only [List.flatMap_cons, Got.read, List.append_assoc]
      rw [this]; simp
    | fetchText =>
      obtain ⟨r', got, h2, h3, h4⟩ := ih hc' { r with stored := [] } ms hr (by simpa [arrived] using ha) hm
      refine ⟨r', .text (Wire.serializeLogList r.stored) :: got, by simp only [run, step, h2], h3, ?_⟩
      intro ht
      have := h4 (fun b hb => ht b (by simp [hb]))
      simp only [List.flatMap_cons, Got.read, List.append_assoc]
      rw [this, text_read _ (ht _ (by simp))]; simp
    | fetchC m t l => exact absurd rfl (hi.2 m t l)

/-- Splitting at the first occurrence of a byte. -/
theorem split_first {x : UInt8} : ∀ {a b r s : Bytes}, x ∉ a → x ∉ b → a ++ x :: r = b ++ x :: s → a = b ∧ r = s
  | [], [], _, _, _, _, h => by
    simp only [List.nil_append, List.cons.injEq, true_and] at h
    exact ⟨rfl, h⟩
  | [], y :: b, _, _, _, hb, h => by
    simp only [List.nil_append, List.cons_append, List.cons.injEq] at h
    exact absurd (by simp [h.1]) hb
  | y :: a, [], _, _, ha, _, h => by
    simp only [List.nil_append, List.cons_append, List.cons.injEq] at h
    exact absurd (by simp [h.1]) ha
  | y :: a, z :: b, _, _, ha, hb, h => by
    simp only [List.cons_append, List.cons.injEq] at h
    have := split_first (fun hh => ha (List.mem_cons_of_mem _ hh)) (fun hh => hb (List.mem_cons_of_mem _ hh)) h.2
    exact ⟨by rw [h.1, this.1], this.2⟩

theorem digit_range {n : Nat} {b : UInt8} (h : b ∈ dec n) : 48 ≤ b.toNat ∧ b.toNat ≤ 57 := by
  obtain ⟨c, hc, rfl⟩ := List.mem_map.1 h
  have := Mon.toDec_digits n c hc
  simp only [Mon.isDigit, Bool.and_eq_true, decide_eq_true_eq] at this
  rw [UInt8.toNat_ofNat']
  omega

theorem map_inj_digits : ∀ {a b : List Char}, (∀ c ∈ a, Mon.isDigit c = true) → (∀ c ∈ b, Mon.isDigit c = true) →
    a.map (fun c => UInt8.ofNat c.toNat) = b.map (fun c => UInt8.ofNat c.toNat) → a = b
  | [], [], _, _, _ => rfl
  | [], _ :: _, _, _, h => by simp at h
  | _ :: _, [], _, _, h => by simp at h
  | c :: a, d :: b, ha, hb, h => by
    simp only [List.map_cons, List.cons.injEq] at h
    have h1 := ha c (by simp)
    have h2 := hb d (by simp)
    simp only [Mon.isDigit, Bool.and_eq_true, decide_eq_true_eq] at h1 h2
    have h3 := congrArg UInt8.toNat h.1
    rw [UInt8.toNat_ofNat', UInt8.toNat_ofNat'] at h3
    have h4 : c.toNat = d.toNat := by omega
    have h5 : c = d := by
      apply Char.ext
      apply UInt32.toNat_inj.1
      exact h4
    rw [h5, map_inj_digits (fun x hx => ha x (by simp [hx])) (fun x hx => hb x (by simp [hx])) h.2]

theorem dec_inj {n m : Nat} (h : dec n = dec m) : n = m :=
  Mon.toDec_inj _ _ (map_inj_digits (Mon.toDec_digits n) (Mon.toDec_digits m) h)

/-! ## C126: over the network -/

def me : Who := ⟨[97], 7, [112], [117]⟩
def you : Who := ⟨[98], 8, [112], [118]⟩
def snd (w : Who) : Sender := ⟨w, 255, 255⟩

/-- **C126 (what is sent).** Whatever is logged by whatever processes: the datagrams are exactly those of the
non-empty messages whose level passes the filter for the network, each once and in the order of logging. -/
theorem C126_sent (h : List (Sender × Entry)) : sendAll h = (meant h).map datagram := sendAll_meant h

/-- **C126 (nothing lost, nothing changed).** If every datagram arrives once and in order, then over every
interleaving of arrivals and fetches – as structures or as serialised text – the application gets, together with what
is still stored, exactly the messages that were logged by all processes (in local mode: of this host), with time, host,
process, unit, level and text unchanged, each once and in the order of logging. -/
theorem C126_lossless (host : Bytes) (network : Bool) (h : List (Sender × Entry)) (hs : Short h) (ins : List In)
    (hc : Calm ins) (ha : arrived ins = sendAll h) :
    ∃ r got, run host network {} ins = some (r, got) ∧
      ((∀ b, .text b ∈ got → b.length < 2 ^ 32) →
        got.flatMap Got.read ++ r.stored = (meant h).filter (fun m => m.hname = host ∨ network = true)) := by
  obtain ⟨r, got, h1, _, h2⟩ := run_collects host network ins hc {} (meant h) rfl (by rw [ha, sendAll_meant])
    (fun m hm => ⟨mem_meant_ne hm, hs m hm⟩)
  exact ⟨r, got, h1, fun ht => by simpa using h2 ht⟩

example : Short [(snd me, ⟨5000, 1, [104, 105]⟩), (snd you, ⟨6000, 4, [33]⟩)] := by
  intro m hm
  have : m = record me ⟨5000, 1, [104, 105]⟩ ∨ m = record you ⟨6000, 4, [33]⟩ := by
    simpa [meant, snd, record] using hm
  rcases this with rfl | rfl <;> decide +kernel
example : run [97] false {} [.udp (.datagram (datagram (record me ⟨5000, 1, [104, 105]⟩))),
      .udp (.datagram (datagram (record you ⟨6000, 4, [33]⟩))), .fetch] =
    some ({}, [.nothing, .nothing, .msgs [record me ⟨5000, 1, [104, 105]⟩]]) := by decide +kernel

/-- **C126 (only what was logged).** Whatever of the datagrams arrives, in any order and any number of times: every
message the application gets was logged by one of the processes with exactly this content, its level passes the filter
of that process, and in local mode it is of this host. -/
theorem C126_only_logged (host : Bytes) (network : Bool) (h : List (Sender × Entry)) (hs : Short h) (ins : List In)
    (hc : Calm ins) (ha : ∀ d ∈ arrived ins, d ∈ sendAll h) :
    ∃ r got, run host network {} ins = some (r, got) ∧
      ((∀ b, .text b ∈ got → b.length < 2 ^ 32) →
        ∀ m ∈ got.flatMap Got.read ++ r.stored, (m.hname = host ∨ network = true) ∧
          ∃ s e, (s, e) ∈ h ∧ e.text ≠ [] ∧ e.level &&& s.udp ≠ 0 ∧ m.content = e.text ∧ m.level = e.level ∧
            m.time = .ofNat 64 e.time ∧ m.hname = s.who.host ∧ m.pid = .ofNat 32 s.who.pid ∧ m.uname = s.who.uname ∧
            m.pname = s.who.pname) := by
  have hex : ∀ l : List Bytes, (∀ d ∈ l, d ∈ sendAll h) → ∃ ms : List LogMsg, l = ms.map datagram ∧ ∀ m ∈ ms, m ∈ meant h := by
    intro l
    induction l with
    | nil => intro _; exact ⟨[], rfl, by simp⟩
    | cons d l ih =>
      intro hl
      obtain ⟨ms, h1, h2⟩ := ih (fun x hx => hl x (by simp [hx]))
      have := hl d (by simp)
      rw [sendAll_meant] at this
      obtain ⟨m, hm, rfl⟩ := List.mem_map.1 this
      exact ⟨m :: ms, by rw [h1, List.map_cons], by
        intro x hx
        rcases List.mem_cons.1 hx with rfl | hx
        · exact hm
        · exact h2 x hx⟩
  obtain ⟨ms, h1, h2⟩ := hex _ ha
  obtain ⟨r, got, h3, _, h4⟩ := run_collects host network ins hc {} ms rfl h1
    (fun m hm => ⟨mem_meant_ne (h2 m hm), hs m (h2 m hm)⟩)
  refine ⟨r, got, h3, ?_⟩
  intro ht m hm
  rw [h4 ht] at hm
  simp only [List.nil_append, List.mem_filter, decide_eq_true_eq] at hm
  refine ⟨hm.2, ?_⟩
  obtain ⟨x, hx, he⟩ := List.mem_map.1 (h2 m hm.1)
  obtain ⟨hx1, hx2⟩ := List.mem_filter.1 hx
  simp only [ne_eq, decide_eq_true_eq] at hx2
  subst he
  exact ⟨x.1, x.2, hx1, hx2.1, hx2.2, rfl, rfl, rfl, rfl, rfl, rfl, rfl⟩

/-- Two copies of the second message, then the first one. -/
example : ∀ d ∈ arrived [.udp (.datagram (datagram (record you ⟨6000, 4, [33]⟩))), .fetchText,
      .udp (.datagram (datagram (record you ⟨6000, 4, [33]⟩))),
      .udp (.datagram (datagram (record me ⟨5000, 1, [104, 105]⟩)))],
    d ∈ sendAll [(snd me, ⟨5000, 1, [104, 105]⟩), (snd you, ⟨6000, 4, [33]⟩)] := by decide +kernel

/-- **C126 (C interface).** With a buffer that is large enough the C function hands out all stored messages.  Missing
for the full claim: smaller buffers, see below. -/
theorem C126_c_partial (host : Bytes) (network malloc : Bool) (r : Rcv) (buf : Bytes) (hne : r.stored ≠ [])
    (hsz : (Wire.serializeLogList r.stored).length ≤ buf.length) (hb : buf.length < 2147483648) :
    ∃ r' g, step host network r (.fetchC malloc (.bytes buf) buf.length) = some (r', g) ∧ r'.stored = [] ∧
      g.read = r.stored := by
  have hnb : Wire.serializeLogList r.stored ≠ [] := by
    intro he
    have := Wire.C30_list_roundtrip r.stored [] hne (by rw [he]; decide)
    rw [he] at this
    simp [Wire.deserializeLogList] at this
  have hp := List.length_pos_iff.2 hnb
  have hbuf : buf ≠ [] := by
    intro he; rw [he] at hsz; simp at hsz; exact hnb hsz
  have hc := Capi.C78_copy_partial malloc buf (Wire.serializeLogList r.stored) hbuf hnb (by omega)
  rw [if_pos hsz] at hc
  have hz : Capi.toInt (Wire.serializeLogList r.stored).length ≠ 0 := by
    rw [Capi.toInt_small _ (by omega)]; omega
  refine ⟨{ r with stored := [] },
    .c (.ret (Wire.serializeLogList r.stored).length
      (.bytes (Wire.serializeLogList r.stored ++ buf.drop (Wire.serializeLogList r.stored).length))), ?_, rfl, ?_⟩
  · simp only [step, if_pos hz, hc]
  simp only [Got.read]
  rw [Int.toNat_natCast, List.take_left' rfl]
  exact text_read _ (by omega)

example : (Wire.serializeLogList [record me ⟨5000, 1, [104, 105]⟩]).length ≤ (List.replicate 40 (0 : UInt8)).length := by
  decide +kernel

/-- **C126 violated (small buffer).** The C function clears the list before it looks at the buffer: with a buffer that
is too small it returns 0 and all collected messages are gone. -/
theorem C126_violated_small_buffer (host : Bytes) (network malloc : Bool) (r : Rcv) (buf : Bytes) (hb : buf ≠ [])
    (hsz : buf.length < (Wire.serializeLogList r.stored).length)
    (hl : (Wire.serializeLogList r.stored).length < 2147483648) :
    step host network r (.fetchC malloc (.bytes buf) buf.length) =
      some ({ r with stored := [] }, .c (.ret 0 (.bytes buf))) := by
  have hnb : Wire.serializeLogList r.stored ≠ [] := by intro he; rw [he] at hsz; simp at hsz
  have hc := Capi.C78_copy_partial malloc buf (Wire.serializeLogList r.stored) hb hnb hl
  rw [if_neg (by omega)] at hc
  have hz : Capi.toInt (Wire.serializeLogList r.stored).length ≠ 0 := by
    rw [Capi.toInt_small _ hl]; omega
  simp only [step, if_pos hz, hc]

example : step [97] true { stored := [record me ⟨5000, 1, [104, 105]⟩] } (.fetchC true (.bytes [0, 0, 0, 0]) 4) =
    some ({}, .c (.ret 0 (.bytes [0, 0, 0, 0]))) := by decide +kernel

/-- **C126 violated (deaf).** One datagram that is not well formed makes the process deaf for all later log messages
(the receiver of C24). -/
theorem C126_violated_deaf (host : Bytes) (network : Bool) (ds : List Bytes) :
    run host network {} (.udp (.datagram [255, 255, 0]) :: ds.map (fun d => .udp (.datagram d))) =
      some ({ armed := false }, .nothing :: ds.map (fun _ => .nothing)) := by
  have h1 : Udp.decode [255, 255, 0] = .damaged := by decide +kernel
  have h2 : ∀ ds : List Bytes, run host network { armed := false } (ds.map (fun d => .udp (.datagram d))) =
      some ({ armed := false }, ds.map (fun _ => .nothing)) := by
    intro ds
    induction ds with
    | nil => rfl
    | cons d ds ih =>
      simp only [List.map_cons, run, step, Udp.rx]
      simp [ih]
  have h3 : step host network {} (.udp (.datagram [255, 255, 0])) = some ({ armed := false }, .nothing) := by
    simp only [step, Udp.rx, h1]; rfl
  simp only [run, h3, h2]

/-- **C126 violated (memory).** Every process collects, whether it ever fetches or not, without a limit: any number of
arriving messages is kept. -/
theorem C126_violated_unbounded (n : Nat) :
    ∃ ins r got, run [97] false {} ins = some (r, got) ∧ ins.length = n ∧ r.stored.length = n := by
  have key : ∀ (n : Nat) (r : Rcv), r.armed = true → ∃ ins r' got, run [97] false r ins = some (r', got) ∧
      ins.length = n ∧ r'.stored.length = r.stored.length + n := by
    intro n
    induction n with
    | zero => intro r _; exact ⟨[], r, [], rfl, rfl, rfl⟩
    | succ n ih =>
      intro r hr
      have hs := step_datagram [97] false r (record me ⟨5000, 1, [104, 105]⟩) hr (by decide) (by decide +kernel)
      have hh : (record me ⟨5000, 1, [104, 105]⟩).hname = [97] ∨ false = true := Or.inl rfl
      rw [if_pos hh] at hs
      obtain ⟨ins, r', got, h1, h2, h3⟩ := ih { r with stored := r.stored ++ [record me ⟨5000, 1, [104, 105]⟩] } hr
      refine ⟨.udp (.datagram (datagram (record me ⟨5000, 1, [104, 105]⟩))) :: ins, r', .nothing :: got, ?_, ?_, ?_⟩
      · simp only [run, hs, h1]
      · simp [h2]
      · rw [h3]; simp; omega
  obtain ⟨ins, r', got, h1, h2, h3⟩ := key n {} rfl
  exact ⟨ins, r', got, h1, h2, by simpa using h3⟩

/-- **C126 (initialised library).** The text handed out is the serialisation of the stored messages, whatever the text
contained before. -/
theorem C126_text (r : Rcv) (old : Bytes) (hl : (Wire.serializeLogList r.stored).length < 2147483648) :
    (getLoggingText (some r) old).1 = Wire.serializeLogList r.stored ∧
      (getLoggingText (some r) old).2 = (Wire.serializeLogList r.stored).length :=
  ⟨rfl, Capi.toInt_small _ hl⟩

/-- **C126 violated (library not initialised).** A program that asks again after the library was finalised, with the same
text variable, gets the messages it has got before once more, and a length that says so. -/
theorem C126_violated_stale (old : Bytes) (hl : old.length < 2147483648) :
    getLoggingText none old = (old, (old.length : Int)) := by
  simp only [getLoggingText]
  rw [Capi.toInt_small _ hl]

/-! ## C126: in the log file -/

/-- A text the line format can carry. -/
def Plain (b : Bytes) : Prop := 0 ∉ b ∧ 10 ∉ b

instance (b : Bytes) : Decidable (Plain b) := by unfold Plain; infer_instance

/-- The levels of ecal_log_level.h that can be logged. -/
def Known (l : BitVec 32) : Prop :=
  l = 1 ∨ l = 2 ∨ l = 4 ∨ l = 8 ∨ l = 16 ∨ l = 32 ∨ l = 64 ∨ l = 128 ∨ l = 255

/-- What a line says about a call: the time in milliseconds, the level, the text. -/
def said (e : Entry) : Nat × BitVec 32 × Bytes := (e.time / 1000, e.level, e.text)

theorem dec_plain (n : Nat) : Plain (dec n) ∧ 32 ∉ dec n := by
  refine ⟨⟨?_, ?_⟩, ?_⟩ <;> intro h <;> have := digit_range h <;> simp at this

theorem levelName_plain {l : BitVec 32} (h : Known l) : Plain (levelName l) ∧ 32 ∉ levelName l := by
  rcases h with rfl | rfl | rfl | rfl | rfl | rfl | rfl | rfl | rfl <;> decide

theorem levelName_inj {l k : BitVec 32} (h : Known l) (h' : Known k) (he : levelName l = levelName k) : l = k := by
  rcases h with rfl | rfl | rfl | rfl | rfl | rfl | rfl | rfl | rfl <;>
    rcases h' with rfl | rfl | rfl | rfl | rfl | rfl | rfl | rfl | rfl <;> first | rfl | (revert he; decide)

theorem plain_append {a b : Bytes} : Plain (a ++ b) ↔ Plain a ∧ Plain b := by
  simp only [Plain, List.mem_append, not_or]
  constructor
  · rintro ⟨⟨h1, h2⟩, h3, h4⟩; exact ⟨⟨h1, h3⟩, h2, h4⟩
  · rintro ⟨⟨h1, h2⟩, h3, h4⟩; exact ⟨⟨h1, h3⟩, h2, h4⟩

theorem line_plain {w : Who} {e : Entry} (hh : Plain w.host) (hu : Plain w.uname) (hk : Known e.level)
    (ht : Plain e.text) : Plain (line w e) := by
  have hbar : Plain bar := by decide
  have hms : Plain [32, 109, 115] := by decide
  simp only [line, plain_append]
  exact ⟨⟨⟨⟨⟨⟨⟨⟨⟨⟨⟨(dec_plain _).1, hms⟩, hbar⟩, hh⟩, hbar⟩, hu⟩, hbar⟩, (dec_plain _).1⟩, hbar⟩, (levelName_plain hk).1⟩, hbar⟩, ht⟩

theorem line_inj {w : Who} {e e' : Entry} (hk : Known e.level) (hk' : Known e'.level) (h : line w e = line w e') :
    said e = said e' := by
  simp only [line, bar, List.append_assoc, List.cons_append, List.nil_append] at h
  obtain ⟨h1, h2⟩ := split_first (dec_plain _).2 (dec_plain _).2 h
  simp only [List.cons.injEq, true_and, List.append_cancel_left_eq] at h2
  obtain ⟨h3, h4⟩ := split_first (levelName_plain hk).2 (levelName_plain hk').2 h2
  simp only [List.cons.injEq, true_and] at h4
  simp only [said]
  rw [dec_inj h1, levelName_inj hk hk' h3, h4]

theorem printed_plain {l : Bytes} (h : Plain l) : printed l = l ++ [10] := by
  unfold printed
  have hall : ∀ l : Bytes, (0 : UInt8) ∉ l → l.takeWhile (fun b => b != 0) = l := by
    intro l
    induction l with
    | nil => intro _; rfl
    | cons b l ih =>
      intro hb
      have h0 : b ≠ 0 := fun he => hb (by simp [he])
      rw [List.takeWhile_cons_of_pos (by simpa using h0), ih (fun hh => hb (List.mem_cons_of_mem _ hh))]
  rw [hall l h.1]

/-- **C126 (log file).** If host name, unit name and texts contain no line feed and no zero byte, the log file of a
process tells exactly what was logged: two lists of logged messages that lead to the same file agree in times (in
milliseconds), levels and texts.  Missing for the full claim: texts with line feeds or zero bytes. -/
theorem C126_file_partial (s : Sender) (hh : Plain s.who.host) (hu : Plain s.who.uname) :
    ∀ es es' : List Entry, (∀ e ∈ es ++ es', e.text ≠ [] ∧ e.level &&& s.file ≠ 0 ∧ Known e.level ∧ Plain e.text) →
      written s es = written s es' → es.map said = es'.map said := by
  have hw : ∀ e es, e.text ≠ [] ∧ e.level &&& s.file ≠ 0 ∧ Known e.level ∧ Plain e.text →
      written s (e :: es) = line s.who e ++ 10 :: written s es := by
    intro e es ⟨h1, h2, h3, h4⟩
    simp only [written, List.flatMap_cons, h1, h2, if_false]
    rw [printed_plain (line_plain hh hu h3 h4)]
    simp
  intro es
  induction es with
  | nil =>
    intro es' ha he
    cases es' with
    | nil => rfl
    | cons e' es' =>
      rw [hw e' es' (ha e' (by simp))] at he
      simp [written] at he
  | cons e es ih =>
    intro es' ha he
    have h1 := ha e (by simp)
    cases es' with
    | nil =>
      rw [hw e es h1] at he
      simp [written] at he
    | cons e' es' =>
      have h2 := ha e' (by simp)
      rw [hw e es h1, hw e' es' h2] at he
      obtain ⟨h3, h4⟩ := split_first (line_plain hh hu h1.2.2.1 h1.2.2.2).2 (line_plain hh hu h2.2.2.1 h2.2.2.2).2 he
      rw [List.map_cons, List.map_cons, line_inj h1.2.2.1 h2.2.2.1 h3, ih es' ?_ h4]
      intro x hx
      exact ha x (by
        rcases List.mem_append.1 hx with hx | hx
        · simp [hx]
        · simp [hx])

example : Plain (snd me).who.host ∧ Plain (snd me).who.uname ∧ Known 4 ∧ Plain [104, 105] := by
  refine ⟨by decide, by decide, Or.inr (Or.inr (Or.inl rfl)), by decide⟩
example : written (snd me) [⟨5000, 1, [104, 105]⟩] =
    "5 ms | a | u | 7 | info | hi\n".toUTF8.data.toList := by decide +kernel

/-- **C126 (log file, what gets there).** Calls with an empty text or a level outside of the filter leave no trace. -/
theorem C126_file_filter (s : Sender) (es : List Entry) :
    written s es = written s (es.filter (fun e => e.text ≠ [] ∧ e.level &&& s.file ≠ 0)) := by
  induction es with
  | nil => rfl
  | cons e es ih =>
    by_cases h1 : e.text = []
    · simp only [written, List.flatMap_cons, h1, if_true, List.nil_append] at ih ⊢
      simpa [h1] using ih
    · by_cases h2 : e.level &&& s.file = 0
      · simp only [written, List.flatMap_cons, h1, h2, if_false, if_true, List.nil_append] at ih ⊢
        simpa [h1, h2] using ih
      · simp only [written, List.flatMap_cons, h1, h2, if_false] at ih ⊢
        simp only [h1, h2, List.filter_cons, ne_eq, not_false_eq_true, and_self, decide_true, if_true,
          List.flatMap_cons, if_false]
        rw [← ih]

/-- **C126 violated (forged line).** A text with a line feed can look like another message: the file of one call is the
file of two. -/
theorem C126_violated_forged :
    ∃ e e1 e2 : Entry, written (snd me) [e] = written (snd me) [e1, e2] ∧ e1.text ≠ e.text ∧ e2.level ≠ e.level :=
  ⟨⟨5000, 1, [104, 105, 10] ++ line me ⟨6000, 8, [33]⟩⟩, ⟨5000, 1, [104, 105]⟩, ⟨6000, 8, [33]⟩, by decide +kernel,
    by decide +kernel, by decide⟩

/-- **C126 violated (zero byte).** The rest of a text after a zero byte is not in the file, though it is sent to other
processes. -/
theorem C126_violated_zero :
    ∃ e e1 : Entry, written (snd me) [e] = written (snd me) [e1] ∧ e1.text ≠ e.text ∧
      sendAll [(snd me, e)] ≠ sendAll [(snd me, e1)] :=
  ⟨⟨5000, 1, [104, 105, 0, 33]⟩, ⟨5000, 1, [104, 105]⟩, by decide +kernel, by decide, by decide +kernel⟩

/-- The bytes of an ASCII text. -/
def ascii (s : String) : Bytes := s.toList.map (fun c => UInt8.ofNat c.toNat)

/-- **C126.** The words of the format are those of the documentation of the log file. -/
theorem C126_words : logName = ascii "_log_message_" ∧
    [1, 2, 4, 8, 16, 32, 64, 128].map (fun n => levelName (.ofNat 32 n)) =
      [ascii "info", ascii "warning", ascii "error", ascii "fatal", ascii "debug1", ascii "debug2", ascii "debug3", ascii "debug4"] ∧
    (∀ l : BitVec 32, l ∉ [1, 2, 4, 8, 16, 32, 64, 128] → levelName l = []) := by
  refine ⟨by decide +kernel, by decide +kernel, ?_⟩
  intro l hl
  simp only [List.mem_cons, List.not_mem_nil, or_false, not_or] at hl
  obtain ⟨h1, h2, h3, h4, h5, h6, h7, h8⟩ := hl
  unfold levelName
  rw [if_neg h1, if_neg h2, if_neg h3, if_neg h4, if_neg h5, if_neg h6, if_neg h7, if_neg h8]

example : line ⟨ascii "host", 42, ascii "/bin/p", ascii "unit"⟩ ⟨5000, 4, ascii "no route"⟩ =
    ascii "5 ms | host | unit | 42 | error | no route" := by decide +kernel

end Ecal.E2E.Logging
