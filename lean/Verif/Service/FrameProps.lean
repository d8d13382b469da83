import Verif.Service.Frame

/-!
# C32: messages survive any segmentation
-/

namespace Ecal.Service

/-- A message the protocol can express: header of 16 to 65535 bytes, payload below 4 GiB. -/
def Msg.WF (m : Msg) : Prop := 8 ≤ m.ext.length ∧ m.ext.length + 8 < 65536 ∧ m.payload.length < 2 ^ 32

/-- The byte stream of a sequence of messages. -/
def stream (ms : List Msg) : Bytes := ms.flatMap Msg.encode

/-- What the receiver should hand on. -/
def expected (ms : List Msg) : List (Bytes × Bytes) := ms.map (fun m => (m.header, m.payload))

/-- Bytes that arrived during a run. -/
def arrived (l : List Step) : Bytes :=
  l.flatMap (fun s => match s with | .arrive b => b | _ => [])

theorem byte_toNat (n : Nat) (h : n < 256) : (byte n).toNat = n := by
  simp [byte, Nat.mod_eq_of_lt h]

theorem payloadSize_header (m : Msg) (h : m.payload.length < 2 ^ 32) (t : Bytes) :
    payloadSize (m.header ++ t) = m.payload.length := by
  simp only [Msg.header, be32, List.cons_append, List.nil_append, payloadSize]
  rw [byte_toNat _ (by omega), byte_toNat _ (by omega), byte_toNat _ (by omega), byte_toNat _ (by omega)]
  omega

/-- The first eight bytes of a message. -/
def first8 (m : Msg) : Bytes := be32 m.payload.length ++ [m.version, m.type] ++ be16 (8 + m.ext.length)

theorem first8_length (m : Msg) : (first8 m).length = 8 := rfl

theorem header_eq (m : Msg) : m.header = first8 m ++ m.ext := rfl

theorem payloadSize_first (m : Msg) (h : m.payload.length < 2 ^ 32) : payloadSize (first8 m) = m.payload.length := by
  simp only [first8, be32, be16, List.cons_append, List.nil_append, payloadSize]
  rw [byte_toNat _ (by omega), byte_toNat _ (by omega), byte_toNat _ (by omega), byte_toNat _ (by omega)]
  omega

theorem headerBuffer_first (m : Msg) (h1 : 8 ≤ m.ext.length) (h2 : m.ext.length + 8 < 65536) :
    headerBuffer (first8 m) = 8 + m.ext.length := by
  simp only [headerBuffer, first8, be32, be16, List.cons_append, List.nil_append, headerSize]
  rw [byte_toNat _ (by omega), byte_toNat _ (by omega)]
  omega

/-- Relation between the phase, the bytes read since the last message, and the next message. -/
inductive Partial : Phase → Bytes → List Msg → Prop
  | idle (rest) : Partial .idle [] rest
  | start (got rest) : got.length < 8 → Partial (.start got) got rest
  | rest (m got ms) : got.length < m.ext.length →
      Partial (.rest (first8 m) m.ext.length got) (first8 m ++ got) (m :: ms)
  | payload (m got ms) : got.length < m.payload.length →
      Partial (.payload m.header m.payload.length got) (m.header ++ got) (m :: ms)

structure Inv (ms : List Msg) (s : Rx) (total : Bytes) : Prop where
  split : ∃ done todo part, ms = done ++ todo ∧ s.out = expected done ∧ Partial s.phase part todo ∧
    stream done ++ part ++ s.sock = total

theorem stream_append (a b : List Msg) : stream (a ++ b) = stream a ++ stream b := by simp [stream]
theorem stream_cons (m : Msg) (b : List Msg) : stream (m :: b) = m.header ++ m.payload ++ stream b := by
  simp [stream, Msg.encode]
theorem expected_append (a b : List Msg) : expected (a ++ b) = expected a ++ expected b := by simp [expected]

/-- Two prefixes of one stream: the shorter one with known length. -/
theorem prefix_take {a b c d : Bytes} (h : a ++ b = c ++ d) (hl : a.length = c.length) : a = c :=
  (List.append_inj h hl).1

theorem arrived_append (l1 l2 : List Step) : arrived (l1 ++ l2) = arrived l1 ++ arrived l2 := by
  simp [arrived]

/-- Reading part of the socket buffer. -/
theorem read_inv (ms : List Msg) (hw : ∀ m ∈ ms, m.WF) (s : Rx) (total future : Bytes) (k : Nat)
    (ht : total ++ future = stream ms) (h : Inv ms s total) : Inv ms (step s (.readSome k)) total := by
  obtain ⟨done, todo, part, hms, hout, hpart, hsum⟩ := h.split
  have hst : part ++ s.sock ++ future = stream todo := by
    have : stream done ++ (part ++ s.sock ++ future) = stream done ++ stream todo := by
      rw [← stream_append, ← hms, ← ht, ← hsum]; simp
    exact List.append_cancel_left this
  have htodo : ∀ m ∈ todo, m.WF := fun m hm => hw m (by rw [hms]; simp [hm])
  constructor
  unfold step
  simp only
  obtain ⟨sock, phase, out⟩ := s
  simp only at *
  generalize hn : min k (wanted phase) = n
  have hsock : sock.take n ++ sock.drop n = sock := List.take_append_drop n sock
  generalize hb : sock.take n = b at *
  generalize sock.drop n = sock' at *
  have hbl : b.length ≤ wanted phase := by
    rw [← hb, List.length_take]; omega
  subst hsock
  cases hpart with
  | idle _ =>
    have : b = [] := by
      simp only [wanted] at hbl
      exact List.length_eq_zero_iff.1 (by omega)
    subst this
    exact ⟨done, todo, [], hms, hout, .idle _, by simpa using hsum⟩
  | start _ _ hlt =>
    simp only [wanted] at hbl
    simp only [gain, complete]
    split
    · next h8 =>
      -- eight bytes: these are the first eight of the next message
      cases todo with
      | nil =>
        simp only [stream, List.flatMap_nil] at hst
        have := congrArg List.length hst
        simp only [List.length_append, List.length_nil] at this h8
        omega
      | cons m ts =>
        have hm := htodo m (by simp)
        have hf : part ++ b = first8 m := by
          refine prefix_take (b := sock' ++ future) (d := m.ext ++ m.payload ++ stream ts) ?_ h8
          rw [stream_cons, header_eq] at hst
          simpa using hst
        rw [hf, headerBuffer_first m hm.1 hm.2.1]
        refine ⟨done, m :: ts, first8 m, hms, hout, ?_, by rw [← hf]; simpa using hsum⟩
        have := Partial.rest m [] ts (by have := hm.1; simp only [List.length_nil]; omega)
        simpa using this
    · next h8 =>
      refine ⟨done, todo, part ++ b, hms, hout, .start _ _ ?_, by simpa using hsum⟩
      simp only [List.length_append] at h8 ⊢
      omega
  | rest m got ts hlt =>
    simp only [wanted] at hbl
    have hm := htodo m (by simp)
    have hcancel : got ++ (b ++ sock' ++ future) = m.ext ++ (m.payload ++ stream ts) := by
      rw [stream_cons, header_eq] at hst
      apply List.append_cancel_left (as := first8 m)
      simpa using hst
    simp only [gain, complete, payloadSize_first m hm.2.2]
    split
    · next hfull =>
      have hext : got ++ b = m.ext := by
        refine prefix_take (b := sock' ++ future) (d := m.payload ++ stream ts) ?_ hfull
        simpa using hcancel
      have hh : first8 m ++ (got ++ b) = m.header := by rw [hext, header_eq]
      split
      · next h0 =>
        have hp : m.payload = [] := List.length_eq_zero_iff.1 h0
        refine ⟨done ++ [m], ts, [], by simp [hms], ?_, .idle _, ?_⟩
        · rw [expected_append, hout, hh]; simp [expected, hp]
        · rw [stream_append]
          simp only [stream, List.flatMap_cons, List.flatMap_nil, List.append_nil, Msg.encode, hp]
          rw [← hh]
          simpa [stream] using hsum
      · next h0 =>
        rw [hh]
        refine ⟨done, m :: ts, m.header ++ [], hms, hout, .payload m [] ts (by simp only [List.length_nil]; omega), ?_⟩
        rw [← hh]
        simpa using hsum
    · next hnf =>
      refine ⟨done, m :: ts, first8 m ++ (got ++ b), hms, hout, .rest m (got ++ b) ts ?_, by simpa using hsum⟩
      simp only [List.length_append] at hnf ⊢
      omega
  | payload m got ts hlt =>
    simp only [wanted] at hbl
    have hm := htodo m (by simp)
    have hcancel : got ++ (b ++ sock' ++ future) = m.payload ++ stream ts := by
      rw [stream_cons] at hst
      apply List.append_cancel_left (as := m.header)
      simpa using hst
    simp only [gain, complete]
    split
    · next hfull =>
      have hpl : got ++ b = m.payload := by
        refine prefix_take (b := sock' ++ future) (d := stream ts) ?_ hfull
        simpa using hcancel
      refine ⟨done ++ [m], ts, [], by simp [hms], ?_, .idle _, ?_⟩
      · rw [expected_append, hout, hpl]; simp [expected]
      · rw [stream_append]
        simp only [stream, List.flatMap_cons, List.flatMap_nil, List.append_nil, Msg.encode]
        rw [← hpl]
        simpa [stream] using hsum
    · next hnf =>
      refine ⟨done, m :: ts, m.header ++ (got ++ b), hms, hout, .payload m (got ++ b) ts ?_, by simpa using hsum⟩
      simp only [List.length_append] at hnf ⊢
      omega

theorem run_inv (ms : List Msg) (hw : ∀ m ∈ ms, m.WF) (l : List Step) (future : Bytes)
    (ht : arrived l ++ future = stream ms) : Inv ms (run {} l) (arrived l) := by
  suffices ∀ (l1 l2 : List Step) (s : Rx), l = l1 ++ l2 → Inv ms s (arrived l1) →
      Inv ms (run s l2) (arrived l) by
    exact this [] l {} rfl ⟨⟨[], ms, [], rfl, rfl, .idle _, rfl⟩⟩
  intro l1 l2
  induction l2 generalizing l1 with
  | nil => intro s hl h; rw [List.append_nil] at hl; subst hl; exact h
  | cons st l2 ih =>
    intro s hl h
    refine ih (l1 ++ [st]) (step s st) (by simp [hl]) ?_
    rw [arrived_append]
    cases st with
    | arrive b =>
      obtain ⟨done, todo, part, h1, h2, h3, h4⟩ := h.split
      refine ⟨⟨done, todo, part, h1, h2, h3, ?_⟩⟩
      simp only [step, arrived, List.flatMap_cons, List.flatMap_nil, List.append_nil]
      simp only [arrived] at h4
      rw [← h4]
      simp
    | receive =>
      have e : arrived [Step.receive] = [] := rfl
      rw [e, List.append_nil]
      simp only [step]
      split
      · next hi =>
        obtain ⟨done, todo, part, h1, h2, h3, h4⟩ := h.split
        rw [hi] at h3
        cases h3
        exact ⟨⟨done, todo, [], h1, h2, .start _ _ (by simp), h4⟩⟩
      · exact h
    | readSome k =>
      have e : arrived [Step.readSome k] = [] := rfl
      rw [e, List.append_nil]
      refine read_inv ms hw s (arrived l1) (arrived (Step.readSome k :: l2) ++ future) k ?_ h
      rw [← ht, hl, arrived_append]
      simp

/-- **C32.** Whatever the segments and the sizes of the single reads, and at any time: the
messages handed on are the first ones sent, unchanged (header including extension bytes, and
payload), in order. -/
theorem C32_prefix (ms : List Msg) (hw : ∀ m ∈ ms, m.WF) (l : List Step)
    (ht : arrived l <+: stream ms) : (run {} l).out <+: expected ms := by
  obtain ⟨future, hf⟩ := ht
  obtain ⟨done, todo, part, h1, h2, _, _⟩ := (run_inv ms hw l future hf).split
  rw [h2, h1, expected_append]
  exact List.prefix_append _ _

/-- **C32.** When all bytes have arrived and been read, and a receive was always started again,
all messages have been handed on. -/
theorem C32_complete (ms : List Msg) (hw : ∀ m ∈ ms, m.WF) (l : List Step)
    (ht : arrived l = stream ms) (hr : (run {} l).sock = []) : (run {} l).out = expected ms := by
  obtain ⟨done, todo, part, h1, h2, h3, h4⟩ := (run_inv ms hw l [] (by simpa using ht)).split
  have hpart : part = stream todo := by
    rw [hr, List.append_nil, ht, h1, stream_append] at h4
    exact List.append_cancel_left h4
  have : todo = [] := by
    cases todo with
    | nil => rfl
    | cons m ts =>
      exfalso
      have hm := hw m (by rw [h1]; simp)
      have hlen := congrArg List.length hpart
      rw [stream_cons, header_eq] at hlen
      simp only [List.length_append, first8_length] at hlen
      have := hm.1
      generalize hph : (run {} l).phase = ph at h3
      cases h3 with
      | idle _ => simp at hlen; omega
      | start got _ hlt => omega
      | rest m got ts hlt => simp only [List.length_append, first8_length] at hlen; omega
      | payload m got ts hlt =>
        simp only [List.length_append, header_eq, first8_length] at hlen; omega
  rw [h2, h1, this]
  simp

/-- **C32 (no blocking).** As long as bytes are on the socket, a running receive can read. -/
theorem C32_progress (s : Rx) (hs : s.sock ≠ []) (hp : wanted s.phase ≠ 0) (k : Nat) (hk : 0 < k) :
    (step s (.readSome k)).sock.length < s.sock.length := by
  simp only [step, List.length_drop]
  have := List.length_pos_iff.2 hs
  omega

/-- **C32 (declared header shorter than 16 bytes).** Such a header is read as 16 bytes, so the
messages of a peer with a shorter header would be cut wrongly. -/
theorem C32_violated_short_header :
    let m : Msg := { version := 1, type := 3, ext := [], payload := [1, 2, 3, 4, 5, 6, 7, 8, 9] }
    (run {} [.receive, .arrive m.encode, .readSome 8, .readSome 8, .readSome 9]).out ≠ expected [m] := by
  decide +kernel

example : (∀ m ∈ [mkMsg 1 3 [1, 2], mkMsg 1 3 []], m.WF) ∧
    (run {} [.receive, .arrive ((stream [mkMsg 1 3 [1, 2], mkMsg 1 3 []]).take 5), .readSome 3, .readSome 9,
      .arrive ((stream [mkMsg 1 3 [1, 2], mkMsg 1 3 []]).drop 5), .readSome 100, .readSome 7, .readSome 100,
      .readSome 2, .receive, .readSome 8, .readSome 8]).out = expected [mkMsg 1 3 [1, 2], mkMsg 1 3 []] := by
  refine ⟨?_, by decide +kernel⟩
  intro m hm
  simp only [List.mem_cons, List.not_mem_nil, or_false] at hm
  rcases hm with rfl | rfl <;> exact ⟨by decide, by decide, by decide⟩

end Ecal.Service
