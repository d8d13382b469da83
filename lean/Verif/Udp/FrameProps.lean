import Verif.Udp.Frame

/-!
# C23 (UDP framing) and C24 (malformed datagrams)
-/

namespace Ecal.Udp

theorem cstring_append (name rest : Bytes) (h : (0 : UInt8) ∉ name) :
    cstring (name ++ 0 :: rest) = some name := by
  induction name with
  | nil => simp [cstring]
  | cons b bs ih =>
    simp only [List.mem_cons, not_or] at h
    simp [cstring, Ne.symm h.1, ih h.2]

theorem cstring_none (b : Bytes) : cstring b = none ↔ (0 : UInt8) ∉ b := by
  induction b with
  | nil => simp [cstring]
  | cons x xs ih =>
    simp only [cstring]
    by_cases hx : x = 0
    · simp [hx]
    · rw [if_neg hx]
      cases hc : cstring xs with
      | none => simp [ih.1 hc, Ne.symm hx]
      | some r =>
        have : (0 : UInt8) ∈ xs := Decidable.not_not.1 (fun hn => by rw [ih.2 hn] at hc; cases hc)
        simp [this]

theorem cstring_some (b name : Bytes) (h : cstring b = some name) :
    ∃ rest, b = name ++ 0 :: rest ∧ (0 : UInt8) ∉ name := by
  induction b generalizing name with
  | nil => cases h
  | cons x xs ih =>
    simp only [cstring] at h
    by_cases hx : x = 0
    · rw [if_pos hx] at h; cases h; exact ⟨xs, by simp [hx]⟩
    · rw [if_neg hx] at h
      cases hc : cstring xs with
      | none => simp [hc] at h
      | some r =>
        simp only [hc, Option.some.injEq] at h
        subst h
        obtain ⟨rest, e, hn⟩ := ih r hc
        exact ⟨rest, by simp [e], by simp [hn, Ne.symm hx]⟩

theorem le16_value (n : Nat) (h : n < 65536) :
    (UInt8.ofNat (n % 256)).toNat + 256 * (UInt8.ofNat (n / 256 % 256)).toNat = n := by
  simp only [UInt8.toNat_ofNat']
  omega

/-- **C23.** A sample sent under a topic name shorter than 65535 bytes without zero bytes
arrives with this name and exactly the payload bytes. -/
theorem C23_roundtrip (name sample : Bytes) (h0 : (0 : UInt8) ∉ name) (hl : name.length < 65535) :
    decode (encode name sample) = .sample name sample := by
  have h1 : (name.length % 65536 + 1) % 65536 = name.length + 1 := by omega
  have h2 : (name ++ [0]).take (name.length + 1) = name ++ [(0 : UInt8)] := by
    apply List.take_of_length_le; simp
  unfold encode
  simp only [h1, h2, le16]
  unfold decode
  simp only [List.cons_append, List.nil_append, List.append_assoc]
  rw [le16_value _ (by omega)]
  rw [if_neg (by simp; omega), cstring_append name sample h0]
  simp only [List.length_cons, List.length_append]
  rw [if_neg (by omega)]
  congr 1
  rw [show 2 + (name.length + 1) = (name.length + 1) + 1 + 1 by omega]
  simp only [List.drop_succ_cons]
  rw [show name ++ 0 :: sample = (name ++ [0]) ++ sample by simp]
  rw [List.drop_left' (by simp)]

/-- **C23.** Whatever datagram is accepted: its name is the zero-terminated string after the
size field, and the payload is exactly the rest of the datagram after the declared size. -/
theorem C23_accepted_slices (d name payload : Bytes) (h : decode d = .sample name payload) :
    ∃ lo hi rest, d = lo :: hi :: rest ∧ 2 + (lo.toNat + 256 * hi.toNat) ≤ d.length ∧
      payload = d.drop (2 + (lo.toNat + 256 * hi.toNat)) ∧ (0 : UInt8) ∉ name ∧
      ∃ tail, rest = name ++ 0 :: tail := by
  unfold decode at h
  split at h
  · rename_i lo hi rest
    simp only at h
    split at h
    · cases h
    · split at h
      · cases h
      · rename_i nm hc
        split at h
        · cases h
        · rename_i hle
          simp only [Outcome.sample.injEq] at h
          obtain ⟨rfl, rfl⟩ := h
          obtain ⟨tail, e, hn⟩ := cstring_some _ _ hc
          exact ⟨lo, hi, rest, rfl, by omega, rfl, hn, tail, e⟩
  · cases h

/-- **C23 (exact condition of the violation).** The handler reads outside the datagram iff
it has less than two bytes, or its declared name size passes the first check and there is no
zero byte after the size field. -/
theorem C23_overread_iff (d : Bytes) :
    decode d = .overread ↔
      d.length < 2 ∨ ∃ lo hi rest, d = lo :: hi :: rest ∧
        lo.toNat + 256 * hi.toNat ≤ d.length ∧ (0 : UInt8) ∉ rest := by
  match d with
  | [] => simp [decode]
  | [a] => simp [decode]
  | lo :: hi :: rest =>
    simp only [decode, List.length_cons]
    constructor
    · intro h
      right
      split at h
      · cases h
      · split at h
        · rename_i h1 hc
          exact ⟨lo, hi, rest, rfl, by omega, (cstring_none rest).1 hc⟩
        · split at h <;> cases h
    · rintro (h | ⟨lo', hi', rest', e, h1, h2⟩)
      · omega
      · simp only [List.cons.injEq] at e
        obtain ⟨rfl, rfl, rfl⟩ := e
        rw [if_neg (by omega), (cstring_none rest).2 h2]

/-- **C23 (violated).** A one-byte datagram, and a datagram whose name is not terminated,
make the receiver read memory outside the datagram. -/
theorem C23_violated_overread : ∃ d, decode d = .overread ∧ 2 < d.length :=
  ⟨[1, 0, 65], by decide⟩

/-- **C23 (violated).** A topic name of 65535 bytes is sent with name size 0: the receiver
takes the name from the payload bytes. -/
theorem C23_violated_long_name (name pl tail : Bytes) (hl : name.length = 65535)
    (h0 : (0 : UInt8) ∉ pl) :
    decode (encode name (pl ++ 0 :: tail)) = .sample pl (pl ++ 0 :: tail) := by
  unfold encode
  simp only [hl, le16]
  simp [decode, cstring_append pl tail h0]

/-- **C23 (violated).** A topic name containing a zero byte arrives truncated. -/
theorem C23_violated_zero_in_name :
    ∃ name sample, decode (encode name sample) = .sample [65] sample ∧ name ≠ [65] :=
  ⟨[65, 0, 66], [1, 2], by decide⟩

/-- The hypotheses of `C23_roundtrip` and a concrete frame. -/
example : decode (encode [102, 111, 111] [9, 0, 7]) = .sample [102, 111, 111] [9, 0, 7] := by decide
example : (List.replicate 65535 (65 : UInt8)).length = 65535 ∧ (0 : UInt8) ∉ ([66, 67] : Bytes) := by
  refine ⟨List.length_replicate, by decide⟩

/-! ### C24 -/

/-- **C24 (violated).** After one damaged datagram nothing is received any more, whatever
arrives later. -/
theorem C24_violated_damaged (has : Bytes → Bool) (s : Rx) (d : Bytes) (hd : decode d = .damaged)
    (later : List Ev) :
    ∃ s', rxRun has s (.datagram d :: later) = some s' ∧ s'.applied = s.applied := by
  have dead : ∀ (later : List Ev) (s : Rx), s.armed = false → rxRun has s later = some s := by
    intro later
    induction later with
    | nil => intro s _; rfl
    | cons e es ih => intro s hs; simp [rxRun, rx, hs, ih s hs]
  unfold rxRun rx
  by_cases ha : s.armed = true
  · simp only [ha, Bool.not_true, Bool.false_eq_true, if_false, hd]
    exact ⟨_, dead later _ rfl, rfl⟩
  · simp only [ha, Bool.not_false, if_true]
    exact ⟨_, dead later s (by simpa using ha), rfl⟩

/-- A damaged datagram exists: four bytes suffice; and the sender's datagram that follows is
lost. -/
theorem C24_violated_witness :
    ∃ d later, decode d = .damaged ∧ decode later = .sample [102] [1] ∧
      rxRun (fun _ => true) {} [.datagram d, .datagram later] = some { armed := false, applied := [] } :=
  ⟨[9, 0, 65, 0], encode [102] [1], by decide, by decide, by decide⟩

/-- The datagrams of a list that are samples of interest, decoded. -/
def wanted (has : Bytes → Bool) (l : List (Bytes × Bytes)) : List (Bytes × Bytes) :=
  l.filter (fun p => has p.1)

/-- **C24 (what holds).** As long as only datagrams of the sender arrive (names shorter than
65535 bytes without zero bytes; any payload, even one the apply callback rejects) every
sample of interest is applied, in order.  Missing: other datagrams and receive errors end
reception. -/
theorem C24_sender_datagrams_partial (has : Bytes → Bool) (s : Rx) (l : List (Bytes × Bytes))
    (hs : s.armed = true)
    (hn : ∀ p ∈ l, (0 : UInt8) ∉ p.1 ∧ p.1.length < 65535) :
    rxRun has s (l.map (fun p => .datagram (encode p.1 p.2))) =
      some { armed := true, applied := s.applied ++ wanted has l } := by
  induction l generalizing s with
  | nil => cases s; simp_all [rxRun, wanted]
  | cons p l ih =>
    obtain ⟨h0, hl⟩ := hn p (by simp)
    simp only [List.map_cons, rxRun, rx, hs, Bool.not_true, Bool.false_eq_true, if_false,
      C23_roundtrip p.1 p.2 h0 hl]
    by_cases hh : has p.1 = true
    · simp only [hh, if_true]
      rw [ih _ (by simp) (fun q hq => hn q (by simp [hq]))]
      simp [wanted, hh]
    · simp only [hh, Bool.false_eq_true, if_false]
      rw [ih _ hs (fun q hq => hn q (by simp [hq]))]
      simp [wanted, hh]

/-- **C24 (exact).** After any events without overread the receiver still listens iff no
damaged datagram and no receive error was among them. -/
theorem C24_listening_iff (has : Bytes → Bool) (s s' : Rx) (es : List Ev)
    (h : rxRun has s es = some s') :
    s'.armed = true ↔ s.armed = true ∧
      ∀ e ∈ es, e ≠ .error ∧ ∀ d, e = .datagram d → decode d ≠ .damaged := by
  induction es generalizing s with
  | nil => cases h; simp
  | cons e es ih =>
    simp only [rxRun] at h
    split at h
    · cases h
    · rename_i s1 h1
      rw [ih s1 h]
      unfold rx at h1
      by_cases ha : s.armed = true
      · rw [if_neg (by simp [ha])] at h1
        cases e with
        | error => cases h1; simp
        | datagram d =>
          simp only at h1
          cases hd : decode d with
          | overread => simp [hd] at h1
          | damaged => simp only [hd, Option.some.injEq] at h1; subst h1; simp [hd]
          | sample n p =>
            simp only [hd, Option.some.injEq] at h1
            have : s1.armed = true := by rw [← h1]; split <;> exact ha
            simp [this, ha, hd]
      · rw [if_pos (by simp [ha])] at h1
        cases h1; simp [ha]

example : rxRun (fun n => n == [102]) {} [.datagram (encode [102] [1]), .datagram (encode [103] [2]),
    .datagram (encode [102] [3])] = some { armed := true, applied := [([102], [1]), ([102], [3])] } := by
  decide

end Ecal.Udp
