import Verif.Wire.Payload

/-!
# C27: payload samples round-trip; C31: alignment of TCP payloads
-/

namespace Ecal.Wire

theorem payloadTopic_ok (m : PayloadSample) : ∀ f ∈ payloadTopicL, f.Ok m := by
  unfold payloadTopicL; table_ok

theorem content_ok (m : PayloadSample) : ∀ f ∈ contentL, f.Ok m := by
  unfold contentL; table_ok

theorem payload_ok (m : PayloadSample) : ∀ f ∈ payloadL, f.Ok m := by
  unfold payloadL
  table_ok
  refine List.forall_mem_cons.2 ⟨subL_ok _ _ _ _ (by decide +kernel) (payloadTopic_ok m), ?_⟩
  refine List.forall_mem_cons.2 ⟨subL_ok _ _ _ _ (by decide +kernel) (content_ok m), ?_⟩
  table_ok

theorem payload_puts (m s : PayloadSample) : puts payloadL m s =
    { cmd := orElse 0 m.cmd s.cmd, hname := orElse [] m.hname s.hname, tid := orElse [] m.tid s.tid,
      tname := orElse [] m.tname s.tname, id := orElse 0 m.id s.id, clock := orElse 0 m.clock s.clock,
      time := orElse 0 m.time s.time, payload := orElse [] m.payload s.payload, size := orElse 0 m.size s.size,
      hash := orElse 0 m.hash s.hash, padding := m.padding } := rfl

theorem serializePayload_ne_nil (m : PayloadSample) : serializePayload m ≠ [] := by
  intro h
  have hm : ((5, Raw.len (encode (payloadTopicL.map (·.field)) m)) : Nat × Raw) ∈ rawOf payloadCodec m := by
    simp [rawOf, payloadCodec, payloadL, subL, subF]
  have : ∀ l : List (Nat × Raw), ∀ p ∈ l, 0 < (writeAll l).length := by
    intro l
    cases l with
    | nil => simp
    | cons q l => intro _ _; simp [writeAll]; have := writeField_length_pos q; omega
  have := this _ _ hm
  unfold serializePayload encode at h
  rw [h] at this
  simp at this

/-- Decoding into any target: numbers and padding are exact, empty strings leave the target's
strings. -/
theorem deserialize_serialize (m target : PayloadSample) (hl : (serializePayload m).length < 2 ^ 32) :
    deserializePayload target (serializePayload m) =
      some { m with hname := orElse [] m.hname target.hname, tid := orElse [] m.tid target.tid,
                    tname := orElse [] m.tname target.tname,
                    payload := orElse [] m.payload target.payload } := by
  unfold deserializePayload
  rw [if_neg (serializePayload_ne_nil m)]
  have := decode_encode payloadL m { target with cmd := 0, id := 0, clock := 0, time := 0, size := 0, hash := 0 }
    (by decide +kernel) (payload_ok m) hl
  rw [payload_puts] at this
  simp only [orElse_default] at this
  exact this

/-- **C27.** Every payload sample below 4 GiB, deserialised into a fresh sample, is
unchanged in every field. -/
theorem C27_roundtrip (m : PayloadSample) (hl : (serializePayload m).length < 2 ^ 32) :
    deserializePayload {} (serializePayload m) = some m := by
  rw [deserialize_serialize m {} hl]
  simp

/-- **C27.** Different samples have different serialisations. -/
theorem C27_injective (m m' : PayloadSample) (hl : (serializePayload m).length < 2 ^ 32)
    (h : serializePayload m = serializePayload m') : m = m' := by
  have h1 := C27_roundtrip m hl
  have h2 := C27_roundtrip m' (h ▸ hl)
  rw [h, h2] at h1
  exact (Option.some.inj h1).symm

/-- **C27 (reused target).** Deserialising into a sample used before keeps old strings where
the new sample has empty ones (the TCP reader reuses its header object). -/
theorem C27_violated_reuse :
    ∃ old m : PayloadSample, (serializePayload m).length < 2 ^ 32 ∧
      deserializePayload old (serializePayload m) ≠ some m :=
  ⟨{ payload := [1, 2] }, {}, by decide +kernel, by decide +kernel⟩

/-- With non-empty topic name, topic id, host name and payload the target does not matter. -/
theorem C27_reuse_partial (m target : PayloadSample) (hl : (serializePayload m).length < 2 ^ 32)
    (h1 : m.hname = [] → target.hname = []) (h2 : m.tid = [] → target.tid = [])
    (h3 : m.tname = [] → target.tname = []) (h4 : m.payload = [] → target.payload = []) :
    deserializePayload target (serializePayload m) = some m := by
  rw [deserialize_serialize m target hl]
  have key : ∀ a b : Bytes, (a = [] → b = []) → orElse [] a b = a := by
    intro a b h
    unfold orElse
    split
    · next e => rw [h e, e]
    · rfl
  rw [key _ _ h1, key _ _ h2, key _ _ h3, key _ _ h4]

/-- Truncated input is never accepted as a different complete sample of the same bytes: an
empty buffer is rejected. -/
theorem C27_empty_rejected (target : PayloadSample) : deserializePayload target [] = none := by
  simp [deserializePayload]

example : (serializePayload { cmd := 1, tname := [102, 111, 111], id := -1, clock := 300, payload := [0, 255] }).length < 2 ^ 32 := by
  decide +kernel

/-! ### C31 -/

/-- The part of the serialisation before the padding field. -/
def payloadPrefix (m : PayloadSample) : List (Nat × Raw) :=
  rawOf ((payloadL.take 7).map (·.field)) m

theorem serialize_split (m : PayloadSample) :
    serializePayload m = writeAll (payloadPrefix m) ++ writeField (8, .len m.padding) := by
  unfold serializePayload encode
  have : rawOf payloadCodec m = payloadPrefix m ++ [(8, Raw.len m.padding)] := by
    simp [rawOf, payloadCodec, payloadPrefix, payloadL, bytesL, bytesF]
  rw [this]
  simp [writeAll]

theorem payloadPrefix_padding (m : PayloadSample) (p : Bytes) :
    payloadPrefix { m with padding := p } = payloadPrefix m := by
  have h1 : encode (payloadTopicL.map (·.field)) { m with padding := p } = encode (payloadTopicL.map (·.field)) m := rfl
  have h2 : encode (contentL.map (·.field)) { m with padding := p } = encode (contentL.map (·.field)) m := rfl
  simp [payloadPrefix, rawOf, payloadL, subL, subF, uint32L, uint32F, dropSubL]
  exact ⟨h1, h2⟩

/-- Adding `k < 128` bytes of padding to a sample without padding makes it exactly `k` bytes
longer. -/
theorem padding_length (m : PayloadSample) (h0 : m.padding = []) (k : Nat) (hk : k < 128) :
    (serializePayload { m with padding := List.replicate k 0 }).length = (serializePayload m).length + k := by
  rw [serialize_split, serialize_split, payloadPrefix_padding]
  simp only [List.length_append, writeField, Raw.wireType, h0, List.length_nil, List.length_replicate,
    encVarint_small k hk, encVarint_small 0 (by decide), List.length_cons]
  omega

theorem tcpPadding_lt (h : PayloadSample) : tcpPadding h < 8 := Nat.mod_lt _ (by decide)

/-- **C31.** Whatever topic, id, counter, time and hash: in every TCP message the payload
starts at a multiple of eight bytes, preceded by exactly the header. -/
theorem C31_aligned (tname tid : Bytes) (id clock time hash : BitVec 64) (payload msg : Bytes)
    (h : tcpWrite tname tid id clock time hash payload = .ok msg) :
    ∃ pre, msg = pre ++ payload ∧ pre.length % 8 = 0 := by
  unfold tcpWrite at h
  simp only at h
  generalize hh : tcpHeader tname tid id clock time hash payload.length = hd at h
  have hp : hd.padding = [] := by rw [← hh]; rfl
  have hlen : (serializePayload (tcpPadded hd)).length = (serializePayload hd).length + tcpPadding hd :=
    padding_length hd hp _ (Nat.lt_trans (tcpPadding_lt hd) (by decide))
  split at h
  · next hlt =>
    injection h with h
    refine ⟨_, h.symm, ?_⟩
    simp only [List.length_append, List.length_cons, List.length_nil]
    rw [hlen] at hlt ⊢
    unfold tcpPadding at hlt ⊢
    simp only at hlt ⊢
    rw [Nat.mod_eq_of_lt (show (serializePayload hd).length < 65536 by omega)]
    omega
  · cases h

/-- **C31.** The message is written without overflow iff the padded header stays below 64 KiB;
a long topic name makes the writer overrun its header buffer. -/
theorem C31_overflow_iff (tname tid : Bytes) (id clock time hash : BitVec 64) (payload : Bytes) :
    tcpWrite tname tid id clock time hash payload = .overflow ↔
      65536 ≤ (serializePayload (tcpPadded (tcpHeader tname tid id clock time hash payload.length))).length := by
  unfold tcpWrite
  simp only
  split <;> simp <;> omega

theorem sizeOfInt32_small (n : Nat) (h : n < 2 ^ 31) : sizeOfInt32 (BitVec.ofNat 32 n) = n := by
  unfold sizeOfInt32
  have h1 : (BitVec.ofNat 32 n).msb = false := by
    rw [BitVec.msb_eq_decide]
    simp only [BitVec.toNat_ofNat, decide_eq_false_iff_not]
    rw [Nat.mod_eq_of_lt (by omega)]
    omega
  rw [h1]
  simp only [Bool.false_eq_true, if_false, BitVec.toNat_ofNat]
  exact Nat.mod_eq_of_lt (by omega)

/-- **C31 (end to end).** The receiver of a TCP message finds exactly the sender's payload,
topic name, id, clock, time and hash — for payloads below 2 GiB, a non-empty topic name and
topic id, and whatever the reused header object contains (its host name and payload fields,
never filled by TCP headers, keep what they had). -/
theorem C31_received (tname tid : Bytes) (id clock time hash : BitVec 64) (payload msg : Bytes)
    (last : PayloadSample) (hn : tname ≠ []) (ht : tid ≠ [])
    (hp : payload.length < 2 ^ 31)
    (h : tcpWrite tname tid id clock time hash payload = .ok msg) :
    ∃ hdr, tcpRead last msg = .sample hdr payload ∧ hdr.tname = tname ∧ hdr.tid = tid ∧ hdr.id = id ∧
      hdr.clock = clock ∧ hdr.time = time ∧ hdr.hash = hash ∧ hdr.hname = last.hname ∧
      hdr.payload = last.payload := by
  unfold tcpWrite at h
  simp only at h
  generalize hh : tcpPadded (tcpHeader tname tid id clock time hash payload.length) = hd at h
  split at h
  · next hlt =>
    injection h with h
    have hhd : hd.size = BitVec.ofNat 32 payload.length ∧ hd.tname = tname ∧ hd.tid = tid ∧ hd.id = id ∧
        hd.clock = clock ∧ hd.time = time ∧ hd.hash = hash ∧ hd.hname = [] ∧ hd.payload = [] := by
      rw [← hh]; exact ⟨rfl, rfl, rfl, rfl, rfl, rfl, rfl, rfl, rfl⟩
    have hdes : deserializePayload last (serializePayload hd) =
        some { hd with hname := last.hname, payload := last.payload } := by
      rw [deserialize_serialize _ _ (by omega)]
      simp only [orElse, hhd.2.1, hhd.2.2.1, hhd.2.2.2.2.2.2.2.1, hhd.2.2.2.2.2.2.2.2, if_true,
        if_neg hn, if_neg ht]
    refine ⟨{ hd with hname := last.hname, payload := last.payload }, ?_, hhd.2.1, hhd.2.2.1, hhd.2.2.2.1,
      hhd.2.2.2.2.1, hhd.2.2.2.2.2.1, hhd.2.2.2.2.2.2.1, rfl, rfl⟩
    subst h
    generalize hser : serializePayload hd = ser at *
    have e : [69, 67, 65, 76] ++ [byte (ser.length % 256), byte (ser.length / 256)] ++ ser ++ payload =
        ([69, 67, 65, 76, byte (ser.length % 256), byte (ser.length / 256)] ++ ser) ++ payload := by simp
    have hsz : (byte (ser.length % 256)).toNat + 256 * (byte (ser.length / 256)).toNat = ser.length := by
      rw [byte_toNat _ (by omega), byte_toNat _ (by omega)]; omega
    unfold tcpRead
    rw [e, if_neg (by simp)]
    simp only [List.cons_append, List.nil_append, List.drop_succ_cons, List.drop_zero, List.headD_cons, hsz]
    rw [if_neg (by simp only [List.length_cons, List.length_append]; omega)]
    have hd2 : List.drop (6 + ser.length)
        (69 :: 67 :: 65 :: 76 :: byte (ser.length % 256) :: byte (ser.length / 256) :: (ser ++ payload)) = payload := by
      rw [Nat.add_comm, show ser.length + 6 = ser.length + 1 + 1 + 1 + 1 + 1 + 1 from rfl]
      simp only [List.drop_succ_cons, List.drop_left]
    rw [List.take_left, hdes, hd2]
    simp only
    rw [hhd.1, sizeOfInt32_small _ hp, if_neg (by omega), List.take_length]
  · cases h

/-- **C31 (violated for large payloads).** From 2 GiB on the 32-bit size in the header no
longer gives the payload length: the receiver reads beyond the message. -/
theorem C31_violated_large (n : Nat) (h1 : 2 ^ 31 ≤ n) (h2 : n < 2 ^ 32) :
    sizeOfInt32 (BitVec.ofNat 32 n) ≠ n ∧ n < sizeOfInt32 (BitVec.ofNat 32 n) := by
  unfold sizeOfInt32
  have hm : (BitVec.ofNat 32 n).msb = true := by
    rw [BitVec.msb_eq_decide]
    simp only [BitVec.toNat_ofNat, decide_eq_true_eq]
    rw [Nat.mod_eq_of_lt (by omega)]
    omega
  rw [hm]
  simp only [if_true, BitVec.toNat_ofNat]
  rw [Nat.mod_eq_of_lt (by omega)]
  omega

/-- **C31 (damaged messages).** A message with a false header size makes the receiver read
beyond the message. -/
theorem C31_violated_overread : tcpRead {} [69, 67, 65, 76, 255, 255, 0] = .overread := by decide +kernel

example : ∃ msg, tcpWrite [116] [49] 0 1 2 0 [1, 2, 3] = .ok msg ∧ msg.length % 8 = 3 :=
  ⟨_, rfl, by decide +kernel⟩

/-- **C27.** The two-loop number encoder of the library, statement by statement, writes for every 64-bit value
the seven-bit groups of the standard, least significant first (the value is recovered by weighting them). -/
theorem C27_varint_as_written (n : Nat) (h : n < 2 ^ 64) :
    decVarint64 (encVarintCode n) 0 0 = some (n, []) ∧ (encVarintCode n).length ≤ 10 := by
  rw [encVarintCode_eq n h]
  have := decVarint64_encVarint n h []
  rw [List.append_nil] at this
  exact ⟨this, encVarintN_length _ _⟩

example : encVarintCode 300 = [172, 2] := by decide +kernel

theorem decVarint64_range (bs : Bytes) : ∀ pos acc v rest, pos % 7 = 0 → pos ≤ 63 → acc < 2 ^ pos →
    decVarint64 bs pos acc = some (v, rest) → v < 2 ^ 64 := by
  induction bs with
  | nil => intro pos acc v rest _ _ _ h; cases h
  | cons b bs ih =>
    intro pos acc v rest hm hp ha h
    rw [decVarint64] at h
    have hb : b.toNat < 256 := b.toNat_lt
    by_cases h1 : 63 ≤ pos ∧ 2 ≤ b.toNat
    · rw [if_pos h1] at h; cases h
    · rw [if_neg h1] at h
      have hstep : acc + b.toNat % 128 * 2 ^ pos < 2 ^ (pos + 7) := by
        have e : 2 ^ (pos + 7) = 128 * 2 ^ pos := by rw [Nat.pow_add]; omega
        have : b.toNat % 128 * 2 ^ pos ≤ 127 * 2 ^ pos := Nat.mul_le_mul_right _ (by omega)
        omega
      by_cases h2 : 128 ≤ b.toNat
      · rw [if_pos h2] at h
        have hlt : pos < 63 := by
          apply Classical.byContradiction
          intro hn
          exact h1 ⟨by omega, by omega⟩
        exact ih (pos + 7) _ v rest (by omega) (by omega) hstep h
      · rw [if_neg h2] at h
        simp only [Option.some.injEq, Prod.mk.injEq] at h
        rw [← h.1]
        by_cases h3 : pos = 63
        · subst h3
          have hb2 : b.toNat < 2 := by
            apply Classical.byContradiction
            intro hn
            exact h1 ⟨by omega, by omega⟩
          have h4 : b.toNat % 128 ≤ 1 := by omega
          have h5 := Nat.mul_le_mul_right (2 ^ 63) h4
          rw [Nat.one_mul] at h5
          have h6 : (2 : Nat) ^ 64 = 2 ^ 63 + 2 ^ 63 := by decide
          rw [h6]
          exact Nat.add_lt_add_of_lt_of_le ha h5
        · have : 2 ^ (pos + 7) ≤ 2 ^ 64 := Nat.pow_le_pow_right (by decide) (by omega)
          omega

/-- **C27.** Whatever bytes arrive, a number that is accepted fits into 64 bits: over-long numbers are
rejected, never silently reduced. -/
theorem C27_number_range (bs rest : Bytes) (v : Nat) (h : decVarint64 bs 0 0 = some (v, rest)) : v < 2 ^ 64 :=
  decVarint64_range bs 0 0 v rest rfl (by omega) (by decide) h

example : decVarint64 [255, 255, 255, 255, 255, 255, 255, 255, 255, 2] 0 0 = none := by decide +kernel

/-- **C27.** A 32-bit number is written such that a reader expecting 64 bits sees the same (signed) value. -/
theorem C27_int32_widens {α} (tag : Nat) (get : α → BitVec 32) (set : α → BitVec 32 → α) (m : α) (b : Bytes)
    (h : Raw.varint b ∈ (int32F tag get set).enc m) :
    ∃ v, decVarint64 b 0 0 = some (v, []) ∧ (BitVec.ofNat 64 v).toInt = (get m).toInt := by
  simp only [int32F] at h
  split at h
  · cases h
  · simp only [List.mem_singleton, Raw.varint.injEq] at h
    subst h
    have := decVarint64_encVarint ((get m).signExtend 64).toNat (BitVec.isLt _) []
    rw [List.append_nil] at this
    refine ⟨_, this, ?_⟩
    rw [BitVec.ofNat_toNat, BitVec.setWidth_eq]
    exact BitVec.toInt_signExtend_of_le (by decide)

end Ecal.Wire
