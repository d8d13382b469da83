import Verif.Udp.Mcast

/-!
# C22: topic addresses stay in the configured network and off the registration address
-/

namespace Ecal.Udp

/-- **C22.** The masked (network) bits of every topic address are those of the configured
group, for every hash, base and mask. -/
theorem C22_network_part (hash base mask : BitVec 32) :
    mcastOfHash hash base mask &&& mask = base &&& mask := by
  unfold mcastOfHash combine increase
  simp only
  split <;>
  · apply BitVec.eq_of_getLsbD_eq
    intro i hi
    simp only [BitVec.getLsbD_and, BitVec.getLsbD_or, BitVec.getLsbD_not, hi, decide_true, Bool.true_and]
    cases base.getLsbD i <;> cases mask.getLsbD i <;> simp

theorem getLsbD_zero_succ (x : BitVec 32) : (x + 1).getLsbD 0 = !x.getLsbD 0 := by
  rw [BitVec.getLsbD_add (by decide)]; simp

/-- **C22.** A topic is never mapped onto the group's base address if the mask leaves at
least the last address bit to the topics. -/
theorem C22_never_base (hash base mask : BitVec 32) (hm : mask.getLsbD 0 = false) :
    mcastOfHash hash base mask ≠ base := by
  unfold mcastOfHash
  simp only
  split
  · intro h
    have := congrArg (fun x => BitVec.getLsbD x 0) h
    simp only [increase, BitVec.getLsbD_or, BitVec.getLsbD_and, BitVec.getLsbD_not, getLsbD_zero_succ, hm] at this
    cases hb : base.getLsbD 0 <;> simp [hb] at this
  · assumption

/-- **C22 (exact).** A topic lands on the base address iff its hash equals the base on the
free bits and adding one to the base changes no free bit. -/
theorem C22_base_iff (hash base mask : BitVec 32) :
    mcastOfHash hash base mask = base ↔
      hash &&& ~~~mask = base &&& ~~~mask ∧ (base + 1) &&& ~~~mask = base &&& ~~~mask := by
  have hc : ∀ y : BitVec 32, ((base &&& mask) ||| (y &&& ~~~mask) = base) ↔
      y &&& ~~~mask = base &&& ~~~mask := by
    intro y
    constructor
    · intro h
      apply BitVec.eq_of_getLsbD_eq
      intro i hi
      have := congrArg (fun x => BitVec.getLsbD x i) h
      simp only [BitVec.getLsbD_and, BitVec.getLsbD_or, BitVec.getLsbD_not, hi, decide_true, Bool.true_and] at this ⊢
      revert this
      cases base.getLsbD i <;> cases mask.getLsbD i <;> cases y.getLsbD i <;> simp
    · intro h
      apply BitVec.eq_of_getLsbD_eq
      intro i hi
      have := congrArg (fun x => BitVec.getLsbD x i) h
      simp only [BitVec.getLsbD_and, BitVec.getLsbD_or, BitVec.getLsbD_not, hi, decide_true, Bool.true_and] at this ⊢
      revert this
      cases base.getLsbD i <;> cases mask.getLsbD i <;> cases y.getLsbD i <;> simp
  unfold mcastOfHash combine increase
  simp only
  split
  · next h => rw [hc]; exact ⟨fun h2 => ⟨(hc _).1 h, h2⟩, fun h2 => h2.2⟩
  · next h => exact ⟨fun h2 => absurd h2 h, fun h2 => absurd ((hc _).2 h2.1) h⟩

/-- **C22 (violated).** With a mask that covers the last bit topics do land on the
registration address: with 255.255.255.255 every topic does, and with 255.255.255.1 and base
239.0.0.0 every topic whose hash is 0 on the free bits. -/
theorem C22_violated_full_mask (hash base : BitVec 32) :
    mcastOfHash hash base (BitVec.allOnes 32) = base := by
  rw [C22_base_iff]; simp

/-- **C22, violation**: a mask that is not contiguous but covers the last bit maps topics to the base
address as well. -/
theorem C22_violated_odd_mask :
    mcastOfHash 0xABCDEF01 0xEF000000 0xFFFFFF01 = 0xEF000000 := by decide +kernel

/-! ### Text level -/

theorem dec_roundtrip : ∀ n, n < 256 → atoi (dec n) 0 = n := by decide +kernel
theorem dec_no_dot : ∀ n, n < 256 → '.' ∉ dec n := by decide +kernel
theorem dec_ne_nil : ∀ n, n < 256 → dec n ≠ [] := by decide +kernel

theorem tokens_dot (l rest cur : List Char) (h : '.' ∉ l) :
    tokens (l ++ '.' :: rest) cur = (cur.reverse ++ l) :: tokens rest [] := by
  induction l generalizing cur with
  | nil => simp [tokens]
  | cons c l ih =>
    simp only [List.mem_cons, not_or] at h
    simp only [List.cons_append, tokens, if_neg (Ne.symm h.1)]
    rw [ih _ h.2]; simp

theorem tokens_last (l cur : List Char) (h : '.' ∉ l) (hn : cur ++ l ≠ []) :
    tokens l cur = [cur.reverse ++ l] := by
  induction l generalizing cur with
  | nil => cases cur <;> simp_all [tokens]
  | cons c l ih =>
    simp only [List.mem_cons, not_or] at h
    simp only [tokens, if_neg (Ne.symm h.1)]
    rw [ih _ h.2 (by simp)]; simp

/-- The four octets of an address, most significant first. -/
def octets (a : BitVec 32) : List Nat :=
  [a.toNat / 16777216, a.toNat / 65536 % 256, a.toNat / 256 % 256, a.toNat % 256]

theorem serialize_eq (a : BitVec 32) :
    serializeIpv4 a = dec (a.toNat / 16777216) ++ '.' :: dec (a.toNat / 65536 % 256) ++
      '.' :: dec (a.toNat / 256 % 256) ++ '.' :: dec (a.toNat % 256) := by
  have h1 : (a >>> 24).toNat = a.toNat / 16777216 := by
    rw [BitVec.toNat_ushiftRight, Nat.shiftRight_eq_div_pow]
  have hm : ∀ k, k ≤ 32 → (a &&& BitVec.ofNat 32 (2 ^ k - 1)).toNat = a.toNat % 2 ^ k := by
    intro k hk
    rw [BitVec.toNat_and, BitVec.toNat_ofNat, Nat.mod_eq_of_lt (a := 2 ^ k - 1), Nat.and_two_pow_sub_one_eq_mod]
    have : 2 ^ k ≤ 2 ^ 32 := Nat.pow_le_pow_right (by decide) hk
    have : 0 < 2 ^ k := Nat.two_pow_pos k
    omega
  have e24 : (0x00ffffff : BitVec 32) = BitVec.ofNat 32 (2 ^ 24 - 1) := by decide
  have e16 : (0x0000ffff : BitVec 32) = BitVec.ofNat 32 (2 ^ 16 - 1) := by decide
  have e8 : (0x000000ff : BitVec 32) = BitVec.ofNat 32 (2 ^ 8 - 1) := by decide
  have h2 : ((a &&& 0x00ffffff) >>> 16).toNat = a.toNat / 65536 % 256 := by
    rw [e24, BitVec.toNat_ushiftRight, hm 24 (by decide), Nat.shiftRight_eq_div_pow]; omega
  have h3 : ((a &&& 0x0000ffff) >>> 8).toNat = a.toNat / 256 % 256 := by
    rw [e16, BitVec.toNat_ushiftRight, hm 16 (by decide), Nat.shiftRight_eq_div_pow]; omega
  have h4 : (a &&& 0x000000ff).toNat = a.toNat % 256 := by
    rw [e8, hm 8 (by decide)]
  unfold serializeIpv4
  rw [h1, h2, h3, h4]

theorem parse_octets (o0 o1 o2 o3 : Nat) (h0 : o0 < 256) (h1 : o1 < 256) (h2 : o2 < 256) (h3 : o3 < 256) :
    (parseIpv4 (dec o0 ++ '.' :: dec o1 ++ '.' :: dec o2 ++ '.' :: dec o3)).toNat =
      o0 * 16777216 + o1 * 65536 + o2 * 256 + o3 := by
  unfold parseIpv4
  rw [show dec o0 ++ '.' :: dec o1 ++ '.' :: dec o2 ++ '.' :: dec o3 =
      dec o0 ++ '.' :: (dec o1 ++ '.' :: (dec o2 ++ '.' :: dec o3)) by simp]
  rw [tokens_dot _ _ _ (dec_no_dot _ h0), tokens_dot _ _ _ (dec_no_dot _ h1),
    tokens_dot _ _ _ (dec_no_dot _ h2), tokens_last _ _ (dec_no_dot _ h3) (by simp [dec_ne_nil _ h3])]
  simp only [List.reverse_nil, List.nil_append, List.take_succ_cons, List.take_zero, List.foldl_cons,
    List.foldl_nil, dec_roundtrip _ h0, dec_roundtrip _ h1, dec_roundtrip _ h2, dec_roundtrip _ h3,
    Nat.mod_eq_of_lt h0, Nat.mod_eq_of_lt h1, Nat.mod_eq_of_lt h2, Nat.mod_eq_of_lt h3]
  have key : ∀ (x : BitVec 32) (n : Nat), n < 256 → x.toNat < 2 ^ 24 →
      ((x <<< 8) ||| BitVec.ofNat 32 n).toNat = x.toNat * 256 + n := by
    intro x n hn hx
    rw [BitVec.toNat_or, BitVec.toNat_shiftLeft, BitVec.toNat_ofNat, Nat.mod_eq_of_lt (a := n) (by omega),
      Nat.shiftLeft_eq, Nat.mod_eq_of_lt (by omega)]
    rw [Nat.mul_comm, ← Nat.two_pow_add_eq_or_of_lt (i := 8) hn]
  have k0 := key 0 o0 h0 (by decide)
  have k0' : ((0 : BitVec 32) <<< 8 ||| BitVec.ofNat 32 o0).toNat = o0 := by simpa using k0
  have k1 := key _ o1 h1 (by rw [k0']; omega)
  rw [k0'] at k1
  have k2 := key _ o2 h2 (by rw [k1]; omega)
  rw [k1] at k2
  have k3 := key _ o3 h3 (by rw [k2]; omega)
  rw [k2] at k3
  rw [k3]; omega

/-- **C22.** Text form and number correspond: parsing a serialised address gives it back. -/
theorem C22_text_roundtrip (a : BitVec 32) : parseIpv4 (serializeIpv4 a) = a := by
  apply BitVec.eq_of_toNat_eq
  have := a.isLt
  rw [serialize_eq, parse_octets _ _ _ _ (by omega) (by omega) (by omega) (by omega)]
  omega

/-- **C22 (API level).** With networking enabled, configuration version 2 and a mask whose
last bit is free, every topic's payload address has the network part of the configured group
and denotes another address than the registration address. -/
theorem C22_topic_address_partial (w : Nat) (c : UdpConfig) (topic : List UInt8)
    (hn : c.network = true) (hv : c.v1 = false) (hm : (parseIpv4 c.mask).getLsbD 0 = false) :
    let a := parseIpv4 (topicPayloadAddress w c topic)
    a &&& parseIpv4 c.mask = parseIpv4 c.group &&& parseIpv4 c.mask ∧
      a ≠ parseIpv4 (registrationAddress c) := by
  simp only [topicPayloadAddress, registrationAddress, hn, hv, if_true, Bool.false_eq_true, if_false, topic2mcast,
    C22_text_roundtrip]
  exact ⟨C22_network_part _ _ _, C22_never_base _ _ _ hm⟩

/-- With networking disabled all traffic uses the local broadcast address. -/
theorem C22_local (w : Nat) (c : UdpConfig) (topic : List UInt8) (hn : c.network = false) :
    topicPayloadAddress w c topic = localBroadcast ∧ registrationAddress c = localBroadcast := by
  simp [topicPayloadAddress, registrationAddress, hn]

/-- **C22.** Hosts with 64-bit and 32-bit `size_t` (and any width from 32 on) compute the
same address for a topic. -/
theorem C22_word_size (w : Nat) (hw : 32 ≤ w) (topic : List UInt8) :
    (fnv w topic).setWidth 32 = fnv 32 topic := by
  have step : ∀ (acc : BitVec w) (b : UInt8),
      (fnvStep w acc b).setWidth 32 = fnvStep 32 (acc.setWidth 32) b := by
    intro acc b
    unfold fnvStep
    rw [BitVec.setWidth_xor, BitVec.setWidth_mul _ _ hw, BitVec.setWidth_ofNat_of_le hw, BitVec.setWidth_ofNat_of_le hw]
  have : ∀ (l : List UInt8) (acc : BitVec w),
      (l.foldl (fnvStep w) acc).setWidth 32 = l.foldl (fnvStep 32) (acc.setWidth 32) := by
    intro l
    induction l with
    | nil => intro acc; rfl
    | cons b l ih => intro acc; rw [List.foldl_cons, ih, step, List.foldl_cons]
  unfold fnv
  rw [this, BitVec.setWidth_ofNat_of_le hw]

theorem C22_same_address_on_all_hosts (w w' : Nat) (hw : 32 ≤ w) (hw' : 32 ≤ w') (topic : List UInt8)
    (base mask : List Char) : topic2mcast w topic base mask = topic2mcast w' topic base mask := by
  unfold topic2mcast; rw [C22_word_size w hw, C22_word_size w' hw']

/-! ### Version 1 -/

/-- Version 1: the last octet is at least 2, the octets are the masked hash bytes. -/
theorem C22_v1_octets (hash : Nat) (mask : List Char) :
    (octetsV1 hash mask).1 < 256 ∧ (octetsV1 hash mask).2.1 < 256 ∧
      2 ≤ (octetsV1 hash mask).2.2 ∧ (octetsV1 hash mask).2.2 < 256 := by
  unfold octetsV1
  refine ⟨Nat.mod_lt _ (by decide), Nat.mod_lt _ (by decide), ?_, ?_⟩ <;>
  · simp only
    have := Nat.mod_lt (hash &&& maskV1 mask 3) (y := 256) (by decide)
    split <;> omega

theorem dec_three (n : Nat) (h : 100 ≤ n) (h' : n < 256) : (dec n).length = 3 := by
  have : ∀ n, n < 256 → 100 ≤ n → (dec n).length = 3 := by decide +kernel
  exact this n h' h

theorem and_mod_256 (a m : Nat) (hm : m < 256) : (a &&& m) % 256 = (a % 256) &&& m := by
  have e := Nat.and_mod_two_pow (a := a) (b := m) (n := 8)
  rw [show (2 : Nat) ^ 8 = 256 from rfl] at e
  rw [e, Nat.mod_eq_of_lt hm]

theorem maskV1_octets (m0 m1 m2 m3 : Nat) (h0 : m0 < 256) (h1 : m1 < 256) (h2 : m2 < 256) (h3 : m3 < 256) :
    let mask := dec m0 ++ '.' :: dec m1 ++ '.' :: dec m2 ++ '.' :: dec m3
    maskV1 mask 1 = m1 ∧ maskV1 mask 2 = m2 ∧ maskV1 mask 3 = m3 := by
  intro mask
  have ht : tokens mask [] = [dec m0, dec m1, dec m2, dec m3] := by
    rw [show mask = dec m0 ++ '.' :: (dec m1 ++ '.' :: (dec m2 ++ '.' :: dec m3)) by simp [mask]]
    rw [tokens_dot _ _ _ (dec_no_dot _ h0), tokens_dot _ _ _ (dec_no_dot _ h1),
      tokens_dot _ _ _ (dec_no_dot _ h2), tokens_last _ _ (dec_no_dot _ h3) (by simp [dec_ne_nil _ h3])]
    simp
  refine ⟨?_, ?_, ?_⟩
  · simp [maskV1, ht, dec_roundtrip _ h1, Nat.mod_eq_of_lt h1]
  · simp [maskV1, ht, dec_roundtrip _ h2, Nat.mod_eq_of_lt h2]
  · simp [maskV1, ht, dec_roundtrip _ h3, Nat.mod_eq_of_lt h3]

/-- **C22 (version 1).** Exactly which address version 1 computes for a group whose first octet has three digits: the first octet of the group,
then the third, second and first byte of the hash (counted from the lowest), each masked with its octet of the mask; the last octet is
at least 2. -/
theorem C22_v1_exact (w : Nat) (topic : List UInt8) (o0 : Nat) (rest : List Char) (m0 m1 m2 m3 : Nat)
    (h0 : 100 ≤ o0) (h0' : o0 < 256) (hm0 : m0 < 256) (hm1 : m1 < 256) (hm2 : m2 < 256) (hm3 : m3 < 256) :
    let h := (fnv w topic).toNat
    let mask := dec m0 ++ '.' :: dec m1 ++ '.' :: dec m2 ++ '.' :: dec m3
    topic2mcastV1 w topic (dec o0 ++ '.' :: rest) mask =
      dec o0 ++ '.' :: dec ((h / 65536 % 256) &&& m1) ++ '.' :: dec ((h / 256 % 256) &&& m2) ++ '.' :: dec (max 2 ((h % 256) &&& m3)) := by
  intro h mask
  obtain ⟨e1, e2, e3⟩ := maskV1_octets m0 m1 m2 m3 hm0 hm1 hm2 hm3
  have hb : (dec o0 ++ '.' :: rest).take 3 = dec o0 := by rw [← dec_three o0 h0 h0', List.take_left]
  simp only [topic2mcastV1, octetsV1, hb]
  simp only [mask, e1, e2, e3, Nat.shiftRight_eq_div_pow]
  rw [and_mod_256 _ _ hm1, and_mod_256 _ _ hm2, and_mod_256 _ _ hm3]
  have hx : (if (h % 256) &&& m3 < 2 then 2 else (h % 256) &&& m3) = max 2 ((h % 256) &&& m3) := by split <;> omega
  simp only [h] at hx ⊢
  rw [hx]

example : topic2mcastV1 64 [97] "239.0.0.1".toList "0.0.0.15".toList = "239.0.0.14".toList := by decide +kernel

/-- **C22 (version 1).** Hosts with 64-bit and 32-bit `size_t` compute the same address. -/
theorem C22_v1_same_address_on_all_hosts (w w' : Nat) (hw : 32 ≤ w) (hw' : 32 ≤ w') (topic : List UInt8) (base : List Char)
    (m0 m1 m2 m3 : Nat) (hm0 : m0 < 256) (hm1 : m1 < 256) (hm2 : m2 < 256) (hm3 : m3 < 256) :
    let mask := dec m0 ++ '.' :: dec m1 ++ '.' :: dec m2 ++ '.' :: dec m3
    topic2mcastV1 w topic base mask = topic2mcastV1 w' topic base mask := by
  intro mask
  obtain ⟨e1, e2, e3⟩ := maskV1_octets m0 m1 m2 m3 hm0 hm1 hm2 hm3
  have key : ∀ v, 32 ≤ v → (fnv v topic).toNat % 4294967296 = (fnv 32 topic).toNat := by
    intro v hv
    rw [← C22_word_size v hv, BitVec.toNat_setWidth]
  have k := key w hw
  have k' := key w' hw'
  rw [← k'] at k
  simp only [topic2mcastV1, octetsV1, mask, e1, e2, e3, Nat.shiftRight_eq_div_pow]
  rw [and_mod_256 _ _ hm1, and_mod_256 _ _ hm2, and_mod_256 _ _ hm3, and_mod_256 _ _ hm1, and_mod_256 _ _ hm2, and_mod_256 _ _ hm3]
  have a1 : (fnv w topic).toNat / 2 ^ 16 % 256 = (fnv w' topic).toNat / 2 ^ 16 % 256 := by omega
  have a2 : (fnv w topic).toNat / 2 ^ 8 % 256 = (fnv w' topic).toNat / 2 ^ 8 % 256 := by omega
  have a3 : (fnv w topic).toNat % 256 = (fnv w' topic).toNat % 256 := by omega
  rw [a1, a2, a3]

/-- The hash is FNV-1: its published test vectors for 32 bits. -/
theorem C22_hash_vectors :
    fnv 32 [] = 0x811c9dc5#32 ∧ fnv 32 [97] = 0x050c5d7e#32 ∧ fnv 32 [102, 111, 111, 98, 97, 114] = 0x31f0b262#32 := by
  decide +kernel

/-- **C22 (version 1).** For a group whose first octet has three digits and whose last octet
is 0 or 1 the topic address differs from the group. -/
theorem C22_v1_never_base_partial (w : Nat) (topic : List UInt8) (mask : List Char) (o0 o1 o2 o3 : Nat)
    (h0 : 100 ≤ o0) (h0' : o0 < 256) (h1 : o1 < 256) (h2 : o2 < 256) (h3 : o3 < 2) :
    let base := dec o0 ++ '.' :: dec o1 ++ '.' :: dec o2 ++ '.' :: dec o3
    parseIpv4 (topic2mcastV1 w topic base mask) ≠ parseIpv4 base := by
  intro base hc
  have hb : base.take 3 = dec o0 := by
    simp only [base, List.append_assoc]
    rw [← dec_three o0 h0 h0', List.take_left]
  have ho := C22_v1_octets (fnv w topic).toNat mask
  have hc := congrArg BitVec.toNat hc
  simp only [topic2mcastV1] at hc
  rw [hb, parse_octets _ _ _ _ h0' ho.1 ho.2.1 ho.2.2.2] at hc
  simp only [base] at hc
  rw [parse_octets _ _ _ _ h0' h1 h2 (by omega)] at hc
  omega

/-- **C22 (version 1, violated).** Version 1 ignores all but the first three characters of the
configured group: group 239.1.2.3 with mask 255.255.255.240 yields addresses outside
239.1.2.x, and a topic can land on a group ending in .2. -/
theorem C22_v1_violated_network :
    parseIpv4 (topic2mcastV1 64 [102, 111, 111] "239.1.2.3".toList "255.255.255.240".toList) &&&
        parseIpv4 "255.255.255.240".toList
      ≠ parseIpv4 "239.1.2.3".toList &&& parseIpv4 "255.255.255.240".toList := by decide +kernel

theorem C22_v1_violated_base :
    ∃ hash : Nat, octetsV1 hash "0.255.255.255".toList = (0, 0, 2) := ⟨0, by decide +kernel⟩

example : (parseIpv4 "255.255.255.240".toList).getLsbD 0 = false := by decide +kernel
example : topic2mcast 64 [104, 105] "239.0.0.1".toList "255.255.255.240".toList =
    topic2mcast 32 [104, 105] "239.0.0.1".toList "255.255.255.240".toList := by decide +kernel

end Ecal.Udp
