/-!
# Base-128 numbers of the protobuf wire format

core/src/serialization/nanopb/nanopb/pb_encode.c L572-622,
core/src/serialization/nanopb/nanopb/pb_decode.c L170-263.  Byte strings are lists; `bytes_left`
is their length.
-/

namespace Ecal.Wire

abbrev Bytes := List UInt8

def byte (n : Nat) : UInt8 := UInt8.ofNat n

/-- Groups of seven bits, least significant first; a buffer of ten bytes
(`pb_encode_varint`, pb_encode.c L604-622). -/
def encVarintN : Nat → Nat → Bytes
  | 0, _ => []
  | f + 1, n => if n < 128 then [byte n] else byte (n % 128 + 128) :: encVarintN f (n / 128)

/-- `pb_encode_varint` (L604-622) for a 64-bit value. -/
def encVarint (n : Nat) : Bytes := encVarintN 10 n

/-! `pb_encode_varint_32` (L572-602), the loop the code actually uses, statement by
statement: `low` and `high` are the two halves of the value. -/

/-- Second loop (L591-597): the remaining bits of `high`; `b` is the byte under
construction. -/
def encHigh : Nat → Nat → Nat → Bytes
  | 0, _, b => [byte b]
  | f + 1, high, b => if high = 0 then [byte b] else byte (b + 128) :: encHigh f (high / 128) (high % 128)

/-- First loop (L579-585), at most four rounds, then L587-601. -/
def encLow : Nat → Nat → Nat → Nat → Bytes
  | 0, _low, high, b => if high = 0 then [byte b] else encHigh 5 (high / 8) (b + high % 8 * 16)
  | f + 1, low, high, b =>
    if low = 0 ∧ high = 0 then [byte b]
    else byte (b + 128) :: encLow f (low / 128) high (low % 128)

def encVarint32 (low high : Nat) : Bytes := encLow 4 (low / 128) high (low % 128)

/-- `pb_encode_varint` as written (L604-622). -/
def encVarintCode (n : Nat) : Bytes :=
  if n ≤ 127 then [byte n] else encVarint32 (n % 2 ^ 32) (n / 2 ^ 32)

/-! ### Decoding -/

/-- `pb_decode_varint` (pb_decode.c L242-263). -/
def decVarint64 : Bytes → Nat → Nat → Option (Nat × Bytes)
  | [], _, _ => none
  | b :: rest, pos, acc =>
    if 63 ≤ pos ∧ 2 ≤ b.toNat then none
    else if 128 ≤ b.toNat then decVarint64 rest (pos + 7) (acc + b.toNat % 128 * 2 ^ pos)
    else some (acc + b.toNat % 128 * 2 ^ pos, rest)

/-- The multi-byte loop of `pb_decode_varint32_eof` (L198-231). -/
def decVarint32Rest : Bytes → Nat → Nat → Option (Nat × Bytes)
  | [], _, _ => none
  | b :: rest, pos, acc =>
    if 32 ≤ pos then
      if 64 ≤ pos ∨ ¬ (b.toNat % 128 = 0 ∨
          (acc / 2 ^ 31 ≠ 0 ∧ b.toNat = if pos < 63 then 255 else 1)) then none
      else if 128 ≤ b.toNat then decVarint32Rest rest (pos + 7) acc else some (acc, rest)
    else if pos = 28 then
      if b.toNat / 16 % 8 ≠ 0 ∧ b.toNat / 8 % 16 ≠ 15 then none
      else if 128 ≤ b.toNat then decVarint32Rest rest (pos + 7) (acc + b.toNat % 16 * 2 ^ pos)
      else some (acc + b.toNat % 16 * 2 ^ pos, rest)
    else if 128 ≤ b.toNat then decVarint32Rest rest (pos + 7) (acc + b.toNat % 128 * 2 ^ pos)
      else some (acc + b.toNat % 128 * 2 ^ pos, rest)

/-- `pb_decode_varint32` (L170-239). -/
def decVarint32 : Bytes → Option (Nat × Bytes)
  | [] => none
  | b :: rest => if b.toNat < 128 then some (b.toNat, rest) else decVarint32Rest rest 7 (b.toNat % 128)

/-! ### Lemmas -/

theorem byte_toNat (n : Nat) (h : n < 256) : (byte n).toNat = n := by
  simp [byte, UInt8.toNat_ofNat, Nat.mod_eq_of_lt h]

theorem encVarintN_ne_nil (f n : Nat) : encVarintN (f + 1) n ≠ [] := by
  rw [encVarintN]; split <;> simp

/-- Decoding continues where encoding starts: position `pos`, `f` more bytes allowed. -/
theorem decVarint64_enc (f n pos acc : Nat) (rest : Bytes) (hn : n < 2 ^ (7 * f)) (hp : n * 2 ^ pos < 2 ^ 64)
    (hf : 0 < f) :
    decVarint64 (encVarintN f n ++ rest) pos acc = some (acc + n * 2 ^ pos, rest) := by
  induction f generalizing n pos acc with
  | zero => omega
  | succ f ih =>
    rw [encVarintN]
    by_cases h : n < 128
    · rw [if_pos h, List.singleton_append, decVarint64, byte_toNat n (by omega)]
      have : ¬ (63 ≤ pos ∧ 2 ≤ n) := by
        rintro ⟨h1, h2⟩
        have : 2 * 2 ^ 63 ≤ n * 2 ^ pos := Nat.mul_le_mul h2 (Nat.pow_le_pow_right (by decide) h1)
        omega
      rw [if_neg this, if_neg (by omega), Nat.mod_eq_of_lt h]
    · rw [if_neg h, List.cons_append, decVarint64, byte_toNat _ (by omega)]
      have hp1 : ¬ 63 ≤ pos := by
        intro h1
        have : 128 * 2 ^ 63 ≤ n * 2 ^ pos := Nat.mul_le_mul (by omega) (Nat.pow_le_pow_right (by decide) h1)
        omega
      rw [if_neg (by omega), if_pos (by omega)]
      have e7 : 2 ^ (pos + 7) = 128 * 2 ^ pos := by rw [Nat.pow_add]; omega
      have hsplit : n * 2 ^ pos = n % 128 * 2 ^ pos + n / 128 * 2 ^ (pos + 7) := by
        have := Nat.div_add_mod n 128
        calc n * 2 ^ pos = (128 * (n / 128) + n % 128) * 2 ^ pos := by rw [this]
          _ = _ := by rw [Nat.add_mul, e7, Nat.mul_comm 128 (n / 128), Nat.mul_assoc]; omega
      have hpow : 2 ^ (7 * (f + 1)) = 128 * 2 ^ (7 * f) := by
        rw [show 7 * (f + 1) = 7 * f + 7 by omega, Nat.pow_add]; omega
      have hf0 : 0 < f := by
        rcases Nat.eq_zero_or_pos f with h0 | h0
        · subst h0; simp at hn; omega
        · exact h0
      rw [ih (n / 128) (pos + 7) _ (by omega) (by omega) hf0]
      congr 2
      rw [show (n % 128 + 128) % 128 = n % 128 by omega]
      omega

/-- 64-bit round trip. -/
theorem decVarint64_encVarint (n : Nat) (h : n < 2 ^ 64) (rest : Bytes) :
    decVarint64 (encVarint n ++ rest) 0 0 = some (n, rest) := by
  unfold encVarint
  rw [decVarint64_enc 10 n 0 0 rest (Nat.lt_of_lt_of_le h (by decide)) (by omega) (by decide)]
  simp

theorem decVarint32Rest_enc (f n pos acc : Nat) (rest : Bytes) (hn : n < 2 ^ (7 * f)) (hp : n * 2 ^ pos < 2 ^ 32)
    (hf : 0 < f) (h7 : pos = 7 ∨ pos = 14 ∨ pos = 21 ∨ pos = 28) :
    decVarint32Rest (encVarintN f n ++ rest) pos acc = some (acc + n * 2 ^ pos, rest) := by
  induction f generalizing n pos acc with
  | zero => omega
  | succ f ih =>
    rw [encVarintN]
    have hlt : ¬ 32 ≤ pos := by omega
    by_cases h : n < 128
    · rw [if_pos h, List.singleton_append, decVarint32Rest, byte_toNat n (by omega), if_neg hlt]
      by_cases h28 : pos = 28
      · subst h28
        have : n < 16 := by omega
        rw [if_pos rfl, if_neg (by omega), if_neg (by omega), Nat.mod_eq_of_lt this]
      · rw [if_neg h28, if_neg (by omega), Nat.mod_eq_of_lt h]
    · rw [if_neg h, List.cons_append, decVarint32Rest, byte_toNat _ (by omega), if_neg hlt]
      have h28 : pos ≠ 28 := by rintro rfl; omega
      rw [if_neg h28, if_pos (by omega)]
      have e7 : 2 ^ (pos + 7) = 128 * 2 ^ pos := by rw [Nat.pow_add]; omega
      have hsplit : n * 2 ^ pos = n % 128 * 2 ^ pos + n / 128 * 2 ^ (pos + 7) := by
        have := Nat.div_add_mod n 128
        calc n * 2 ^ pos = (128 * (n / 128) + n % 128) * 2 ^ pos := by rw [this]
          _ = _ := by rw [Nat.add_mul, e7, Nat.mul_comm 128 (n / 128), Nat.mul_assoc]; omega
      have hpow : 2 ^ (7 * (f + 1)) = 128 * 2 ^ (7 * f) := by
        rw [show 7 * (f + 1) = 7 * f + 7 by omega, Nat.pow_add]; omega
      have hf0 : 0 < f := by
        rcases Nat.eq_zero_or_pos f with h0 | h0
        · subst h0; simp at hn; omega
        · exact h0
      rw [ih (n / 128) (pos + 7) _ (by omega) (by omega) hf0 (by omega)]
      congr 2
      rw [show (n % 128 + 128) % 128 = n % 128 by omega]
      omega

/-- 32-bit round trip (tags and lengths). -/
theorem decVarint32_encVarint (n : Nat) (h : n < 2 ^ 32) (rest : Bytes) :
    decVarint32 (encVarint n ++ rest) = some (n, rest) := by
  unfold encVarint
  rw [encVarintN]
  by_cases hn : n < 128
  · rw [if_pos hn, List.singleton_append, decVarint32, byte_toNat n (by omega), if_pos hn]
  · rw [if_neg hn, List.cons_append, decVarint32, byte_toNat _ (by omega), if_neg (by omega),
      decVarint32Rest_enc 9 (n / 128) 7 _ rest (by omega) (by omega) (by decide) (Or.inl rfl)]
    congr 2
    omega

/-! The encoding loop of the code yields the same bytes. -/

theorem encHigh_eq (f n : Nat) (h : n < 2 ^ (7 * (f + 1))) :
    encHigh f (n / 128) (n % 128) = encVarintN (f + 1) n := by
  induction f generalizing n with
  | zero =>
    simp only [encHigh, encVarintN]
    simp at h
    rw [if_pos h, Nat.mod_eq_of_lt h]
  | succ f ih =>
    rw [encVarintN, encHigh]
    by_cases hn : n < 128
    · rw [if_pos (by omega), if_pos hn, Nat.mod_eq_of_lt hn]
    · rw [if_neg (by omega), if_neg hn]
      congr 1
      apply ih
      have : 2 ^ (7 * (f + 1 + 1)) = 128 * 2 ^ (7 * (f + 1)) := by
        rw [show 7 * (f + 1 + 1) = 7 * (f + 1) + 7 by omega, Nat.pow_add]; omega
      omega

/-- `encLow` with `k` rounds left processes the number `b + 128·low + 2^(4+7k)·high`. -/
theorem encLow_eq (k : Nat) (hk : k ≤ 4) (b low high : Nat) (hb : b < 128) (hhigh : high < 2 ^ 32)
    (hlow : 128 * low + b < 2 ^ (7 * k + 4)) :
    encLow k low high b = encVarintN (k + 6) (b + 128 * low + 2 ^ (7 * k + 4) * high) := by
  induction k generalizing b low with
  | zero =>
    have hl0 : low = 0 := by simp at hlow; omega
    subst hl0
    simp only [Nat.mul_zero, Nat.zero_add, Nat.add_zero] at hlow ⊢
    have hb16 : b < 16 := by omega
    rw [encLow]
    by_cases h0 : high = 0
    · subst h0
      rw [if_pos rfl, encVarintN, if_pos (by omega)]
      simp
    · rw [if_neg h0]
      have e1 : high / 8 = (b + 2 ^ 4 * high) / 128 := by omega
      have e2 : b + high % 8 * 16 = (b + 2 ^ 4 * high) % 128 := by omega
      rw [e1, e2, encHigh_eq 5 _ (by omega)]
  | succ k ih =>
    have hpow : 2 ^ (7 * (k + 1) + 4) = 128 * 2 ^ (7 * k + 4) := by
      rw [show 7 * (k + 1) + 4 = 7 * k + 4 + 7 by omega, Nat.pow_add]; omega
    rw [hpow] at hlow
    rw [encLow, show k + 1 + 6 = (k + 6) + 1 by omega, encVarintN]
    by_cases h0 : low = 0 ∧ high = 0
    · rw [if_pos h0, h0.1, h0.2]; simp [hb]
    · rw [if_neg h0]
      have hp : 0 < 2 ^ (7 * k + 4) := Nat.two_pow_pos _
      have e3 : b + 128 * low + 2 ^ (7 * (k + 1) + 4) * high = b + 128 * (low + 2 ^ (7 * k + 4) * high) := by
        rw [hpow, Nat.mul_add, Nat.mul_assoc]; omega
      have hge : ¬ (b + 128 * low + 2 ^ (7 * (k + 1) + 4) * high) < 128 := by
        rw [e3]
        have : 0 < low + 2 ^ (7 * k + 4) * high := by
          rcases Nat.eq_zero_or_pos low with hl | hl
          · have : 0 < high := by
              rcases Nat.eq_zero_or_pos high with hh | hh
              · exact absurd ⟨hl, hh⟩ h0
              · exact hh
            have := Nat.mul_pos hp this
            omega
          · omega
        omega
      rw [if_neg hge, e3]
      have e4 : (b + 128 * (low + 2 ^ (7 * k + 4) * high)) % 128 = b := by omega
      have e5 : (b + 128 * (low + 2 ^ (7 * k + 4) * high)) / 128 = low + 2 ^ (7 * k + 4) * high := by omega
      rw [e4, e5, ih (by omega) _ _ (Nat.mod_lt _ (by decide)) (by omega)]
      congr 2
      omega

/-- The statement-by-statement encoder equals the plain one for every 64-bit value. -/
theorem encVarintCode_eq (n : Nat) (h : n < 2 ^ 64) : encVarintCode n = encVarint n := by
  unfold encVarintCode encVarint
  by_cases hn : n ≤ 127
  · rw [if_pos hn, encVarintN, if_pos (by omega)]
  · rw [if_neg hn]
    unfold encVarint32
    rw [encLow_eq 4 (by decide) _ _ _ (Nat.mod_lt _ (by decide)) (by omega) (by omega)]
    congr 1
    omega

theorem encVarintN_length (f n : Nat) : (encVarintN f n).length ≤ f := by
  induction f generalizing n with
  | zero => simp [encVarintN]
  | succ f ih => rw [encVarintN]; split <;> simp; exact ih _

theorem encVarint_small (n : Nat) (h : n < 128) : encVarint n = [byte n] := by
  unfold encVarint; rw [encVarintN, if_pos h]

end Ecal.Wire
