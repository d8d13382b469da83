import Verif.Wire.Varint

/-!
# Fields on the wire

The decoding loop of nanopb (`pb_decode_inner`, pb_decode.c L989-1151) reads tag and wire
type, then hands the value to the field's decoder or skips it.  The model first splits the
byte string into (field number, raw value) pairs and then applies the decoders in order; since
the extent of a value depends only on its wire type this is the same computation (a failure
anywhere makes the whole decoding fail in both).
-/

namespace Ecal.Wire

/-- A value as found on the wire. -/
inductive Raw where
  | varint (b : Bytes)
  | fix64 (b : Bytes)
  | len (b : Bytes)
  | fix32 (b : Bytes)
deriving Repr, DecidableEq

def Raw.wireType : Raw → Nat
  | .varint _ => 0 | .fix64 _ => 1 | .len _ => 2 | .fix32 _ => 5

/-- The bytes of the value without a length prefix. -/
def Raw.bytes : Raw → Bytes
  | .varint b => b | .fix64 b => b | .len b => b | .fix32 b => b

/-- Bytes up to and including the first one without continuation bit
(`pb_skip_varint` L265-274, `read_raw_value` L317-357). -/
def splitVarint : Bytes → Option (Bytes × Bytes)
  | [] => none
  | b :: rest =>
    if 128 ≤ b.toNat then
      match splitVarint rest with
      | some (x, r) => some (b :: x, r)
      | none => none
    else some ([b], rest)

/-- `pb_read` of exactly `n` bytes (L81-120). -/
def takeN (n : Nat) (bs : Bytes) : Option (Bytes × Bytes) :=
  if bs.length < n then none else some (bs.take n, bs.drop n)

/-- The value of wire type `w` at the start of `bs` (`pb_skip_field` L303-314,
`pb_make_string_substream` L361-374). -/
def readRaw (w : Nat) (bs : Bytes) : Option (Raw × Bytes) :=
  match w with
  | 0 => (splitVarint bs).map (fun p => (.varint p.1, p.2))
  | 1 => (takeN 8 bs).map (fun p => (.fix64 p.1, p.2))
  | 2 =>
    match decVarint32 bs with
    | none => none
    | some (n, rest) => (takeN n rest).map (fun p => (.len p.1, p.2))
  | 5 => (takeN 4 bs).map (fun p => (.fix32 p.1, p.2))
  | _ => none

/-- `pb_decode_tag` (L288-301) and the value; field number 0 is an error (L1024-1034). -/
def readField (bs : Bytes) : Option ((Nat × Raw) × Bytes) :=
  match decVarint32 bs with
  | none => none
  | some (t, rest) =>
    if t / 8 = 0 then none
    else (readRaw (t % 8) rest).map (fun p => ((t / 8, p.1), p.2))

/-- `while (stream->bytes_left)` (L1010-1105); every field consumes a byte, so the length
of the input bounds the number of rounds. -/
def readAllN : Nat → Bytes → Option (List (Nat × Raw))
  | 0, bs => if bs = [] then some [] else none
  | f + 1, bs =>
    if bs = [] then some []
    else
      match readField bs with
      | none => none
      | some (fld, rest) =>
        match readAllN f rest with
        | none => none
        | some l => some (fld :: l)

def readAll (bs : Bytes) : Option (List (Nat × Raw)) := readAllN bs.length bs

/-- `pb_encode_tag` (pb_encode.c L674-678) and the value (`pb_encode_string` L715-721). -/
def writeField (f : Nat × Raw) : Bytes :=
  encVarint (f.1 * 8 + f.2.wireType) ++
    match f.2 with
    | .varint b => b
    | .fix64 b => b
    | .len b => encVarint b.length ++ b
    | .fix32 b => b

def writeAll (l : List (Nat × Raw)) : Bytes := l.flatMap writeField

/-- Raw values as the encoder produces them. -/
def Raw.Ok : Raw → Prop
  | .varint b => ∃ n, n < 2 ^ 64 ∧ b = encVarint n
  | .fix64 b => b.length = 8
  | .len b => b.length < 2 ^ 32
  | .fix32 b => b.length = 4

/-! ### Splitting inverts concatenation -/

theorem splitVarint_enc (f n : Nat) (hn : n < 2 ^ (7 * f)) (hf : 0 < f) (rest : Bytes) :
    splitVarint (encVarintN f n ++ rest) = some (encVarintN f n, rest) := by
  induction f generalizing n with
  | zero => omega
  | succ f ih =>
    rw [encVarintN]
    by_cases h : n < 128
    · rw [if_pos h, List.singleton_append, splitVarint, byte_toNat _ (by omega), if_neg (by omega)]
    · rw [if_neg h, List.cons_append, splitVarint, byte_toNat _ (by omega), if_pos (by omega)]
      have hpow : 2 ^ (7 * (f + 1)) = 128 * 2 ^ (7 * f) := by
        rw [show 7 * (f + 1) = 7 * f + 7 by omega, Nat.pow_add]; omega
      have hf0 : 0 < f := by
        rcases Nat.eq_zero_or_pos f with h0 | h0
        · subst h0; simp at hn; omega
        · exact h0
      rw [ih (n / 128) (by omega) hf0]

theorem splitVarint_encVarint (n : Nat) (hn : n < 2 ^ 64) (rest : Bytes) :
    splitVarint (encVarint n ++ rest) = some (encVarint n, rest) :=
  splitVarint_enc 10 n (Nat.lt_of_lt_of_le hn (by decide)) (by decide) rest

theorem takeN_append (b rest : Bytes) : takeN b.length (b ++ rest) = some (b, rest) := by
  unfold takeN
  rw [if_neg (by simp), List.take_left, List.drop_left]

theorem readField_write (t : Nat) (r : Raw) (rest : Bytes) (h0 : 0 < t) (ht : t < 2 ^ 29) (hr : r.Ok) :
    readField (writeField (t, r) ++ rest) = some ((t, r), rest) := by
  have hw : r.wireType < 8 := by cases r <;> simp [Raw.wireType]
  unfold readField writeField
  simp only [List.append_assoc]
  rw [decVarint32_encVarint _ (by omega)]
  simp only
  rw [if_neg (by omega), show (t * 8 + r.wireType) / 8 = t by omega,
    show (t * 8 + r.wireType) % 8 = r.wireType by omega]
  cases r with
  | varint b =>
    obtain ⟨n, hn, rfl⟩ := hr
    simp [readRaw, Raw.wireType, splitVarint_encVarint n hn]
  | fix64 b =>
    simp only [Raw.Ok] at hr
    simp only [readRaw, Raw.wireType]
    rw [← hr, takeN_append]; rfl
  | len b =>
    simp only [readRaw, Raw.wireType, List.append_assoc]
    rw [decVarint32_encVarint _ hr]
    simp only
    rw [takeN_append]; rfl
  | fix32 b =>
    simp only [Raw.Ok] at hr
    simp only [readRaw, Raw.wireType]
    rw [← hr, takeN_append]; rfl

theorem writeField_length_pos (f : Nat × Raw) : 0 < (writeField f).length := by
  have : encVarint (f.1 * 8 + f.2.wireType) ≠ [] := encVarintN_ne_nil 9 _
  have := List.length_pos_iff.2 this
  simp only [writeField, List.length_append]
  omega

theorem readAllN_write (l : List (Nat × Raw)) (h : ∀ p ∈ l, 0 < p.1 ∧ p.1 < 2 ^ 29 ∧ p.2.Ok) (f : Nat)
    (hf : (writeAll l).length ≤ f) : readAllN f (writeAll l) = some l := by
  induction l generalizing f with
  | nil => cases f <;> simp [readAllN, writeAll]
  | cons p l ih =>
    have e : writeAll (p :: l) = writeField p ++ writeAll l := by simp [writeAll]
    rw [e] at hf ⊢
    have hpos := writeField_length_pos p
    rw [List.length_append] at hf
    obtain ⟨f, rfl⟩ : ∃ g, f = g + 1 := ⟨f - 1, by omega⟩
    have hp := h p (by simp)
    have hne : writeField p ++ writeAll l ≠ [] := by
      intro hc
      have := congrArg List.length hc
      simp at this
      rw [this.1] at hpos; simp at hpos
    rw [readAllN, if_neg hne]
    rw [readField_write p.1 p.2 _ hp.1 hp.2.1 hp.2.2]
    simp only
    rw [ih (fun q hq => h q (by simp [hq])) f (by omega)]

/-- Reading what was written gives the same fields. -/
theorem readAll_writeAll (l : List (Nat × Raw)) (h : ∀ p ∈ l, 0 < p.1 ∧ p.1 < 2 ^ 29 ∧ p.2.Ok) :
    readAll (writeAll l) = some l := readAllN_write l h _ (Nat.le_refl _)

theorem bytes_le_writeAll (l : List (Nat × Raw)) (p : Nat × Raw) (hp : p ∈ l) :
    p.2.bytes.length ≤ (writeAll l).length := by
  induction l with
  | nil => simp at hp
  | cons q l ih =>
    have e : writeAll (q :: l) = writeField q ++ writeAll l := by simp [writeAll]
    rw [e, List.length_append]
    rcases List.mem_cons.1 hp with rfl | hm
    · have : p.2.bytes.length ≤ (writeField p).length := by
        simp only [writeField, List.length_append]
        cases p.2 <;> simp [Raw.bytes] <;> omega
      omega
    · have := ih hm; omega

end Ecal.Wire
