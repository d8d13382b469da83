import Verif.Pb.Stream

/-!
# The decoder computes what the message format says: steps

`window s` are the bytes a stream may still read.  Every reading function is shown equal to its
counterpart of `Verif.Wire` on the window, with the stream moved by the bytes consumed; in
particular it is neither `ub` nor `stuck`.
-/

namespace Ecal.Pb

open Ecal.Wire

/-- The stream stays inside its array. -/
def IStream.Wf (s : IStream) : Prop := s.pos + s.left ≤ s.buf.length

/-- The bytes the stream may read. -/
def IStream.window (s : IStream) : Bytes := (s.buf.drop s.pos).take s.left

/-- The stream after `n` bytes. -/
def IStream.adv (s : IStream) (n : Nat) : IStream := { s with pos := s.pos + n, left := s.left - n }

/-- The result of reading from `s` when the format yields `o` on its window. -/
def expect {β} (s : IStream) : Option (β × Bytes) → Res (β × IStream)
  | none => .err
  | some (v, rest) => .ok (v, s.adv (s.left - rest.length))

@[simp] theorem bind_ok {α β} (a : α) (f : α → Res β) : (Res.ok a).bind f = f a := rfl
@[simp] theorem bind_err {α β} (f : α → Res β) : (Res.err : Res α).bind f = .err := rfl

theorem adv_adv (s : IStream) (a b : Nat) : (s.adv a).adv b = s.adv (a + b) := by
  simp only [IStream.adv, IStream.mk.injEq, true_and]; omega

@[simp] theorem adv_zero (s : IStream) : s.adv 0 = s := rfl
@[simp] theorem adv_left (s : IStream) (n : Nat) : (s.adv n).left = s.left - n := rfl

theorem window_length {s : IStream} (h : s.Wf) : s.window.length = s.left := by
  unfold IStream.Wf at h
  simp only [IStream.window, List.length_take, List.length_drop]; omega

theorem adv_wf {s : IStream} (h : s.Wf) {n : Nat} (hn : n ≤ s.left) : (s.adv n).Wf := by
  unfold IStream.Wf at h ⊢
  simp only [IStream.adv]; omega

theorem window_adv {s : IStream} (n : Nat) : (s.adv n).window = s.window.drop n := by
  simp only [IStream.window, IStream.adv, List.drop_take, List.drop_drop]

theorem readByte_eq {s : IStream} (h : s.Wf) :
    readByte s = match s.window with | [] => .err | b :: _ => .ok (b, s.adv 1) := by
  have hl := window_length h
  unfold readByte
  by_cases h0 : s.left = 0
  · rw [if_pos h0]
    have : s.window = [] := List.length_eq_zero_iff.1 (by omega)
    rw [this]
  · rw [if_neg h0]
    unfold IStream.Wf at h
    have hp : s.pos < s.buf.length := by omega
    rw [List.getElem?_eq_getElem hp]
    have : s.window = s.buf[s.pos] :: (s.buf.drop (s.pos + 1)).take (s.left - 1) := by
      unfold IStream.window
      rw [List.drop_eq_getElem_cons hp]
      obtain ⟨n, hn⟩ : ∃ n, s.left = n + 1 := ⟨s.left - 1, by omega⟩
      rw [hn, List.take_succ_cons]; rfl
    rw [this]; rfl

theorem pbRead_eq {s : IStream} (h : s.Wf) (n : Nat) :
    pbRead s n = expect s (takeN n s.window) := by
  have hl := window_length h
  unfold pbRead takeN
  unfold IStream.Wf at h
  rw [hl]
  by_cases h0 : n = 0
  · subst h0; simp [expect, hl]
  · rw [if_neg h0]
    by_cases h1 : s.left < n
    · rw [if_pos h1, if_pos h1]; rfl
    · rw [if_neg h1, if_neg h1, if_neg (by omega)]
      simp only [expect, IStream.window, List.take_take, IStream.adv, List.length_drop, List.length_take,
        Nat.min_eq_left (Nat.le_of_not_lt h1)]
      congr 2
      · congr 1 <;> omega

theorem pbSkip_eq {s : IStream} (h : s.Wf) (n : Nat) :
    pbSkip s n = if s.left < n then .err else .ok (s.adv n) := by
  unfold pbSkip
  unfold IStream.Wf at h
  by_cases h0 : n = 0
  · subst h0; simp
  · rw [if_neg h0]
    by_cases h1 : s.left < n
    · rw [if_pos h1, if_pos h1]
    · rw [if_neg h1, if_neg h1, if_neg (by omega)]; rfl

/-! ### Bits of a byte -/

theorem forall_byte {P : UInt8 → Prop} (h : ∀ n : Fin 256, P (UInt8.ofNat n.val)) (b : UInt8) : P b := by
  have := h ⟨b.toNat, b.toNat_lt⟩
  simpa using this

theorem and_80 : ∀ b : UInt8, ((b &&& 0x80) ≠ 0) ↔ 128 ≤ b.toNat := forall_byte (by decide +kernel)
theorem and_80' : ∀ b : UInt8, ((b &&& 0x80) = 0) ↔ b.toNat < 128 := forall_byte (by decide +kernel)
theorem and_7F : ∀ b : UInt8, (b &&& 0x7F).toNat = b.toNat % 128 := forall_byte (by decide +kernel)
theorem and_0F : ∀ b : UInt8, (b &&& 0x0F).toNat = b.toNat % 16 := forall_byte (by decide +kernel)
theorem and_FE : ∀ b : UInt8, ((b &&& 0xFE) ≠ 0) ↔ 2 ≤ b.toNat := forall_byte (by decide +kernel)
theorem and_70 : ∀ b : UInt8, ((b &&& 0x70) ≠ 0) ↔ b.toNat / 16 % 8 ≠ 0 := forall_byte (by decide +kernel)
theorem and_78 : ∀ b : UInt8, ((b &&& 0x78) ≠ 0x78) ↔ b.toNat / 8 % 16 ≠ 15 := forall_byte (by decide +kernel)
theorem and_7F0 : ∀ b : UInt8, ((b &&& 0x7F) = 0) ↔ b.toNat % 128 = 0 := forall_byte (by decide +kernel)

/-- Adding bits above the ones already there. -/
theorem or_shift {w : Nat} (r x : BitVec w) (pos : Nat) (hr : r.toNat < 2 ^ pos)
    (hx : x.toNat * 2 ^ pos < 2 ^ w) : (r ||| x <<< pos).toNat = r.toNat + x.toNat * 2 ^ pos := by
  rw [BitVec.toNat_or, BitVec.toNat_shiftLeft, Nat.shiftLeft_eq, Nat.mod_eq_of_lt hx, Nat.or_comm,
    ← Nat.shiftLeft_eq, ← Nat.shiftLeft_add_eq_or_of_lt hr]
  omega

theorem setWidth_byte (w : Nat) (hw : 8 ≤ w) (b : UInt8) : (b.toBitVec.setWidth w).toNat = b.toNat := by
  rw [BitVec.toNat_setWidth, Nat.mod_eq_of_lt]
  · rfl
  · exact Nat.lt_of_lt_of_le b.toNat_lt (Nat.pow_le_pow_right (by decide) hw)

theorem ofNat_self {w : Nat} (x : BitVec w) : BitVec.ofNat w x.toNat = x := by simp

/-! ### Numbers -/

theorem expect_adv {β} (s : IStream) (n : Nat) (o : Option (β × Bytes))
    (h : ∀ v rest, o = some (v, rest) → rest.length + n ≤ s.left) :
    expect (s.adv n) o = expect s o := by
  cases o with
  | none => rfl
  | some p =>
    obtain ⟨v, rest⟩ := p
    have := h v rest rfl
    simp only [expect, adv_adv, adv_left]
    congr 3; omega

theorem decVarint32Rest_suffix (bs : Bytes) (pos acc n : Nat) (rest : Bytes)
    (h : decVarint32Rest bs pos acc = some (n, rest)) : ∃ pre, pre ≠ [] ∧ bs = pre ++ rest := by
  induction bs generalizing pos acc with
  | nil => simp [decVarint32Rest] at h
  | cons b bs ih =>
    have key : ∀ pos' acc', decVarint32Rest bs pos' acc' = some (n, rest) →
        ∃ pre, pre ≠ [] ∧ b :: bs = pre ++ rest := by
      intro p a h'
      obtain ⟨pre, _, rfl⟩ := ih p a h'
      exact ⟨b :: pre, by simp, rfl⟩
    have done : ∀ m, (some (m, bs) : Option (Nat × Bytes)) = some (n, rest) →
        ∃ pre, pre ≠ [] ∧ b :: bs = pre ++ rest := by
      intro m h'
      simp only [Option.some.injEq, Prod.mk.injEq] at h'
      exact ⟨[b], by simp, by rw [h'.2]; rfl⟩
    rw [decVarint32Rest] at h
    repeat' split at h
    all_goals first
      | (exact key _ _ h)
      | (exact done _ h)
      | (cases h)

theorem decVarint32_suffix (bs : Bytes) (n : Nat) (rest : Bytes) (h : decVarint32 bs = some (n, rest)) :
    ∃ pre, pre ≠ [] ∧ bs = pre ++ rest := by
  cases bs with
  | nil => simp [decVarint32] at h
  | cons b bs =>
    rw [decVarint32] at h
    split at h
    · simp only [Option.some.injEq, Prod.mk.injEq] at h
      exact ⟨[b], by simp, by rw [h.2]; rfl⟩
    · obtain ⟨pre, _, rfl⟩ := decVarint32Rest_suffix _ _ _ _ _ h
      exact ⟨b :: pre, by simp, rfl⟩

theorem decVarint64_suffix (bs : Bytes) (pos acc n : Nat) (rest : Bytes)
    (h : decVarint64 bs pos acc = some (n, rest)) : ∃ pre, pre ≠ [] ∧ bs = pre ++ rest := by
  induction bs generalizing pos acc with
  | nil => simp [decVarint64] at h
  | cons b bs ih =>
    rw [decVarint64] at h
    split at h
    · cases h
    · split at h
      · obtain ⟨pre, _, rfl⟩ := ih _ _ h
        exact ⟨b :: pre, by simp, rfl⟩
      · simp only [Option.some.injEq, Prod.mk.injEq] at h
        exact ⟨[b], by simp, by rw [h.2]; rfl⟩

theorem splitVarint_suffix (bs x rest : Bytes) (h : splitVarint bs = some (x, rest)) :
    x ≠ [] ∧ bs = x ++ rest := by
  induction bs generalizing x with
  | nil => simp [splitVarint] at h
  | cons b bs ih =>
    rw [splitVarint] at h
    split at h
    · split at h
      · next y r hy =>
        simp only [Option.some.injEq, Prod.mk.injEq] at h
        obtain ⟨rfl, rfl⟩ := h
        have := ih y hy
        exact ⟨by simp, by rw [this.2]; rfl⟩
      · cases h
    · simp only [Option.some.injEq, Prod.mk.injEq] at h
      obtain ⟨rfl, rfl⟩ := h
      exact ⟨by simp, rfl⟩

theorem mul_pow_lt (x a pos w : Nat) (hx : x < 2 ^ a) (h : a + pos ≤ w) : x * 2 ^ pos < 2 ^ w := by
  have h1 : x * 2 ^ pos < 2 ^ a * 2 ^ pos := Nat.mul_lt_mul_of_pos_right hx (Nat.two_pow_pos _)
  rw [← Nat.pow_add] at h1
  exact Nat.lt_of_lt_of_le h1 (Nat.pow_le_pow_right (by decide) h)

/-- One round on the value: the arithmetic of `decVarint32Rest`. -/
theorem varint32Step_eq (b : UInt8) (pos : Nat) (r : BitVec 32)
    (hr : r.toNat < 2 ^ min pos 32) (h7 : pos % 7 = 0) (hp : 7 ≤ pos) :
    (64 ≤ pos → varint32Step b pos r = .err) ∧
    (pos < 64 → 32 ≤ pos → varint32Step b pos r =
      if ¬ (b.toNat % 128 = 0 ∨ (r.toNat / 2 ^ 31 ≠ 0 ∧ b.toNat = if pos < 63 then 255 else 1))
        then .err else .ok r) ∧
    (pos = 28 → (varint32Step b pos r =
      if b.toNat / 16 % 8 ≠ 0 ∧ b.toNat / 8 % 16 ≠ 15 then .err
        else .ok (BitVec.ofNat 32 (r.toNat + b.toNat % 16 * 2 ^ pos))) ∧
      r.toNat + b.toNat % 16 * 2 ^ pos < 2 ^ 32) ∧
    (pos < 28 → varint32Step b pos r = .ok (BitVec.ofNat 32 (r.toNat + b.toNat % 128 * 2 ^ pos)) ∧
      r.toNat + b.toNat % 128 * 2 ^ pos < 2 ^ (pos + 7)) := by
  refine ⟨?_, ?_, ?_, ?_⟩
  · intro h
    unfold varint32Step
    rw [if_pos (by omega)]
    simp only
    rw [if_pos (Or.inl h)]
  · intro h h32
    unfold varint32Step
    rw [if_pos h32]
    simp only
    have e : (64 ≤ pos ∨ ¬ ((b &&& 0x7F) = 0 ∨ (r >>> 31 ≠ 0 ∧ b = if pos < 63 then 0xFF else 0x01))) ↔
        ¬ (b.toNat % 128 = 0 ∨ (r.toNat / 2 ^ 31 ≠ 0 ∧ b.toNat = if pos < 63 then 255 else 1)) := by
      rw [and_7F0 b]
      have e1 : (r >>> 31 ≠ 0) ↔ (r.toNat / 2 ^ 31 ≠ 0) := by
        rw [Ne, Ne, ← BitVec.toNat_inj, BitVec.toNat_ushiftRight, Nat.shiftRight_eq_div_pow]; rfl
      have e2 : (b = if pos < 63 then 0xFF else 0x01) ↔ (b.toNat = if pos < 63 then 255 else 1) := by
        rw [← UInt8.toNat_inj]
        split <;> rfl
      rw [e1, e2]
      constructor
      · intro hh
        rcases hh with hh | hh
        · omega
        · exact hh
      · intro hh; exact Or.inr hh
    by_cases hc : (64 ≤ pos ∨ ¬ ((b &&& 0x7F) = 0 ∨ (r >>> 31 ≠ 0 ∧ b = if pos < 63 then 0xFF else 0x01)))
    · rw [if_pos hc, if_pos (e.1 hc)]
    · rw [if_neg hc, if_neg (fun x => hc (e.2 x))]
  · rintro rfl
    have hx : (r.toNat) < 2 ^ 28 := hr
    have hlt : b.toNat % 16 * 2 ^ 28 < 2 ^ 32 := mul_pow_lt _ 4 28 32 (by omega) (by decide)
    refine ⟨?_, by omega⟩
    unfold varint32Step
    rw [if_neg (by decide), if_pos rfl]
    simp only [and_70, and_78]
    split
    · rfl
    · unfold shl32
      rw [if_pos (by decide)]
      simp only [bind_ok]
      congr 1
      apply BitVec.eq_of_toNat_eq
      have e : ((b &&& 0x0F).toBitVec.setWidth 32).toNat = b.toNat % 16 := by
        rw [setWidth_byte 32 (by decide), and_0F]
      rw [or_shift _ _ _ hx (by rw [e]; exact hlt), e, BitVec.toNat_ofNat]
      exact (Nat.mod_eq_of_lt (by omega)).symm
  · intro h
    have hx : r.toNat < 2 ^ pos := by rw [Nat.min_eq_left (by omega)] at hr; exact hr
    have h21 : pos ≤ 21 := by omega
    have hlt : b.toNat % 128 * 2 ^ pos < 2 ^ 32 := mul_pow_lt _ 7 pos 32 (by omega) (by omega)
    have hsum : r.toNat + b.toNat % 128 * 2 ^ pos < 2 ^ (pos + 7) := by
      have h1 : b.toNat % 128 * 2 ^ pos ≤ 127 * 2 ^ pos := Nat.mul_le_mul_right _ (by omega)
      rw [Nat.pow_add]; omega
    have h32 : 2 ^ (pos + 7) ≤ 2 ^ 32 := Nat.pow_le_pow_right (by decide) (by omega)
    refine ⟨?_, hsum⟩
    unfold varint32Step
    rw [if_neg (by omega), if_neg (by omega)]
    unfold shl32
    rw [if_pos (by omega)]
    simp only [bind_ok]
    congr 1
    apply BitVec.eq_of_toNat_eq
    have e : ((b &&& 0x7F).toBitVec.setWidth 32).toNat = b.toNat % 128 := by
      rw [setWidth_byte 32 (by decide), and_7F]
    rw [or_shift _ _ _ hx (by rw [e]; exact hlt), e, BitVec.toNat_ofNat]
    exact (Nat.mod_eq_of_lt (Nat.lt_of_lt_of_le hsum h32)).symm

theorem window_cons {s : IStream} {b : UInt8} {rest : Bytes} (h : s.Wf) (hw : s.window = b :: rest) :
    readByte s = .ok (b, s.adv 1) ∧ (s.adv 1).Wf ∧ (s.adv 1).window = rest ∧ 0 < s.left ∧ rest.length + 1 = s.left := by
  have hl := window_length h
  rw [hw, List.length_cons] at hl
  refine ⟨?_, adv_wf h (by omega), ?_, by omega, hl⟩
  · rw [readByte_eq h, hw]
  · rw [window_adv, hw]; rfl

theorem varint32Loop_eq (f : Nat) (s : IStream) (pos : Nat) (r : BitVec 32) (h : s.Wf)
    (hr : r.toNat < 2 ^ min pos 32) (h7 : pos % 7 = 0) (hp : 7 ≤ pos) (hp70 : pos ≤ 70)
    (hf : 77 ≤ pos + 7 * f) :
    varint32Loop f s pos r =
      expect s ((decVarint32Rest s.window pos r.toNat).map (fun p => (BitVec.ofNat 32 p.1, p.2))) ∧
    (∀ n rest, decVarint32Rest s.window pos r.toNat = some (n, rest) → n < 2 ^ 32) := by
  induction f generalizing s pos r with
  | zero => omega
  | succ f ih =>
    rw [varint32Loop]
    cases hw : s.window with
    | nil =>
      rw [readByte_eq h, hw]
      simp [decVarint32Rest, expect]
    | cons b rest =>
      obtain ⟨e1, hwf, hw1, hpos, hlen⟩ := window_cons h hw
      rw [e1, bind_ok]
      simp only
      obtain ⟨s1, s2, s3, s4⟩ := varint32Step_eq b pos r hr h7 hp
      rw [decVarint32Rest]
      -- what happens after the value was updated to `v`
      have cont : ∀ v : Nat, v < 2 ^ min (pos + 7) 32 → pos ≤ 63 →
          ((if (b &&& 0x80) ≠ 0 then varint32Loop f (s.adv 1) ((pos + 7) % 256) (BitVec.ofNat 32 v)
              else .ok (BitVec.ofNat 32 v, s.adv 1)) =
            expect s ((if 128 ≤ b.toNat then decVarint32Rest rest (pos + 7) v else some (v, rest)).map
              (fun p => (BitVec.ofNat 32 p.1, p.2)))) ∧
          (∀ n rest', (if 128 ≤ b.toNat then decVarint32Rest rest (pos + 7) v else some (v, rest)) =
            some (n, rest') → n < 2 ^ 32) := by
        intro v hv h63
        have hv32 : v < 2 ^ 32 :=
          Nat.lt_of_lt_of_le hv (Nat.pow_le_pow_right (by decide) (Nat.min_le_right _ _))
        have ev : (BitVec.ofNat 32 v).toNat = v := by rw [BitVec.toNat_ofNat, Nat.mod_eq_of_lt hv32]
        by_cases hb : 128 ≤ b.toNat
        · rw [if_pos ((and_80 b).2 hb), if_pos hb, Nat.mod_eq_of_lt (show pos + 7 < 256 by omega)]
          have := ih (s.adv 1) (pos + 7) (BitVec.ofNat 32 v) hwf (by rw [ev]; exact hv) (by omega) (by omega)
            (by omega) (by omega)
          rw [ev, hw1] at this
          refine ⟨?_, this.2⟩
          rw [this.1]
          apply expect_adv
          intro w r' hwr
          simp only [Option.map_eq_some_iff, Prod.mk.injEq] at hwr
          obtain ⟨⟨n, r''⟩, hd, -, rfl⟩ := hwr
          obtain ⟨pre, _, hpre⟩ := decVarint32Rest_suffix _ _ _ _ _ hd
          have := congrArg List.length hpre
          simp only [List.length_append] at this ⊢
          omega
        · rw [if_neg (fun x => hb ((and_80 b).1 x)), if_neg hb]
          refine ⟨?_, ?_⟩
          · simp only [Option.map_some, expect]
            congr 3; omega
          · intro n rest' hn
            simp only [Option.some.injEq, Prod.mk.injEq] at hn
            omega
      by_cases h32 : 32 ≤ pos
      · rw [if_pos h32]
        by_cases h64 : 64 ≤ pos
        · rw [s1 h64, if_pos (Or.inl h64)]
          simp [expect]
        · rw [s2 (by omega) h32]
          by_cases hc : ¬ (b.toNat % 128 = 0 ∨ (r.toNat / 2 ^ 31 ≠ 0 ∧ b.toNat = if pos < 63 then 255 else 1))
          · rw [if_pos hc, if_pos (Or.inr hc)]
            simp [expect]
          · rw [if_neg hc, if_neg (by intro x; rcases x with x | x; exact h64 x; exact hc x), bind_ok]
            have e : BitVec.ofNat 32 r.toNat = r := by simp
            have hm : min (pos + 7) 32 = min pos 32 := by omega
            have := cont r.toNat (by rw [hm]; exact hr) (by omega)
            rw [e] at this
            exact this
      · rw [if_neg h32]
        by_cases h28 : pos = 28
        · rw [if_pos h28]
          obtain ⟨e3, l3⟩ := s3 h28
          rw [e3]
          by_cases hc : b.toNat / 16 % 8 ≠ 0 ∧ b.toNat / 8 % 16 ≠ 15
          · rw [if_pos hc, if_pos hc]; simp [expect]
          · rw [if_neg hc, if_neg hc, bind_ok]
            exact cont _ (by rw [Nat.min_eq_right (by omega)]; exact l3) (by omega)
        · rw [if_neg h28]
          obtain ⟨e4, l4⟩ := s4 (by omega)
          rw [e4, bind_ok]
          exact cont _ (by rw [Nat.min_eq_left (by omega)]; exact l4) (by omega)

/-- `pb_decode_varint32` reads what the format says. -/
theorem varint32_eq {s : IStream} (h : s.Wf) :
    varint32 s = expect s ((decVarint32 s.window).map (fun p => (BitVec.ofNat 32 p.1, p.2))) ∧
    (∀ n rest, decVarint32 s.window = some (n, rest) → n < 2 ^ 32) := by
  unfold varint32
  cases hw : s.window with
  | nil => rw [readByte_eq h, hw]; simp [decVarint32, expect]
  | cons b rest =>
    obtain ⟨e1, hwf, hw1, hpos, hlen⟩ := window_cons h hw
    rw [e1, bind_ok]
    simp only
    rw [decVarint32]
    by_cases hb : b.toNat < 128
    · rw [if_pos ((and_80' b).2 hb), if_pos hb]
      refine ⟨?_, ?_⟩
      · simp only [Option.map_some, expect]
        congr 3
        · apply BitVec.eq_of_toNat_eq
          rw [setWidth_byte 32 (by decide), BitVec.toNat_ofNat]
          exact (Nat.mod_eq_of_lt (by omega)).symm
        · omega
      · intro n r hn
        simp only [Option.some.injEq, Prod.mk.injEq] at hn
        omega
    · rw [if_neg (fun x => hb ((and_80' b).1 x)), if_neg hb]
      have ev : ((b &&& 0x7F).toBitVec.setWidth 32).toNat = b.toNat % 128 := by
        rw [setWidth_byte 32 (by decide), and_7F]
      have := varint32Loop_eq 10 (s.adv 1) 7 ((b &&& 0x7F).toBitVec.setWidth 32) hwf
        (by rw [ev]; have := Nat.mod_lt b.toNat (show 0 < 128 by decide); exact this) (by decide) (by decide)
        (by decide) (by decide)
      rw [ev, hw1] at this
      refine ⟨?_, this.2⟩
      rw [this.1]
      apply expect_adv
      intro w r' hwr
      simp only [Option.map_eq_some_iff, Prod.mk.injEq] at hwr
      obtain ⟨⟨n, r''⟩, hd, -, rfl⟩ := hwr
      obtain ⟨pre, _, hpre⟩ := decVarint32Rest_suffix _ _ _ _ _ hd
      have := congrArg List.length hpre
      simp only [List.length_append] at this ⊢
      omega

theorem varint64Loop_eq (f : Nat) (s : IStream) (pos : Nat) (r : BitVec 64) (h : s.Wf)
    (hr : r.toNat < 2 ^ pos) (h7 : pos % 7 = 0) (hp : pos ≤ 63) (hf : 70 ≤ pos + 7 * f) :
    varint64Loop f s pos r =
      expect s ((decVarint64 s.window pos r.toNat).map (fun p => (BitVec.ofNat 64 p.1, p.2))) ∧
    (∀ n rest, decVarint64 s.window pos r.toNat = some (n, rest) → n < 2 ^ 64) := by
  induction f generalizing s pos r with
  | zero => omega
  | succ f ih =>
    rw [varint64Loop]
    cases hw : s.window with
    | nil => rw [readByte_eq h, hw]; simp [decVarint64, expect]
    | cons b rest =>
      obtain ⟨e1, hwf, hw1, hpos, hlen⟩ := window_cons h hw
      rw [e1, bind_ok]
      simp only
      rw [decVarint64]
      by_cases hc : 63 ≤ pos ∧ 2 ≤ b.toNat
      · rw [if_pos hc, if_pos ⟨hc.1, (and_FE b).2 hc.2⟩]; simp [expect]
      · rw [if_neg hc, if_neg (fun x => hc ⟨x.1, (and_FE b).1 x.2⟩)]
        unfold shl64
        rw [if_pos (by omega), bind_ok]
        have ev : ((b &&& 0x7F).toBitVec.setWidth 64).toNat = b.toNat % 128 := by
          rw [setWidth_byte 64 (by decide), and_7F]
        have hsmall : b.toNat % 128 * 2 ^ pos < 2 ^ 64 := by
          by_cases h63 : pos = 63
          · subst h63
            have : b.toNat < 2 := by omega
            have : b.toNat % 128 < 2 := by omega
            omega
          · exact mul_pow_lt _ 7 pos 64 (by omega) (by omega)
        have hor : (r ||| (b &&& 0x7F).toBitVec.setWidth 64 <<< pos).toNat = r.toNat + b.toNat % 128 * 2 ^ pos := by
          rw [or_shift _ _ _ hr (by rw [ev]; exact hsmall), ev]
        have h64 : r.toNat + b.toNat % 128 * 2 ^ pos < 2 ^ 64 := by
          rw [← hor]; exact BitVec.isLt _
        by_cases hb : 128 ≤ b.toNat
        · have h63 : pos ≠ 63 := by rintro rfl; omega
          rw [if_pos ((and_80 b).2 hb), if_pos hb, Nat.mod_eq_of_lt (show pos + 7 < 256 by omega)]
          have hsum : r.toNat + b.toNat % 128 * 2 ^ pos < 2 ^ (pos + 7) := by
            have h1 : b.toNat % 128 * 2 ^ pos ≤ 127 * 2 ^ pos := Nat.mul_le_mul_right _ (by omega)
            rw [Nat.pow_add]; omega
          have := ih (s.adv 1) (pos + 7) (r ||| (b &&& 0x7F).toBitVec.setWidth 64 <<< pos) hwf
            (by rw [hor]; exact hsum) (by omega) (by omega) (by omega)
          rw [hor, hw1] at this
          refine ⟨?_, this.2⟩
          rw [this.1]
          apply expect_adv
          intro w r' hwr
          simp only [Option.map_eq_some_iff, Prod.mk.injEq] at hwr
          obtain ⟨⟨n, r''⟩, hd, -, rfl⟩ := hwr
          obtain ⟨pre, _, hpre⟩ := decVarint64_suffix _ _ _ _ _ hd
          have := congrArg List.length hpre
          simp only [List.length_append] at this ⊢
          omega
        · rw [if_neg (fun x => hb ((and_80 b).1 x)), if_neg hb]
          refine ⟨?_, ?_⟩
          · simp only [Option.map_some, expect]
            congr 3
            · rw [← hor]; exact (ofNat_self _).symm
            · omega
          · intro n rest' hn
            simp only [Option.some.injEq, Prod.mk.injEq] at hn
            omega

/-- `pb_decode_varint` reads what the format says. -/
theorem varint64_eq {s : IStream} (h : s.Wf) :
    varint64 s = expect s ((decVarint64 s.window 0 0).map (fun p => (BitVec.ofNat 64 p.1, p.2))) ∧
    (∀ n rest, decVarint64 s.window 0 0 = some (n, rest) → n < 2 ^ 64) :=
  varint64Loop_eq 10 s 0 0 h (by decide) (by decide) (by decide) (by decide)

/-! ### Skipping and copying -/

theorem expect_len {β} {s : IStream} (o : Option (β × Bytes)) (v : β) (s' : IStream) (h : expect s o = .ok (v, s')) :
    ∃ rest, o = some (v, rest) ∧ s' = s.adv (s.left - rest.length) := by
  cases o with
  | none => cases h
  | some p =>
    obtain ⟨w, rest⟩ := p
    simp only [expect, Res.ok.injEq, Prod.mk.injEq] at h
    exact ⟨rest, by rw [h.1], h.2.symm⟩

/-- The stream after the bytes before `rest`. -/
theorem adv_to {s : IStream} (h : s.Wf) {pre rest : Bytes} (hw : s.window = pre ++ rest) :
    (s.adv (s.left - rest.length)).Wf ∧ (s.adv (s.left - rest.length)).window = rest ∧
      (s.adv (s.left - rest.length)).left = rest.length ∧ pre.length + rest.length = s.left := by
  have hl := window_length h
  rw [hw, List.length_append] at hl
  refine ⟨adv_wf h (by omega), ?_, by simp only [adv_left]; omega, hl⟩
  rw [window_adv, hw, show s.left - rest.length = pre.length by omega, List.drop_left]

theorem read1 {s : IStream} (h : s.Wf) :
    pbRead s 1 = match s.window with | [] => .err | b :: _ => .ok ([b], s.adv 1) := by
  have hl := window_length h
  rw [pbRead_eq h, takeN]
  cases hw : s.window with
  | nil => rfl
  | cons b rest =>
    rw [hw] at hl
    simp only [List.length_cons] at hl
    rw [if_neg (by simp)]
    simp only [expect, List.take_succ_cons, List.take_zero, List.drop_succ_cons, List.drop_zero]
    congr 3; omega

theorem skipVarintLoop_eq (f : Nat) (s : IStream) (h : s.Wf) (hf : s.left < f) :
    skipVarintLoop f s =
      match splitVarint s.window with
      | none => .err
      | some (_, rest) => .ok (s.adv (s.left - rest.length)) := by
  induction f generalizing s with
  | zero => omega
  | succ f ih =>
    rw [skipVarintLoop, read1 h]
    cases hw : s.window with
    | nil => rfl
    | cons b rest =>
      obtain ⟨_, hwf, hw1, hpos, hlen⟩ := window_cons h hw
      change (if (b &&& 0x80) ≠ 0 then skipVarintLoop f (s.adv 1) else .ok (s.adv 1)) = _
      rw [splitVarint]
      by_cases hb : 128 ≤ b.toNat
      · rw [if_pos ((and_80 b).2 hb), if_pos hb, ih _ hwf (by simp only [adv_left]; omega), hw1]
        cases hsp : splitVarint rest with
        | none => rfl
        | some p =>
          obtain ⟨x, r⟩ := p
          have := (splitVarint_suffix _ _ _ hsp).2
          have := congrArg List.length this
          simp only [List.length_append] at this
          simp only [adv_adv, adv_left]
          congr 2; omega
      · rw [if_neg (fun x => hb ((and_80 b).1 x)), if_neg hb]
        simp only
        congr 2; omega

theorem rawVarintLoop_eq (f : Nat) (s : IStream) (acc : Bytes) (h : s.Wf) (hf : 10 < acc.length + f)
    (ha : acc.length ≤ 10) :
    rawVarintLoop f s acc =
      match splitVarint s.window with
      | none => .err
      | some (x, rest) =>
        if acc.length + x.length ≤ 10 then .ok (acc ++ x, s.adv (s.left - rest.length)) else .err := by
  induction f generalizing s acc with
  | zero => omega
  | succ f ih =>
    rw [rawVarintLoop]
    by_cases hfull : acc.length + 1 > scratchSize
    · rw [if_pos hfull]
      cases hsp : splitVarint s.window with
      | none => rfl
      | some p =>
        obtain ⟨x, rest⟩ := p
        have := List.length_pos_iff.2 (splitVarint_suffix _ _ _ hsp).1
        unfold scratchSize at hfull
        simp only
        rw [if_neg (by omega)]
    · rw [if_neg hfull, read1 h]
      unfold scratchSize at hfull
      cases hw : s.window with
      | nil => rfl
      | cons b rest =>
        obtain ⟨_, hwf, hw1, hpos, hlen⟩ := window_cons h hw
        change (if scratchSize ≤ acc.length then Res.ub
          else if (b &&& 0x80) ≠ 0 then rawVarintLoop f (s.adv 1) (acc ++ [b]) else .ok (acc ++ [b], s.adv 1)) = _
        rw [if_neg (by unfold scratchSize; omega), splitVarint]
        by_cases hb : 128 ≤ b.toNat
        · rw [if_pos ((and_80 b).2 hb), if_pos hb,
            ih _ _ hwf (by simp only [List.length_append, List.length_cons, List.length_nil]; omega)
              (by simp only [List.length_append, List.length_cons, List.length_nil]; omega), hw1]
          cases hsp : splitVarint rest with
          | none => rfl
          | some p =>
            obtain ⟨x, r⟩ := p
            have := (splitVarint_suffix _ _ _ hsp).2
            have := congrArg List.length this
            simp only [List.length_append] at this
            simp only [List.length_append, List.length_cons, List.length_nil, adv_adv, adv_left]
            have e : acc.length + (0 + 1) + x.length ≤ 10 ↔ acc.length + (x.length + 1) ≤ 10 := by omega
            by_cases hc : acc.length + (0 + 1) + x.length ≤ 10
            · rw [if_pos hc, if_pos (e.1 hc)]
              congr 2
              · simp
              · congr 1; omega
            · rw [if_neg hc, if_neg (fun q => hc (e.2 q))]
        · rw [if_neg (fun x => hb ((and_80 b).1 x)), if_neg hb]
          simp only [List.length_cons, List.length_nil]
          rw [if_pos (by omega)]
          congr 3; omega

theorem skipVarint_eq {s : IStream} (h : s.Wf) :
    skipVarint s =
      match splitVarint s.window with
      | none => .err
      | some (_, rest) => .ok (s.adv (s.left - rest.length)) :=
  skipVarintLoop_eq _ s h (by omega)

/-- `pb_make_string_substream` and the length prefix of the format: the sub-stream's window are
the bytes of the value. -/
theorem makeSubstream_eq {s : IStream} (h : s.Wf) :
    match readRaw 2 s.window with
    | none => makeSubstream s = .err
    | some (r, rest) => ∃ b sub, r = .len b ∧ sub.Wf ∧ sub.window = b ∧ sub.left = b.length ∧ sub.buf = s.buf ∧
        sub.pos + sub.left = (s.adv (s.left - rest.length)).pos ∧
        makeSubstream s = .ok ({ s.adv (s.left - rest.length) with pos := sub.pos }, sub) := by
  obtain ⟨e, hlt⟩ := varint32_eq h
  unfold makeSubstream
  rw [e, readRaw]
  cases hd : decVarint32 s.window with
  | none => rfl
  | some p =>
    obtain ⟨n, rest⟩ := p
    have hn := hlt n rest hd
    obtain ⟨pre, _, hw⟩ := decVarint32_suffix _ _ _ hd
    obtain ⟨hwf, hwin, hleft, hlen⟩ := adv_to h hw
    have en : (BitVec.ofNat 32 n).toNat = n := by rw [BitVec.toNat_ofNat, Nat.mod_eq_of_lt hn]
    simp only [Option.map_some, expect, bind_ok, en, hleft, takeN]
    by_cases hc : rest.length < n
    · rw [if_pos hc, if_pos hc]; simp
    · rw [if_neg hc, if_neg hc]
      simp only [Option.map_some]
      refine ⟨rest.take n, { s.adv (s.left - rest.length) with left := n }, rfl, ?_, ?_, ?_, rfl, ?_, ?_⟩
      · unfold IStream.Wf at hwf ⊢
        simp only [hleft] at hwf
        simp only; omega
      · have e2 : ((s.adv (s.left - rest.length)).window).take n = rest.take n := by rw [hwin]
        simp only [IStream.window, hleft, List.take_take] at e2
        rw [Nat.min_eq_left (by omega)] at e2
        exact e2
      · rw [List.length_take, Nat.min_eq_left (by omega)]
      · simp only [IStream.adv, List.length_drop]; omega
      · simp only [IStream.adv, List.length_drop]
        congr 3; omega

/-- `pb_skip_field` skips what the format says. -/
theorem skipField_eq {s : IStream} (h : s.Wf) (w : Nat) :
    skipField w s =
      match readRaw w s.window with
      | none => .err
      | some (_, rest) => .ok (s.adv (s.left - rest.length)) := by
  have hl := window_length h
  have fixed : ∀ n, pbSkip s n =
      match takeN n s.window with
      | none => .err
      | some (_, rest) => .ok (s.adv (s.left - rest.length)) := by
    intro n
    rw [pbSkip_eq h, takeN, hl]
    by_cases hc : s.left < n
    · rw [if_pos hc, if_pos hc]
    · rw [if_neg hc, if_neg hc]
      simp only [List.length_drop, hl]
      congr 2; omega
  unfold skipField
  split
  · rw [skipVarint_eq h, readRaw]
    cases splitVarint s.window <;> rfl
  · rw [fixed, readRaw]; cases takeN 8 s.window <;> rfl
  · unfold skipString
    obtain ⟨e, hlt⟩ := varint32_eq h
    rw [e, readRaw]
    cases hd : decVarint32 s.window with
    | none => rfl
    | some p =>
      obtain ⟨n, rest⟩ := p
      have hn := hlt n rest hd
      obtain ⟨pre, _, hw⟩ := decVarint32_suffix _ _ _ hd
      obtain ⟨hwf, hwin, hleft, hlen⟩ := adv_to h hw
      have en : (BitVec.ofNat 32 n).toNat = n := by rw [BitVec.toNat_ofNat, Nat.mod_eq_of_lt hn]
      simp only [Option.map_some, expect, bind_ok, en]
      rw [pbSkip_eq hwf, hleft, takeN]
      by_cases hc : rest.length < n
      · rw [if_pos hc, if_pos hc]; rfl
      · rw [if_neg hc, if_neg hc]
        simp only [Option.map_some, adv_adv, List.length_drop]
        congr 2; omega
  · rw [fixed, readRaw]; cases takeN 4 s.window <;> rfl
  · next h0 h1 h2 h5 =>
    have : readRaw w s.window = none := by
      unfold readRaw
      split <;> first | (exfalso; first | exact h0 rfl | exact h1 rfl | exact h2 rfl | exact h5 rfl) | rfl
    rw [this]

/-- A value of any wire type is a prefix of the bytes. -/
theorem readRaw_suffix (w : Nat) (bs : Bytes) (r : Raw) (rest : Bytes) (h : readRaw w bs = some (r, rest)) :
    ∃ pre, bs = pre ++ rest := by
  have ht : ∀ n (bs x rest : Bytes), takeN n bs = some (x, rest) → bs = x ++ rest := by
    intro n bs x rest h
    unfold takeN at h
    split at h
    · cases h
    · simp only [Option.some.injEq, Prod.mk.injEq] at h
      rw [← h.1, ← h.2, List.take_append_drop]
  unfold readRaw at h
  split at h
  · simp only [Option.map_eq_some_iff, Prod.mk.injEq] at h
    obtain ⟨⟨x, r'⟩, hx, -, rfl⟩ := h
    exact ⟨x, (splitVarint_suffix _ _ _ hx).2⟩
  · simp only [Option.map_eq_some_iff, Prod.mk.injEq] at h
    obtain ⟨⟨x, r'⟩, hx, -, rfl⟩ := h
    exact ⟨x, ht _ _ _ _ hx⟩
  · split at h
    · cases h
    · next n r0 hd =>
      simp only [Option.map_eq_some_iff, Prod.mk.injEq] at h
      obtain ⟨⟨x, r'⟩, hx, -, rfl⟩ := h
      obtain ⟨pre, _, hp⟩ := decVarint32_suffix _ _ _ hd
      exact ⟨pre ++ x, by rw [hp, ht _ _ _ _ hx, List.append_assoc]⟩
  · simp only [Option.map_eq_some_iff, Prod.mk.injEq] at h
    obtain ⟨⟨x, r'⟩, hx, -, rfl⟩ := h
    exact ⟨x, ht _ _ _ _ hx⟩
  · cases h

/-- `read_raw_value` copies the bytes of the value. -/
theorem readRawValue_eq {s : IStream} (h : s.Wf) (w : Nat) (hw : w ≠ 2) :
    readRawValue w s =
      match readRaw w s.window with
      | none => .err
      | some (r, rest) =>
        match callbackBytes r with
        | none => .err
        | some b => .ok (b, s.adv (s.left - rest.length)) := by
  have fixed : ∀ n, n ≤ 10 → rawFixed s n =
      match takeN n s.window with
      | none => .err
      | some (b, rest) => .ok (b, s.adv (s.left - rest.length)) := by
    intro n hn
    unfold rawFixed
    rw [pbRead_eq h]
    cases takeN n s.window with
    | none => rfl
    | some p => simp only [expect, bind_ok]; rw [if_neg (by unfold scratchSize; omega)]
  unfold readRawValue
  split
  · rw [rawVarintLoop_eq _ s [] h (by decide) (by decide), readRaw]
    cases splitVarint s.window with
    | none => rfl
    | some p =>
      simp only [Option.map_some, callbackBytes, List.length_nil, Nat.zero_add, List.nil_append]
      by_cases hc : p.1.length ≤ 10
      · rw [if_pos hc, if_pos hc]
      · rw [if_neg hc, if_neg hc]
  · rw [fixed 8 (by decide), readRaw]; cases takeN 8 s.window <;> rfl
  · rw [fixed 4 (by decide), readRaw]; cases takeN 4 s.window <;> rfl
  · next h0 h1 h5 =>
    have : readRaw w s.window = none := by
      unfold readRaw
      split <;> first | (exfalso; first | exact h0 rfl | exact h1 rfl | exact hw rfl | exact h5 rfl) | rfl
    rw [this]

end Ecal.Pb
