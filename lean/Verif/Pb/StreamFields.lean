import Verif.Pb.StreamLemmas

/-!
# The decoder computes what the message format says: fields and messages
-/

namespace Ecal.Pb

open Ecal.Wire

/-! ### Numbers cut out of a message -/

theorem dec64_split (bs : Bytes) (pos acc : Nat) :
    decVarint64 bs pos acc =
      match splitVarint bs with
      | none => none
      | some (x, rest) => (decVarint64 x pos acc).map (fun p => (p.1, rest)) := by
  induction bs generalizing pos acc with
  | nil => rfl
  | cons b bs ih =>
    rw [decVarint64, splitVarint]
    by_cases hc : 63 ≤ pos ∧ 2 ≤ b.toNat
    · rw [if_pos hc]
      by_cases hb : 128 ≤ b.toNat
      · rw [if_pos hb]
        cases splitVarint bs with
        | none => rfl
        | some p => simp only; rw [decVarint64, if_pos hc]; rfl
      · rw [if_neg hb]; simp only; rw [decVarint64, if_pos hc]; rfl
    · rw [if_neg hc]
      by_cases hb : 128 ≤ b.toNat
      · rw [if_pos hb, if_pos hb, ih]
        cases splitVarint bs with
        | none => rfl
        | some p => simp only; rw [decVarint64, if_neg hc, if_pos hb]
      · rw [if_neg hb, if_neg hb]; simp only; rw [decVarint64, if_neg hc, if_neg hb]; rfl

theorem dec32Rest_split (bs : Bytes) (pos acc : Nat) :
    decVarint32Rest bs pos acc =
      match splitVarint bs with
      | none => none
      | some (x, rest) => (decVarint32Rest x pos acc).map (fun p => (p.1, rest)) := by
  induction bs generalizing pos acc with
  | nil => rfl
  | cons b bs ih =>
    rw [splitVarint]
    by_cases hb : 128 ≤ b.toNat
    · rw [if_pos hb, decVarint32Rest]
      simp only [if_pos hb]
      have e : ∀ x : Bytes, decVarint32Rest (b :: x) pos acc =
          (if 32 ≤ pos then
            if 64 ≤ pos ∨ ¬ (b.toNat % 128 = 0 ∨ (acc / 2 ^ 31 ≠ 0 ∧ b.toNat = if pos < 63 then 255 else 1)) then none
            else decVarint32Rest x (pos + 7) acc
          else if pos = 28 then
            if b.toNat / 16 % 8 ≠ 0 ∧ b.toNat / 8 % 16 ≠ 15 then none
            else decVarint32Rest x (pos + 7) (acc + b.toNat % 16 * 2 ^ pos)
          else decVarint32Rest x (pos + 7) (acc + b.toNat % 128 * 2 ^ pos)) := by
        intro x; rw [decVarint32Rest]; simp only [if_pos hb]
      rw [ih, ih, ih]
      cases splitVarint bs with
      | none => simp only; repeat' split
                all_goals rfl
      | some p =>
        simp only [e]
        repeat' split
        all_goals rfl
    · rw [if_neg hb, decVarint32Rest]
      simp only
      rw [decVarint32Rest]
      simp only [if_neg hb]
      repeat' split
      all_goals rfl

theorem dec32_split (bs : Bytes) :
    decVarint32 bs =
      match splitVarint bs with
      | none => none
      | some (x, rest) => (decVarint32 x).map (fun p => (p.1, rest)) := by
  cases bs with
  | nil => rfl
  | cons b bs =>
    rw [decVarint32, splitVarint]
    by_cases hb : b.toNat < 128
    · rw [if_pos hb, if_neg (by omega)]; simp only; rw [decVarint32, if_pos hb]; rfl
    · rw [if_neg hb, if_pos (by omega), dec32Rest_split]
      cases splitVarint bs with
      | none => rfl
      | some p => simp only; rw [decVarint32, if_neg hb]

theorem readRaw_kind (w : Nat) (bs : Bytes) (r : Raw) (rest : Bytes) (h : readRaw w bs = some (r, rest)) :
    r.wireType = w := by
  unfold readRaw at h
  split at h
  · simp only [Option.map_eq_some_iff, Prod.mk.injEq] at h
    obtain ⟨_, _, rfl, _⟩ := h; rfl
  · simp only [Option.map_eq_some_iff, Prod.mk.injEq] at h
    obtain ⟨_, _, rfl, _⟩ := h; rfl
  · split at h
    · cases h
    · simp only [Option.map_eq_some_iff, Prod.mk.injEq] at h
      obtain ⟨_, _, rfl, _⟩ := h; rfl
  · simp only [Option.map_eq_some_iff, Prod.mk.injEq] at h
    obtain ⟨_, _, rfl, _⟩ := h; rfl
  · cases h

/-! ### One field -/

/-- What the format says about a value of wire type `w` in the window, for the decoder `dec`. -/
def outcome {α} (dec : α → Raw → Option α) (w : Nat) (s : IStream) (st : α) : Res (α × IStream) :=
  match readRaw w s.window with
  | none => .err
  | some (r, rest) =>
    match dec st r with
    | none => .err
    | some st' => .ok (st', s.adv (s.left - rest.length))

/-- A row of the nanopb table does what the row of the format table says. -/
def Refines {α} (pf : PbField α) (f : Field α) : Prop :=
  pf.tag = f.tag ∧ ∀ w s st, s.Wf → decodeField pf.kind w s st = outcome f.dec w s st

/-- Static numbers: another wire type is an error. -/
theorem outcome_other {α} (dec : α → Raw → Option α) (k w : Nat) (s : IStream) (st : α) (hw : w ≠ k)
    (hd : ∀ st r, r.wireType ≠ k → dec st r = none) : outcome dec w s st = .err := by
  unfold outcome
  cases hr : readRaw w s.window with
  | none => rfl
  | some p =>
    obtain ⟨r, rest⟩ := p
    have := readRaw_kind _ _ _ _ hr
    simp only
    rw [hd st r (by rw [this]; exact hw)]

theorem asVarint_other (r : Raw) (h : r.wireType ≠ 0) : asVarint r = none := by
  cases r <;> first | rfl | exact absurd rfl h

/-- A 64-bit number read from the stream, handed to `g`. -/
theorem varint64_outcome {α} (s : IStream) (h : s.Wf) (st : α) (g : BitVec 64 → Option α)
    (dec : α → Raw → Option α) (hd : ∀ r, dec st r = (asVarint r).bind (fun v => g (BitVec.ofNat 64 v))) :
    ((varint64 s).bind (fun p => match g p.1 with | none => .err | some st' => .ok (st', p.2))) =
      outcome dec 0 s st := by
  rw [(varint64_eq h).1, dec64_split, outcome, readRaw]
  cases splitVarint s.window with
  | none => rfl
  | some p =>
    obtain ⟨x, rest⟩ := p
    simp only [Option.map_some, hd, asVarint]
    cases decVarint64 x 0 0 with
    | none => rfl
    | some q =>
      simp only [Option.map_some, Option.bind_some, expect, bind_ok]

theorem refines_int64 {α} (tag : Nat) (set : α → BitVec 64 → α) (f : Field α) (ht : f.tag = tag)
    (hd : ∀ st r, f.dec st r = (asVarint r).map (fun v => set st (BitVec.ofNat 64 v))) :
    Refines { tag := tag, kind := .int64 set } f := by
  refine ⟨ht.symm, fun w s st h => ?_⟩
  simp only [decodeField]
  by_cases hw : w = 0
  · subst hw
    rw [if_neg (by simp)]
    rw [← varint64_outcome s h st (fun v => some (set st v)) f.dec]
    intro r; rw [hd]; cases asVarint r <;> rfl
  · rw [if_pos hw, outcome_other _ 0 w s st hw]
    intro st r hr
    rw [hd, asVarint_other r hr]; rfl

theorem setWidth_ofNat (v : Nat) : (BitVec.ofNat 64 v).setWidth 32 = BitVec.ofNat 32 v := by
  apply BitVec.eq_of_toNat_eq
  rw [BitVec.toNat_setWidth, BitVec.toNat_ofNat, BitVec.toNat_ofNat]
  omega

theorem refines_int32 {α} (tag : Nat) (set : α → BitVec 32 → α) (f : Field α) (ht : f.tag = tag)
    (hd : ∀ st r, f.dec st r = (asVarint r).map (fun v => set st (BitVec.ofNat 32 v))) :
    Refines { tag := tag, kind := .int32 set } f := by
  refine ⟨ht.symm, fun w s st h => ?_⟩
  simp only [decodeField]
  by_cases hw : w = 0
  · subst hw
    rw [if_neg (by simp)]
    rw [← varint64_outcome s h st (fun v => some (set st (v.setWidth 32))) f.dec]
    intro r; rw [hd]; cases asVarint r with
    | none => rfl
    | some v => simp only [Option.map_some, Option.bind_some, setWidth_ofNat]
  · rw [if_pos hw, outcome_other _ 0 w s st hw]
    intro st r hr
    rw [hd, asVarint_other r hr]; rfl

/-- A number read from the stream fits into 64 bits. -/
theorem asVarint_lt (x : Bytes) (n : Nat) (h : asVarint (.varint x) = some n) : n < 2 ^ 64 := by
  simp only [asVarint, Option.map_eq_some_iff] at h
  obtain ⟨⟨m, rest⟩, hd, rfl⟩ := h
  have hwf : (IStream.mk x 0 x.length).Wf := by simp [IStream.Wf]
  have hwin : (IStream.mk x 0 x.length).window = x := by simp [IStream.window]
  have := (varint64_eq hwf).2 m rest
  rw [hwin] at this
  exact this hd

theorem refines_uint32 {α} (tag : Nat) (set : α → BitVec 32 → α) (f : Field α) (ht : f.tag = tag)
    (hd : ∀ st r, f.dec st r =
      (asVarint r).bind (fun v => if v < 2 ^ 32 then some (set st (BitVec.ofNat 32 v)) else none)) :
    Refines { tag := tag, kind := .uint32 set } f := by
  refine ⟨ht.symm, fun w s st h => ?_⟩
  simp only [decodeField]
  by_cases hw : w = 0
  · subst hw
    rw [if_neg (by simp)]
    rw [← varint64_outcome s h st
      (fun v => if (v.setWidth 32).setWidth 64 ≠ v then none else some (set st (v.setWidth 32))) f.dec]
    · congr 1
      funext p
      by_cases hc : (p.1.setWidth 32).setWidth 64 ≠ p.1
      · rw [if_pos hc, if_pos hc]
      · rw [if_neg hc, if_neg hc]
    · intro r; rw [hd]; cases hr : asVarint r with
      | none => rfl
      | some v =>
        have hv : v < 2 ^ 64 := by
          cases r <;> first | exact asVarint_lt _ _ hr | cases hr
        simp only [Option.bind_some, setWidth_ofNat]
        have e : ((BitVec.ofNat 32 v).setWidth 64 ≠ BitVec.ofNat 64 v) ↔ ¬ v < 2 ^ 32 := by
          rw [Ne, ← BitVec.toNat_inj, BitVec.toNat_setWidth, BitVec.toNat_ofNat, BitVec.toNat_ofNat]
          omega
        by_cases hc : v < 2 ^ 32
        · rw [if_pos hc, if_neg (fun x => (e.1 x) hc)]
        · rw [if_neg hc, if_pos (e.2 hc)]
  · rw [if_pos hw, outcome_other _ 0 w s st hw]
    intro st r hr
    rw [hd, asVarint_other r hr]; rfl

theorem refines_bool {α} (tag : Nat) (set : α → Bool → α) (f : Field α) (ht : f.tag = tag)
    (hd : ∀ st r, f.dec st r =
      match r with
      | .varint b => (decVarint32 b).map (fun p => set st (p.1 != 0))
      | _ => none) :
    Refines { tag := tag, kind := .bool set } f := by
  refine ⟨ht.symm, fun w s st h => ?_⟩
  simp only [decodeField]
  by_cases hw : w = 0
  · subst hw
    rw [if_neg (by simp), (varint32_eq h).1, dec32_split, outcome, readRaw]
    have hlt := (varint32_eq h).2
    rw [dec32_split] at hlt
    cases hsp : splitVarint s.window with
    | none => rfl
    | some p =>
      obtain ⟨x, rest⟩ := p
      rw [hsp] at hlt
      simp only [Option.map_some, hd] at hlt ⊢
      cases hx : decVarint32 x with
      | none => rfl
      | some q =>
        have hq := hlt q.1 rest (by rw [hx]; rfl)
        simp only [Option.map_some, expect, bind_ok]
        have e : (BitVec.ofNat 32 q.1 != 0) = (q.1 != 0) := by
          rw [Bool.eq_iff_iff, bne_iff_ne, bne_iff_ne, Ne, ← BitVec.toNat_inj, BitVec.toNat_ofNat,
            Nat.mod_eq_of_lt hq]
          rfl
        rw [e]
  · rw [if_pos hw, outcome_other _ 0 w s st hw]
    intro st r hr
    rw [hd]
    cases r <;> first | rfl | exact absurd rfl hr

/-! ### Sub-messages and callbacks -/

/-- A decoder for all bytes of a stream: what `g` says, everything consumed. -/
def Whole {α} (d : Dec α) (g : α → Bytes → Option α) : Prop :=
  ∀ s st, s.Wf → d s st = match g st s.window with | none => .err | some st' => .ok (st', s.adv s.left)

/-- A callback: consumes everything, or nothing. -/
def WholeOrNone {α} (d : Dec α) (g : α → Bytes → Option α) : Prop :=
  ∀ s st, s.Wf →
    match g st s.window with
    | none => d s st = .err
    | some st' => d s st = .ok (st', s.adv s.left) ∨ d s st = .ok (st', s)

theorem Whole.weak {α} {d : Dec α} {g : α → Bytes → Option α} (h : Whole d g) : WholeOrNone d g := by
  intro s st hs
  have := h s st hs
  cases hg : g st s.window with
  | none => rw [hg] at this; exact this
  | some st' => rw [hg] at this; exact Or.inl this

theorem close_eq {s sub sub' : IStream} {q : Nat} (hwf : sub.Wf) (hs : sub' = sub.adv sub.left ∨ sub' = sub)
    (hq : sub.pos + sub.left = q) : closeSubstream s sub' = .ok { s with pos := q } := by
  unfold closeSubstream
  rcases hs with rfl | rfl
  · rw [if_neg (by simp)]
    simp only [IStream.adv, hq]
  · by_cases h0 : sub'.left = 0
    · rw [if_neg (by simp [h0])]
      rw [show sub'.pos = q by omega]
    · rw [if_pos h0, pbSkip_eq hwf, if_neg (by omega)]
      simp only [bind_ok, IStream.adv, hq]

theorem refines_sub {α} (tag : Nat) (inner : Dec α) (g : α → Bytes → Option α) (hi : Whole inner g)
    (f : Field α) (ht : f.tag = tag)
    (hd : ∀ st r, f.dec st r = match r with | .len b => g st b | _ => none) :
    Refines { tag := tag, kind := .sub inner } f := by
  refine ⟨ht.symm, fun w s st h => ?_⟩
  simp only [decodeField]
  by_cases hw : w = 2
  · subst hw
    rw [if_neg (by simp), decSubmessage, outcome]
    have hm := makeSubstream_eq h
    cases hr : readRaw 2 s.window with
    | none => rw [hr] at hm; simp only at hm; rw [hm]; rfl
    | some p =>
      obtain ⟨r, rest⟩ := p
      rw [hr] at hm
      simp only at hm
      obtain ⟨b, sub, rfl, hwf, hwin, hleft, hbuf, hend, hms⟩ := hm
      rw [hms, bind_ok]
      simp only [hd]
      have := hi sub st hwf
      rw [hwin] at this
      cases hg : g st b with
      | none => rw [hg] at this; simp only at this; rw [this]; rfl
      | some st' =>
        rw [hg] at this
        simp only at this
        rw [this, bind_ok]
        simp only
        rw [close_eq hwf (Or.inl rfl) hend, bind_ok]
  · rw [if_pos hw, outcome_other _ 2 w s st hw]
    intro st r hr
    rw [hd]
    cases r <;> first | rfl | exact absurd rfl hr

theorem cbLoop_eq {α} {cb : Dec α} {g : α → Bytes → Option α} (hc : WholeOrNone cb g) (f : Nat) (sub : IStream)
    (st : α) (h : sub.Wf) :
    match g st sub.window with
    | none => cbLoop cb (f + 1) sub st = .err
    | some st' => cbLoop cb (f + 1) sub st = .ok (st', sub.adv sub.left) ∨ cbLoop cb (f + 1) sub st = .ok (st', sub) := by
  have := hc sub st h
  rw [cbLoop]
  cases hg : g st sub.window with
  | none => rw [hg] at this; simp only at this ⊢; rw [this]; rfl
  | some st' =>
    rw [hg] at this
    simp only at this ⊢
    rcases this with this | this
    · left; rw [this, bind_ok]; simp only [adv_left, Nat.sub_self]; rw [if_neg (by omega)]
    · right; rw [this, bind_ok]; simp only; rw [if_neg (by omega)]

theorem refines_callback {α} (tag : Nat) (cb : Dec α) (g : α → Bytes → Option α) (hc : WholeOrNone cb g)
    (f : Field α) (ht : f.tag = tag) (hd : ∀ st r, f.dec st r = (callbackBytes r).bind (g st)) :
    Refines { tag := tag, kind := .callback cb } f := by
  refine ⟨ht.symm, fun w s st h => ?_⟩
  simp only [decodeField, decodeCallback]
  by_cases hw : w = 2
  · subst hw
    rw [if_pos rfl, outcome]
    have hm := makeSubstream_eq h
    cases hr : readRaw 2 s.window with
    | none => rw [hr] at hm; simp only at hm; rw [hm]; rfl
    | some p =>
      obtain ⟨r, rest⟩ := p
      rw [hr] at hm
      simp only at hm
      obtain ⟨b, sub, rfl, hwf, hwin, hleft, hbuf, hend, hms⟩ := hm
      rw [hms, bind_ok]
      simp only [hd, callbackBytes_len, Option.bind_some]
      have := cbLoop_eq hc sub.left sub st hwf
      rw [hwin] at this
      cases hg : g st b with
      | none => rw [hg] at this; simp only at this; rw [this]; rfl
      | some st' =>
        rw [hg] at this
        simp only at this
        rcases this with this | this
        · rw [this, bind_ok]; simp only; rw [close_eq hwf (Or.inl rfl) hend, bind_ok]
        · rw [this, bind_ok]; simp only; rw [close_eq hwf (Or.inr rfl) hend, bind_ok]
  · rw [if_neg hw, readRawValue_eq h w hw, outcome]
    cases readRaw w s.window with
    | none => rfl
    | some p =>
      obtain ⟨r, rest⟩ := p
      simp only [hd]
      cases callbackBytes r with
      | none => rfl
      | some b =>
        simp only [Option.bind_some, bind_ok]
        have hwf : (IStream.mk b 0 b.length).Wf := by simp [IStream.Wf]
        have hwin : (IStream.mk b 0 b.length).window = b := by simp [IStream.window]
        have := hc (IStream.mk b 0 b.length) st hwf
        rw [hwin] at this
        cases hg : g st b with
        | none => rw [hg] at this; simp only at this; rw [this]; rfl
        | some st' =>
          rw [hg] at this
          simp only at this
          rcases this with this | this <;> (rw [this]; rfl)

theorem cbString_whole {α} (set : α → Bytes → α) : Whole (cbString set) (fun st b => some (set st b)) := by
  intro s st h
  unfold cbString
  have hl := window_length h
  rw [pbRead_eq h, takeN, hl, if_neg (by omega)]
  simp only [expect, bind_ok, List.length_drop, hl, Nat.sub_self]
  rw [show s.window.take s.left = s.window by rw [← hl]; exact List.take_length]
  simp

theorem cbNone_none {α} : WholeOrNone (cbNone : Dec α) (fun st _ => some st) := by
  intro s st _
  exact Or.inr rfl

/-! ### Lookup -/

theorem scan_found (tags : List Nat) (t start m : Nat) (hn : tags.Nodup) (hm : tags[m]? = some t) (f j : Nat)
    (hj : j < m) (hf : m - j ≤ f) (hs : start ≤ j ∨ m < start) : scan tags t start f j = .ok (true, m) := by
  have hml : m < tags.length := by
    rcases Nat.lt_or_ge m tags.length with h | h
    · exact h
    · rw [List.getElem?_eq_none h] at hm; cases hm
  induction f generalizing j with
  | zero => omega
  | succ f ih =>
    rw [scan, show nextIndex tags.length j = j + 1 from if_neg (by omega)]
    by_cases hk : j + 1 = m
    · rw [hk, if_pos hm]
    · have hne : tags[j + 1]? ≠ some t := by
        intro hx
        have := (List.getElem?_inj (by omega) hn).1 (hx.trans hm.symm)
        omega
      rw [if_neg hne, if_neg (by omega)]
      exact ih (j + 1) (by omega) (by omega) (by omega)

theorem scan_none (tags : List Nat) (t start : Nat) (ht : t ∉ tags) (hs : start < tags.length) (f j : Nat)
    (hf : (if j < start then start - j else (tags.length - 1 - j) + 1 + start) ≤ f) :
    scan tags t start f j = .ok (false, start) := by
  have hne : ∀ k : Nat, tags[k]? ≠ some t := fun k hk => ht (List.mem_of_getElem? hk)
  induction f generalizing j with
  | zero => split at hf <;> omega
  | succ f ih =>
    rw [scan]
    by_cases hj : j + 1 ≥ tags.length
    · rw [show nextIndex tags.length j = 0 from if_pos hj, if_neg (hne 0)]
      by_cases h0 : 0 = start
      · rw [if_pos h0]
      · rw [if_neg h0]
        apply ih
        rw [if_pos (by omega)]
        rw [if_neg (by omega)] at hf
        omega
    · rw [show nextIndex tags.length j = j + 1 from if_neg hj, if_neg (hne _)]
      by_cases h0 : j + 1 = start
      · rw [if_pos h0]
      · rw [if_neg h0]
        apply ih
        by_cases hlt : j < start
        · rw [if_pos hlt] at hf
          rw [if_pos (by omega)]; omega
        · rw [if_neg hlt] at hf
          rw [if_neg (by omega)]; omega

theorem sorted_get {tags : List Nat} (hs : tags.Pairwise (· < ·)) {i j a b : Nat} (hi : tags[i]? = some a)
    (hj : tags[j]? = some b) : i < j ↔ a < b := by
  have key : ∀ {i j a b : Nat}, tags[i]? = some a → tags[j]? = some b → i < j → a < b := by
    intro i j a b hi hj hij
    have hjl : j < tags.length := by
      rcases Nat.lt_or_ge j tags.length with h | h
      · exact h
      · rw [List.getElem?_eq_none h] at hj; cases hj
    rw [List.getElem?_eq_getElem (by omega)] at hi
    rw [List.getElem?_eq_getElem hjl] at hj
    have := List.pairwise_iff_getElem.1 hs i j (by omega) hjl hij
    simp only [Option.some.injEq] at hi hj
    omega
  constructor
  · exact key hi hj
  · intro hab
    rcases Nat.lt_trichotomy i j with h | h | h
    · exact h
    · subst h; rw [hi] at hj; simp only [Option.some.injEq] at hj; omega
    · have := key hj hi h; omega

theorem le_last {tags : List Nat} (hs : tags.Pairwise (· < ·)) {t : Nat} (ht : t ∈ tags) : t ≤ tags.getLastD 0 := by
  obtain ⟨m, hm⟩ := List.getElem?_of_mem ht
  have hml : m < tags.length := by
    rcases Nat.lt_or_ge m tags.length with h | h
    · exact h
    · rw [List.getElem?_eq_none h] at hm; cases hm
  have hlast : tags[tags.length - 1]? = some (tags.getLastD 0) := by
    rw [← List.getLast?_eq_getElem?, List.getLastD_eq_getLast?]
    cases hg : tags.getLast? with
    | none => rw [List.getLast?_eq_none_iff] at hg; subst hg; simp at hml
    | some x => rfl
  rcases Nat.lt_or_ge m (tags.length - 1) with h | h
  · have := (sorted_get hs hm hlast).1 h; omega
  · have : m = tags.length - 1 := by omega
    rw [this, hlast] at hm
    simp only [Option.some.injEq] at hm
    omega

/-- The iterator finds the field of a number wherever it starts, and keeps its place otherwise. -/
theorem iterFind_eq (tags : List Nat) (hs : tags.Pairwise (· < ·)) (i t : Nat) (hi : i < tags.length ∨ tags = [])
    (ht : t ≠ 0) :
    (t ∈ tags ∧ ∃ j, iterFind tags i t = .ok (true, j) ∧ tags[j]? = some t) ∨
    (t ∉ tags ∧ iterFind tags i t = .ok (false, i)) := by
  have hn : tags.Nodup := hs.imp (fun h => by omega)
  unfold iterFind
  rcases hi with hi | rfl
  · have hg : tags[i]? = some (tags.getD i 0) := by
      rw [List.getD_eq_getElem?_getD, List.getElem?_eq_getElem hi]; rfl
    by_cases h1 : tags.getD i 0 = t
    · left
      rw [h1] at hg
      exact ⟨List.mem_of_getElem? hg, i, by rw [if_pos h1], hg⟩
    · rw [if_neg h1]
      by_cases hm : t ∈ tags
      · left
        refine ⟨hm, ?_⟩
        have := le_last hs hm
        rw [if_neg (by omega)]
        obtain ⟨m, hmt⟩ := List.getElem?_of_mem hm
        refine ⟨m, ?_, hmt⟩
        have hml : m < tags.length := by
          rcases Nat.lt_or_ge m tags.length with h | h
          · exact h
          · rw [List.getElem?_eq_none h] at hmt; cases hmt
        by_cases hlt : t < tags.getD i 0
        · rw [if_pos hlt]
          have hmi := (sorted_get hs hmt hg).2 hlt
          rw [scan, show nextIndex tags.length tags.length = 0 from if_pos (by omega)]
          by_cases h0 : m = 0
          · subst h0; rw [if_pos hmt]
          · have hne : tags[0]? ≠ some t := by
              intro hx
              have := (List.getElem?_inj (by omega) hn).1 (hx.trans hmt.symm)
              omega
            rw [if_neg hne, if_neg (by omega)]
            exact scan_found tags t i m hn hmt _ 0 (by omega) (by omega) (Or.inr hmi)
        · rw [if_neg hlt]
          have hmi := (sorted_get hs hg hmt).2 (by omega)
          exact scan_found tags t i m hn hmt _ i hmi (by omega) (Or.inl (Nat.le_refl _))
      · right
        refine ⟨hm, ?_⟩
        by_cases hl : t > tags.getLastD 0
        · rw [if_pos hl]
        · rw [if_neg hl]
          apply scan_none tags t i hm hi
          by_cases hlt : t < tags.getD i 0
          · rw [if_pos hlt, if_neg (by omega)]; omega
          · rw [if_neg hlt, if_neg (by omega)]; omega
  · right
    refine ⟨by simp, ?_⟩
    rw [if_neg (show ¬ ([] : List Nat).getD i 0 = t by simp only [List.getD_nil]; omega),
      if_pos (show t > ([] : List Nat).getLastD 0 by simp only [List.getLastD_nil]; omega)]

/-! ### Messages -/

/-- The two tables have matching rows. -/
inductive RefList {α} : List (PbField α) → List (Field α) → Prop where
  | nil : RefList [] []
  | cons {pf f pfs fs} : Refines pf f → RefList pfs fs → RefList (pf :: pfs) (f :: fs)

theorem RefList.tags {α} {pfs : List (PbField α)} {fs : List (Field α)} (h : RefList pfs fs) :
    pfs.map (·.tag) = fs.map (·.tag) := by
  induction h with
  | nil => rfl
  | cons h _ ih => simp only [List.map_cons, ih, h.1]

theorem RefList.get {α} {pfs : List (PbField α)} {fs : List (Field α)} (h : RefList pfs fs) (j : Nat)
    (pf : PbField α) (hj : pfs[j]? = some pf) : ∃ f, fs[j]? = some f ∧ Refines pf f := by
  induction h generalizing j with
  | nil => simp at hj
  | cons h _ ih =>
    cases j with
    | zero => simp only [List.getElem?_cons_zero, Option.some.injEq] at hj; subst hj; exact ⟨_, rfl, h⟩
    | succ j => simp only [List.getElem?_cons_succ] at hj ⊢; exact ih j hj

theorem readField_suffix (bs : Bytes) (p : Nat × Raw) (rest : Bytes) (h : readField bs = some (p, rest)) :
    rest.length < bs.length := by
  unfold readField at h
  split at h
  · cases h
  · next t r0 hd =>
    split at h
    · cases h
    · simp only [Option.map_eq_some_iff, Prod.mk.injEq] at h
      obtain ⟨⟨r, r1⟩, hr, -, rfl⟩ := h
      obtain ⟨pre, hne, hp⟩ := decVarint32_suffix _ _ _ hd
      obtain ⟨pre2, hp2⟩ := readRaw_suffix _ _ _ _ hr
      have := List.length_pos_iff.2 hne
      rw [hp, hp2, List.length_append, List.length_append]
      simp only
      omega

theorem readAllN_fuel (f g : Nat) (bs : Bytes) (hf : bs.length ≤ f) (hg : bs.length ≤ g) :
    readAllN f bs = readAllN g bs := by
  induction f generalizing g bs with
  | zero =>
    have : bs = [] := List.length_eq_zero_iff.1 (by omega)
    subst this
    cases g <;> simp [readAllN]
  | succ f ih =>
    cases g with
    | zero =>
      have : bs = [] := List.length_eq_zero_iff.1 (by omega)
      subst this
      simp [readAllN]
    | succ g =>
      rw [readAllN, readAllN]
      by_cases hb : bs = []
      · rw [if_pos hb, if_pos hb]
      · rw [if_neg hb, if_neg hb]
        cases hr : readField bs with
        | none => rfl
        | some p =>
          obtain ⟨fld, rest⟩ := p
          have := readField_suffix _ _ _ hr
          simp only
          rw [ih g rest (by omega) (by omega)]

/-- Decoding field by field. -/
theorem decode_step {α} (c : Codec α) (st : α) (bs : Bytes) (hb : bs ≠ []) :
    decode c st bs =
      match readField bs with
      | none => none
      | some (p, rest) =>
        match applyField c st p with
        | none => none
        | some st' => decode c st' rest := by
  obtain ⟨n, hn⟩ : ∃ n, bs.length = n + 1 := ⟨bs.length - 1, by have := List.length_pos_iff.2 hb; omega⟩
  have e : readAll bs = readAllN (n + 1) bs := readAllN_fuel _ _ _ (Nat.le_refl _) (by omega)
  unfold decode
  rw [e, readAllN, if_neg hb]
  cases hr : readField bs with
  | none => rfl
  | some p =>
    obtain ⟨fld, rest⟩ := p
    have := readField_suffix _ _ _ hr
    have e2 : readAllN n rest = readAll rest := readAllN_fuel _ _ _ (by omega) (Nat.le_refl _)
    simp only
    rw [e2]
    cases readAll rest with
    | none => simp only; cases applyField c st fld <;> rfl
    | some l => simp only [applyAll]; cases applyField c st fld <;> rfl

theorem decode_nil {α} (c : Codec α) (st : α) : decode c st [] = some st := rfl

theorem tag_bits (n : Nat) (hn : n < 2 ^ 32) :
    ((BitVec.ofNat 32 n) &&& 7).toNat = n % 8 ∧ ((BitVec.ofNat 32 n) >>> 3).toNat = n / 8 := by
  constructor
  · rw [BitVec.toNat_and, BitVec.toNat_ofNat, Nat.mod_eq_of_lt hn]
    exact Nat.and_two_pow_sub_one_eq_mod n 3
  · rw [BitVec.toNat_ushiftRight, BitVec.toNat_ofNat, Nat.mod_eq_of_lt hn, Nat.shiftRight_eq_div_pow]

/-- The loop of `pb_decode_inner` decodes the window of its stream. -/
theorem decodeLoop_eq {α} {pfs : List (PbField α)} {fs : List (Field α)} (href : RefList pfs fs)
    (hs : (fs.map (·.tag)).Pairwise (· < ·)) (f i : Nat) (s : IStream) (st : α) (h : s.Wf) (hf : s.left ≤ f)
    (hi : i < pfs.length ∨ pfs = []) :
    decodeLoop pfs f i s st =
      match decode fs st s.window with
      | none => .err
      | some st' => .ok (st', s.adv s.left) := by
  have htags := href.tags
  have hn : (fs.map (·.tag)).Nodup := hs.imp (fun h => by omega)
  induction f generalizing i s st with
  | zero =>
    have h0 : s.left = 0 := by omega
    have hw : s.window = [] := List.length_eq_zero_iff.1 (by rw [window_length h]; exact h0)
    rw [decodeLoop, if_pos h0, hw, decode_nil]
    simp only [h0, adv_zero]
  | succ f ih =>
    rw [decodeLoop]
    by_cases h0 : s.left = 0
    · have hw : s.window = [] := List.length_eq_zero_iff.1 (by rw [window_length h]; exact h0)
      rw [if_pos h0, hw, decode_nil]
      simp only [h0, adv_zero]
    · rw [if_neg h0]
      have hne : s.window ≠ [] := by
        intro hw
        have := window_length h
        rw [hw] at this
        simp only [List.length_nil] at this
        omega
      rw [decode_step _ _ _ hne, readField]
      obtain ⟨e, hlt⟩ := varint32_eq h
      have hdt : decodeTag s = (varint32 s).bind
          (fun p => .ok (((p.1 &&& 7).toNat, (p.1 >>> 3).toNat), p.2)) := rfl
      rw [e] at hdt
      cases hd : decVarint32 s.window with
      | none =>
        rw [hd] at hdt
        simp only [Option.map_none, expect, bind_err] at hdt
        rw [hdt]
        simp only
        rw [if_neg h0]
      | some p =>
        obtain ⟨n, rest⟩ := p
        have hnlt := hlt n rest hd
        obtain ⟨b1, b2⟩ := tag_bits n hnlt
        obtain ⟨pre, hpne, hw⟩ := decVarint32_suffix _ _ _ hd
        obtain ⟨hwf, hwin, hleft, hlen⟩ := adv_to h hw
        rw [hd] at hdt
        simp only [Option.map_some, expect, bind_ok, b1, b2] at hdt
        rw [hdt]
        simp only
        by_cases ht0 : n / 8 = 0
        · rw [if_pos ht0, if_pos ht0]
        · rw [if_neg ht0, if_neg ht0]
          have hprelen := List.length_pos_iff.2 hpne
          -- what is left of the message after the value
          have after : ∀ (r : Raw) (rest2 : Bytes), readRaw (n % 8) rest = some (r, rest2) →
              ((s.adv (s.left - rest.length)).adv ((s.adv (s.left - rest.length)).left - rest2.length)).Wf ∧
              ((s.adv (s.left - rest.length)).adv ((s.adv (s.left - rest.length)).left - rest2.length)).window = rest2 ∧
              ((s.adv (s.left - rest.length)).adv ((s.adv (s.left - rest.length)).left - rest2.length)).left ≤ f ∧
              ((s.adv (s.left - rest.length)).adv ((s.adv (s.left - rest.length)).left - rest2.length)).adv
                ((s.adv (s.left - rest.length)).adv ((s.adv (s.left - rest.length)).left - rest2.length)).left =
                s.adv s.left := by
            intro r rest2 hr
            obtain ⟨pre2, hp2⟩ := readRaw_suffix _ _ _ _ hr
            obtain ⟨c1, c2, c3, c4⟩ := adv_to hwf (hwin.trans hp2)
            refine ⟨c1, c2, ?_, ?_⟩
            · rw [c3]; rw [hleft] at c4; omega
            · simp only [adv_adv, adv_left]
              congr 1
              rw [hleft] at c4; omega
          have hi' : i < (pfs.map (·.tag)).length ∨ pfs.map (·.tag) = [] := by
            rcases hi with hi | hi
            · left; rw [List.length_map]; exact hi
            · right; rw [hi]; rfl
          rcases iterFind_eq (pfs.map (·.tag)) (by rw [htags]; exact hs) i (n / 8) hi' ht0 with
            ⟨hm, j, hfind, hj⟩ | ⟨hm, hfind⟩
          · -- a known field
            rw [hfind, bind_ok]
            simp only [if_true]
            rw [List.getElem?_map, Option.map_eq_some_iff] at hj
            obtain ⟨pf, hpf, hpt⟩ := hj
            obtain ⟨fl, hfl, hrf⟩ := href.get j pf hpf
            have hjl : j < pfs.length := by
              rcases Nat.lt_or_ge j pfs.length with h | h
              · exact h
              · rw [List.getElem?_eq_none h] at hpf; cases hpf
            rw [hpf]
            simp only
            rw [hrf.2 (n % 8) _ st hwf, outcome, hwin]
            cases hr : readRaw (n % 8) rest with
            | none => rfl
            | some q =>
              obtain ⟨r, rest2⟩ := q
              obtain ⟨c1, c2, c3, c4⟩ := after r rest2 hr
              have hap : applyField fs st (n / 8, r) = fl.dec st r := by
                unfold applyField
                have hmem : fl ∈ fs := List.mem_of_getElem? hfl
                have : fl.tag = n / 8 := by rw [← hpt, hrf.1]
                simp only
                rw [← this, find_tag fs hn fl hmem]
              simp only [Option.map_some, hap]
              cases hdec : fl.dec st r with
              | none => rfl
              | some st' =>
                simp only [bind_ok]
                rw [ih j _ st' c1 c3 (Or.inl hjl), c2, c4]
          · -- an unknown field
            rw [hfind, bind_ok]
            simp only [Bool.false_eq_true, if_false]
            rw [skipField_eq hwf, hwin]
            cases hr : readRaw (n % 8) rest with
            | none => rfl
            | some q =>
              obtain ⟨r, rest2⟩ := q
              obtain ⟨c1, c2, c3, c4⟩ := after r rest2 hr
              have hap : applyField fs st (n / 8, r) = some st := by
                unfold applyField
                have : fs.find? (fun f => f.tag == n / 8) = none := by
                  rw [List.find?_eq_none]
                  intro x hx hxt
                  apply hm
                  rw [htags, ← beq_iff_eq.1 hxt]
                  exact List.mem_map_of_mem hx
                simp only
                rw [this]
              simp only [Option.map_some, hap, bind_ok]
              rw [ih i _ st c1 c3 hi, c2, c4]

/-- `pb_decode` decodes all bytes of its stream as the format says. -/
theorem decodeMsg_whole {α} {pfs : List (PbField α)} {fs : List (Field α)} (href : RefList pfs fs)
    (hs : (fs.map (·.tag)).Pairwise (· < ·)) : Whole (decodeMsg pfs) (decode fs) := by
  intro s st h
  unfold decodeMsg
  apply decodeLoop_eq href hs _ _ _ _ h (Nat.le_refl _)
  cases pfs with
  | nil => exact Or.inr rfl
  | cons _ _ => exact Or.inl (by simp)

theorem cbElem_whole {α β} {pfs : List (PbField β)} {fs : List (Field β)} (href : RefList pfs fs)
    (hs : (fs.map (·.tag)).Pairwise (· < ·)) (init : β) (add : α → β → α) :
    Whole (cbElem pfs init add) (fun st b => (decode fs init b).map (add st)) := by
  intro s st h
  unfold cbElem
  rw [decodeMsg_whole href hs s init h]
  simp only
  cases decode fs init s.window with
  | none => rfl
  | some e => rfl

/-- A whole buffer: the result is determined by the `len` bytes at `off`, if these are inside of the
memory. -/
theorem decodeBuffer_eq {α} {pfs : List (PbField α)} {fs : List (Field α)} (href : RefList pfs fs)
    (hs : (fs.map (·.tag)).Pairwise (· < ·)) (mem : Bytes) (off len : Nat) (h : off + len ≤ mem.length) (st : α) :
    decodeBuffer pfs mem off len st =
      if len = 0 then .err
      else match decode fs st ((mem.drop off).take len) with | none => .err | some st' => .ok st' := by
  unfold decodeBuffer
  by_cases h0 : len = 0
  · rw [if_pos h0, if_pos h0]
  · rw [if_neg h0, if_neg h0, decodeMsg_whole href hs ⟨mem, off, len⟩ st h]
    simp only [IStream.window]
    cases decode fs st ((mem.drop off).take len) <;> rfl

end Ecal.Pb
