import Verif.Pb.Encode

/-!
# The encoder emits the bytes of the message format
-/

namespace Ecal.Pb

open Ecal.Wire

/-- What writing `data` at once does to a stream. -/
def emit (data : Bytes) (s : OStream) : Res OStream :=
  if s.writing = true then
    if s.written + data.length ≤ s.max then
      .ok { s with buf := overwrite s.buf s.pos data, pos := s.pos + data.length, written := s.written + data.length }
    else .err
  else .ok { s with written := s.written + data.length }

/-- The memory behind a writing stream is as large as announced. -/
def OStream.Wf (s : OStream) : Prop :=
  s.writing = true → s.written ≤ s.max ∧ s.pos + (s.max - s.written) ≤ s.buf.length

theorem overwrite_nil (buf : Bytes) (pos : Nat) : overwrite buf pos [] = buf := by simp [overwrite]

theorem overwrite_length (buf data : Bytes) (pos : Nat) (h : pos + data.length ≤ buf.length) :
    (overwrite buf pos data).length = buf.length := by
  simp only [overwrite, List.length_append, List.length_take, List.length_drop]; omega

theorem overwrite_append (buf a b : Bytes) (pos : Nat) (h : pos + a.length ≤ buf.length) :
    overwrite (overwrite buf pos a) (pos + a.length) b = overwrite buf pos (a ++ b) := by
  have hp : (buf.take pos ++ a).length = pos + a.length := by
    simp only [List.length_append, List.length_take]; omega
  have e1 : (overwrite buf pos a).take (pos + a.length) = buf.take pos ++ a := by
    rw [overwrite, List.take_append_of_le_length (by omega), List.take_of_length_le (by omega)]
  have e2 : (overwrite buf pos a).drop (pos + a.length + b.length) = buf.drop (pos + (a ++ b).length) := by
    have e3 : pos + a.length + b.length = (buf.take pos ++ a).length + b.length := by omega
    rw [overwrite, e3, List.drop_length_add_append, List.drop_drop, List.length_append, Nat.add_assoc]
  rw [overwrite, e1, e2, overwrite]
  simp [List.append_assoc]

theorem emit_nil (s : OStream) (hw : s.Wf) : emit [] s = .ok s := by
  unfold emit
  by_cases h : s.writing = true
  · rw [if_pos h, if_pos (by have := hw h; simp; omega), overwrite_nil]; rfl
  · rw [if_neg h]; rfl

theorem emit_ok {data : Bytes} {s s' : OStream} (hw : s.Wf) (h : emit data s = .ok s') :
    s'.Wf ∧ s'.written = s.written + data.length ∧ s'.writing = s.writing := by
  unfold emit at h
  by_cases hs : s.writing = true
  · rw [if_pos hs] at h
    by_cases hm : s.written + data.length ≤ s.max
    · rw [if_pos hm] at h
      injection h with h; subst h
      refine ⟨fun _ => ?_, rfl, rfl⟩
      have := hw hs
      simp only
      rw [overwrite_length _ _ _ (by omega)]
      omega
    · rw [if_neg hm] at h; cases h
  · rw [if_neg hs] at h
    injection h with h; subst h
    exact ⟨fun h' => absurd h' hs, rfl, rfl⟩

/-- One write after the other. -/
theorem emit_append (a b : Bytes) (s : OStream) (hw : s.Wf) : (emit a s).bind (emit b) = emit (a ++ b) s := by
  by_cases hs : s.writing = true
  · have hw' := hw hs
    by_cases hm : s.written + a.length ≤ s.max
    · have e : emit a s = .ok { s with buf := overwrite s.buf s.pos a, pos := s.pos + a.length, written := s.written + a.length } := by
        unfold emit; rw [if_pos hs, if_pos hm]
      rw [e]
      show emit b _ = _
      unfold emit
      rw [if_pos hs, if_pos hs]
      by_cases hb : s.written + a.length + b.length ≤ s.max
      · rw [if_pos hb, if_pos (by simp only [List.length_append]; omega)]
        simp only [overwrite_append s.buf a b s.pos (by omega), List.length_append, Nat.add_assoc]
      · rw [if_neg hb, if_neg (by simp only [List.length_append]; omega)]
    · have e : emit a s = .err := by unfold emit; rw [if_pos hs, if_neg hm]
      have e' : emit (a ++ b) s = .err := by
        unfold emit; rw [if_pos hs, if_neg (by simp only [List.length_append]; omega)]
      rw [e, e']; rfl
  · have e : ∀ d t, t.writing = s.writing → emit d t = .ok { t with written := t.written + d.length } := by
      intro d t ht; unfold emit; rw [if_neg (by rw [ht]; exact hs)]
    rw [e a s rfl, e (a ++ b) s rfl]
    show emit b _ = _
    rw [e b { s with written := s.written + a.length } rfl]
    simp only [List.length_append, Nat.add_assoc]

/-- Sequencing: the first step emits `a`, the second `b`. -/
theorem emit_seq {a b : Bytes} {s : OStream} (hw : s.Wf) {x : Res OStream} {f : OStream → Res OStream}
    (hx : x = emit a s)
    (hf : ∀ s', s'.Wf → s'.written = s.written + a.length → s'.writing = s.writing → f s' = emit b s') :
    x.bind f = emit (a ++ b) s := by
  rw [← emit_append a b s hw, hx]
  cases he : emit a s with
  | ok s' =>
    obtain ⟨h1, h2, h3⟩ := emit_ok hw he
    exact hf s' h1 h2 h3
  | err => rfl
  | ub => rfl
  | stuck => rfl

theorem pbWrite_emit (data : Bytes) (s : OStream) (hw : s.Wf) (hl : s.written + data.length < 2 ^ 64) :
    pbWrite s data = emit data s := by
  unfold pbWrite
  by_cases hs : s.writing = true
  · have hw' := hw hs
    by_cases h0 : 0 < data.length
    · rw [if_pos ⟨h0, hs⟩, Nat.mod_eq_of_lt hl]
      unfold emit
      rw [if_pos hs]
      by_cases hm : s.written + data.length ≤ s.max
      · rw [if_neg (by omega), if_pos hm]
        unfold bufWrite
        rw [if_neg (by omega)]
        simp only [Res.bind, addWritten, Nat.mod_eq_of_lt hl]
      · rw [if_pos (by omega), if_neg hm]
    · have h0' : data = [] := List.length_eq_zero_iff.1 (by omega)
      subst h0'
      rw [if_neg (by simp), emit_nil s hw]
      simp only [addWritten, List.length_nil, Nat.add_zero] at hl ⊢
      rw [Nat.mod_eq_of_lt hl]
  · rw [if_neg (by simp [hs])]
    unfold emit
    rw [if_neg hs]
    simp only [addWritten, Nat.mod_eq_of_lt hl]

theorem writeVarint_emit (v : Nat) (hv : v < 2 ^ 64) (s : OStream) (hw : s.Wf)
    (hl : s.written + (encVarint v).length < 2 ^ 64) : writeVarint s v = emit (encVarint v) s := by
  unfold writeVarint
  rw [encVarintCode_eq v hv, if_neg (by have := encVarintN_length 10 v; unfold encVarint; omega)]
  exact pbWrite_emit _ s hw hl

theorem tag_value (w tag : Nat) (hw : w < 8) : tag <<< 3 ||| w = tag * 8 + w := by
  rw [← Nat.shiftLeft_add_eq_or_of_lt (by omega : w < 2 ^ 3), Nat.shiftLeft_eq]

theorem writeTag_emit (w tag : Nat) (h8 : w < 8) (ht : tag < 2 ^ 32) (s : OStream) (hw : s.Wf)
    (hl : s.written + (encVarint (tag * 8 + w)).length < 2 ^ 64) :
    writeTag s w tag = emit (encVarint (tag * 8 + w)) s := by
  unfold writeTag
  rw [tag_value w tag h8]
  exact writeVarint_emit _ (by omega) s hw hl

theorem writeString_emit (data : Bytes) (s : OStream) (hw : s.Wf)
    (hl : s.written + (encVarint data.length ++ data).length < 2 ^ 64) :
    writeString s data = emit (encVarint data.length ++ data) s := by
  simp only [List.length_append] at hl
  unfold writeString
  refine emit_seq hw (writeVarint_emit _ (by omega) s hw (by omega)) (fun s' h1 h2 _ => ?_)
  exact pbWrite_emit _ s' h1 (by omega)

/-- An encoding function writes `g m`. -/
def Emits {α} (e : Enc α) (g : α → Bytes) : Prop :=
  ∀ m s, s.Wf → s.written + (g m).length < 2 ^ 64 → e m s = emit (g m) s

theorem sizing_wf : sizing.Wf := by intro h; cases h

theorem writeSub_emit {α} {inner : Enc α} {g : α → Bytes} (hi : Emits inner g) :
    Emits (fun m s => writeSub inner m s) (fun m => encVarint (g m).length ++ g m) := by
  intro m s hw hl
  simp only [List.length_append] at hl
  have e0 : inner m sizing = .ok { sizing with written := (g m).length } := by
    rw [hi m sizing sizing_wf (by show 0 + _ < _; omega)]
    show Res.ok { sizing with written := 0 + (g m).length } = _
    rw [Nat.zero_add]
  show writeSub inner m s = _
  unfold writeSub
  rw [e0]
  show ((writeVarint s (g m).length).bind _) = _
  refine emit_seq hw (writeVarint_emit _ (by omega) s hw (by omega)) (fun s' h1 h2 h3 => ?_)
  simp only
  by_cases hs : s'.writing = true
  · rw [if_neg (by simp [hs]), Nat.mod_eq_of_lt (by omega : s'.written + (g m).length < 2 ^ 64)]
    have hw' := h1 hs
    unfold emit
    rw [if_pos hs]
    by_cases hm : s'.written + (g m).length ≤ s'.max
    · rw [if_neg (by omega), if_pos hm]
      have hsub : inner m { writing := true, buf := s'.buf, pos := s'.pos, max := (g m).length, written := 0 } =
          .ok { writing := true, buf := overwrite s'.buf s'.pos (g m), pos := s'.pos + (g m).length, max := (g m).length, written := (g m).length } := by
        rw [hi m _ (by intro _; simp only; omega) (by simp only; omega)]
        unfold emit
        rw [if_pos rfl, if_pos (by simp)]
        simp only [Nat.zero_add]
      rw [hsub]
      simp only [Res.bind, ne_eq, not_true_eq_false, if_false]
      rw [Nat.mod_eq_of_lt (by omega)]
    · rw [if_pos (by omega), if_neg hm]
  · rw [if_pos (by simpa using hs)]
    unfold pbCount emit
    rw [if_neg (by simp [hs]), if_neg hs]
    simp only [addWritten]
    rw [Nat.mod_eq_of_lt (by omega)]

/-! ### Fields -/

/-- Bytes of a field of the message format. -/
def fieldBytes {α} (f : Field α) (m : α) : Bytes := writeAll ((f.enc m).map (fun r => (f.tag, r)))

theorem encode_cons {α} (f : Field α) (c : Codec α) (m : α) : encode (f :: c) m = fieldBytes f m ++ encode c m := by
  unfold encode rawOf fieldBytes writeAll
  rw [List.flatMap_cons, List.flatMap_append]

def EncRef {α} (e : EField α) (f : Field α) : Prop := Emits (encodeField e) (fieldBytes f)

inductive EncList {α} : List (EField α) → List (Field α) → Prop where
  | nil : EncList [] []
  | cons {e f es fs} : EncRef e f → EncList es fs → EncList (e :: es) (f :: fs)

theorem encodeMsg_emits {α} {es : List (EField α)} {fs : List (Field α)} (h : EncList es fs) :
    Emits (encodeMsg es) (encode fs) := by
  induction h with
  | nil => intro m s hw _; exact (emit_nil s hw).symm
  | @cons e f es fs he _ ih =>
    intro m s hw hl
    rw [encode_cons] at hl ⊢
    simp only [List.length_append] at hl
    refine emit_seq hw (he m s hw (by omega)) (fun s' h1 h2 _ => ?_)
    exact ih m s' h1 (by omega)

theorem writeField_varint (tag : Nat) (b : Bytes) :
    writeAll [(tag, .varint b)] = encVarint (tag * 8 + 0) ++ b := by
  simp [writeAll, writeField, Raw.wireType]

theorem writeField_len (tag : Nat) (b : Bytes) :
    writeAll [(tag, .len b)] = encVarint (tag * 8 + 2) ++ (encVarint b.length ++ b) := by
  simp [writeAll, writeField, Raw.wireType]

theorem writeAll_cons (p : Nat × Raw) (l : List (Nat × Raw)) : writeAll (p :: l) = writeAll [p] ++ writeAll l := by
  simp [writeAll]

section
variable {α : Type}

/-- Tag and number. -/
theorem number_emit (tag v : Nat) (ht : tag < 2 ^ 32) (hv : v < 2 ^ 64) (s : OStream) (hw : s.Wf)
    (hl : s.written + (writeAll [(tag, .varint (encVarint v))]).length < 2 ^ 64) :
    ((writeTag s 0 tag).bind (fun s1 => writeVarint s1 v)) = emit (writeAll [(tag, .varint (encVarint v))]) s := by
  rw [writeField_varint] at hl ⊢
  simp only [List.length_append] at hl
  refine emit_seq hw (writeTag_emit 0 tag (by decide) ht s hw (by omega)) (fun s' h1 h2 _ => ?_)
  exact writeVarint_emit v hv s' h1 (by omega)

theorem string_emit (data : Bytes) (tag : Nat) (ht : tag < 2 ^ 32) (s : OStream) (hw : s.Wf)
    (hl : s.written + (writeAll [(tag, .len data)]).length < 2 ^ 64) :
    cbWriteString data tag s = emit (writeAll [(tag, .len data)]) s := by
  rw [writeField_len] at hl ⊢
  rw [List.length_append] at hl
  refine emit_seq hw (writeTag_emit 2 tag (by decide) ht s hw (by omega)) (fun s' h1 h2 _ => ?_)
  exact writeString_emit data s' h1 (by omega)

theorem nothing_emit (s : OStream) (hw : s.Wf) : (.ok s : Res OStream) = emit (writeAll []) s :=
  (emit_nil s hw).symm

theorem sub_emit {β} {inner : Enc β} {g : β → Bytes} (hi : Emits inner g) (tag : Nat) (ht : tag < 2 ^ 32) (m : β)
    (s : OStream) (hw : s.Wf) (hl : s.written + (writeAll [(tag, .len (g m))]).length < 2 ^ 64) :
    ((writeTag s 2 tag).bind (fun s1 => writeSub inner m s1)) = emit (writeAll [(tag, .len (g m))]) s := by
  rw [writeField_len] at hl ⊢
  rw [List.length_append] at hl
  refine emit_seq hw (writeTag_emit 2 tag (by decide) ht s hw (by omega)) (fun s' h1 h2 _ => ?_)
  exact writeSub_emit hi m s' h1 (by show _ + (encVarint (g m).length ++ g m).length < _; omega)

theorem strings_emit (l : List Bytes) (tag : Nat) (ht : tag < 2 ^ 32) (s : OStream) (hw : s.Wf)
    (hl : s.written + (writeAll ((l.map Raw.len).map (fun r => (tag, r)))).length < 2 ^ 64) :
    cbWriteStrings l tag s = emit (writeAll ((l.map Raw.len).map (fun r => (tag, r)))) s := by
  induction l generalizing s with
  | nil => exact nothing_emit s hw
  | cons d l ih =>
    rw [List.map_cons, List.map_cons, writeAll_cons] at hl ⊢
    rw [List.length_append] at hl
    refine emit_seq hw (string_emit d tag ht s hw (by omega)) (fun s' h1 h2 _ => ?_)
    exact ih s' h1 (by omega)

theorem elems_emit {β} {es : List (EField β)} {g : β → Bytes} (hi : Emits (encodeMsg es) g) (l : List β) (tag : Nat)
    (ht : tag < 2 ^ 32) (s : OStream) (hw : s.Wf)
    (hl : s.written + (writeAll ((l.map (fun b => Raw.len (g b))).map (fun r => (tag, r)))).length < 2 ^ 64) :
    cbWriteElems es l tag s = emit (writeAll ((l.map (fun b => Raw.len (g b))).map (fun r => (tag, r)))) s := by
  induction l generalizing s with
  | nil => exact nothing_emit s hw
  | cons d l ih =>
    rw [List.map_cons, List.map_cons, writeAll_cons] at hl ⊢
    rw [List.length_append] at hl
    have key : ((writeTag s 2 tag).bind (fun s1 => writeSub (encodeMsg es) d s1)).bind (fun s2 => cbWriteElems es l tag s2) =
        emit (writeAll [(tag, .len (g d))] ++ writeAll ((l.map (fun b => Raw.len (g b))).map (fun r => (tag, r)))) s :=
      emit_seq hw (sub_emit hi tag ht d s hw (by omega)) (fun s' h1 h2 _ => ih s' h1 (by omega))
    rw [← key]
    show (writeTag s 2 tag).bind _ = _
    cases writeTag s 2 tag <;> rfl

theorem zInt64 (tag : Nat) (get : α → BitVec 64) (set : α → BitVec 64 → α) (ht : tag < 2 ^ 32) :
    EncRef (eInt64 tag get) (int64L tag get set).field := by
  intro m s hw hl
  simp only [fieldBytes, int64L, int64F, eInt64, encodeField] at hl ⊢
  by_cases h : get m = 0
  · rw [if_pos h, if_pos h]; exact nothing_emit s hw
  · rw [if_neg h] at hl ⊢
    rw [if_neg h]
    exact number_emit tag _ ht (by omega) s hw hl

theorem zInt32 (tag : Nat) (get : α → BitVec 32) (set : α → BitVec 32 → α) (ht : tag < 2 ^ 32) :
    EncRef (eInt32 tag get) (int32L tag get set).field := by
  intro m s hw hl
  simp only [fieldBytes, int32L, int32F, eInt32, encodeField] at hl ⊢
  by_cases h : get m = 0
  · rw [if_pos h, if_pos h]; exact nothing_emit s hw
  · rw [if_neg h] at hl ⊢
    rw [if_neg h]
    exact number_emit tag _ ht (by have := ((get m).signExtend 64).isLt; omega) s hw hl

theorem zUint32 (tag : Nat) (get : α → BitVec 32) (set : α → BitVec 32 → α) (ht : tag < 2 ^ 32) :
    EncRef (eUint32 tag get) (uint32L tag get set).field := by
  intro m s hw hl
  simp only [fieldBytes, uint32L, uint32F, eUint32, encodeField] at hl ⊢
  by_cases h : get m = 0
  · rw [if_pos h, if_pos h]; exact nothing_emit s hw
  · rw [if_neg h] at hl ⊢
    rw [if_neg h]
    exact number_emit tag _ ht (by omega) s hw hl

theorem zBool (tag : Nat) (get : α → Bool) (set : α → Bool → α) (ht : tag < 2 ^ 32) :
    EncRef (eBool tag get) (boolL tag get set).field := by
  intro m s hw hl
  simp only [fieldBytes, boolL, boolF, eBool, encodeField] at hl ⊢
  by_cases h : get m = true
  · rw [if_pos h] at hl ⊢
    rw [if_neg (by simp [h])]
    exact number_emit tag 1 ht (by decide) s hw hl
  · rw [if_neg h, if_pos (by simpa using h)]; exact nothing_emit s hw

theorem zStr (tag : Nat) (get : α → Bytes) (set : α → Bytes → α) (ht : tag < 2 ^ 32) :
    EncRef (eStr tag get) (strL tag get set).field := by
  intro m s hw hl
  simp only [fieldBytes, strL, strF, eStr, encodeField] at hl ⊢
  by_cases h : get m = []
  · rw [if_pos h, if_pos h]; exact nothing_emit s hw
  · rw [if_neg h] at hl ⊢
    rw [if_neg h]
    exact string_emit _ tag ht s hw hl

theorem zVec (tag : Nat) (get : α → Bytes) (set : α → Bytes → α) (ht : tag < 2 ^ 32) :
    EncRef (eVec tag get) (bytesL tag get set).field :=
  fun m s hw hl => string_emit (get m) tag ht s hw hl

theorem zStrs (tag : Nat) (get : α → List Bytes) (set : α → List Bytes → α) (ht : tag < 2 ^ 32) :
    EncRef (eStrs tag get) (strListL tag get set).field :=
  fun m s hw hl => strings_emit (get m) tag ht s hw hl

theorem zElems {β} (tag : Nat) (es : List (EField β)) (fs : List (Field β)) (get : α → List β) (f : Field α)
    (htag : f.tag = tag) (henc : ∀ m, f.enc m = (get m).map (fun b => .len (encode fs b)))
    (h : EncList es fs) (ht : tag < 2 ^ 32) : EncRef (eElems tag es get) f := by
  intro m s hw hl
  simp only [fieldBytes, henc, htag] at hl ⊢
  exact elems_emit (encodeMsg_emits h) (get m) tag ht s hw hl

theorem zRep {β} (tag : Nat) (es : List (EField β)) (c : List (LField β)) (init : β) (get : α → List β)
    (set : α → List β → α) (h : EncList es (c.map (·.field))) (ht : tag < 2 ^ 32) :
    EncRef (eElems tag es get) (repL tag c init get set).field :=
  zElems tag es _ get _ rfl (fun _ => rfl) h ht

theorem zSub (tag : Nat) (es : List (EField α)) (c : List (LField α)) (has : α → Bool)
    (h : EncList es (c.map (·.field))) (ht : tag < 2 ^ 32) : EncRef (eSub tag has es) (subL tag c has).field := by
  intro m s hw hl
  simp only [fieldBytes, subL, subF, eSub, encodeField] at hl ⊢
  by_cases hp : has m = true
  · rw [if_pos hp] at hl ⊢
    rw [if_neg (by simp [hp])]
    exact sub_emit (encodeMsg_emits h) tag ht m s hw hl
  · rw [if_neg hp, if_pos (by simpa using hp)]; exact nothing_emit s hw

/-- A field that is never written. -/
theorem zNever (e : EField α) (f : Field α) (he : ∀ m s, encodeField e m s = .ok s) (hf : ∀ m, f.enc m = []) :
    EncRef e f := by
  intro m s hw hl
  rw [he m s, fieldBytes, hf m]
  exact nothing_emit s hw

theorem zCb (tag : Nat) : EncRef (xCb tag : EField α) (ignoredL tag).field :=
  zNever _ _ (fun _ _ => rfl) (fun _ => rfl)
theorem zXInt32 (tag : Nat) : EncRef (xInt32 tag : EField α) (dropIntL tag).field :=
  zNever _ _ (fun _ _ => rfl) (fun _ => rfl)
theorem zXInt64 (tag : Nat) : EncRef (xInt64 tag : EField α) (dropIntL tag).field :=
  zNever _ _ (fun _ _ => rfl) (fun _ => rfl)
theorem zXUint32 (tag : Nat) : EncRef (xUint32 tag : EField α) (dropUintL tag).field :=
  zNever _ _ (fun _ _ => rfl) (fun _ => rfl)
theorem zXBool (tag : Nat) : EncRef (xBool tag : EField α) (dropBoolL tag).field :=
  zNever _ _ (fun _ _ => rfl) (fun _ => rfl)
theorem zXSub (tag : Nat) (es : List (EField α)) (c : List (LField α)) : EncRef (xSub tag es) (dropSubL tag c).field :=
  zNever _ _ (fun _ _ => rfl) (fun _ => rfl)

end

/-! ### Tables -/

macro "enc_one" : tactic =>
  `(tactic| first
    | with_reducible exact zCb _ | with_reducible exact zXInt32 _ | with_reducible exact zXInt64 _
    | with_reducible exact zXUint32 _ | with_reducible exact zXBool _ | with_reducible exact zXSub _ _ _
    | with_reducible refine zStr _ _ _ ?_ ; decide
    | with_reducible refine zVec _ _ _ ?_ ; decide
    | with_reducible refine zInt32 _ _ _ ?_ ; decide
    | with_reducible refine zUint32 _ _ _ ?_ ; decide
    | with_reducible refine zInt64 _ _ _ ?_ ; decide
    | with_reducible refine zBool _ _ _ ?_ ; decide
    | with_reducible refine zStrs _ _ _ ?_ ; decide)

macro "enc_list" : tactic =>
  `(tactic| repeat' (first | exact EncList.nil | refine EncList.cons ?_ ?_ | enc_one))

theorem content_enc : EncList contentE (contentL.map (·.field)) := by
  simp only [contentE, contentL, List.map_cons, List.map_nil]
  enc_list

theorem payloadTopic_enc : EncList payloadTopicE (payloadTopicL.map (·.field)) := by
  simp only [payloadTopicE, payloadTopicL, List.map_cons, List.map_nil]
  enc_list

theorem payload_enc : EncList payloadE payloadCodec := by
  simp only [payloadE, payloadCodec, payloadL, List.map_cons, List.map_nil]
  enc_list
  · exact zSub _ _ _ _ payloadTopic_enc (by decide)
  · exact zSub _ _ _ _ content_enc (by decide)

theorem layer_enc : EncList layerE (layerL.map (·.field)) := by
  simp only [layerE, layerL, List.map_cons, List.map_nil]
  enc_list
  refine zSub _ _ _ _ ?_ (by decide)
  simp only [List.map_cons, List.map_nil]
  enc_list
  · refine zSub _ _ _ _ ?_ (by decide)
    simp only [List.map_cons, List.map_nil]
    enc_list
  · refine zSub _ _ _ _ ?_ (by decide)
    simp only [List.map_cons, List.map_nil]
    enc_list

theorem method_enc : EncList methodE (methodL.map (·.field)) := by
  simp only [methodE, methodL, List.map_cons, List.map_nil]
  enc_list

theorem attr_enc : EncList attrE (attrEntryL.map (·.field)) := by
  simp only [attrE, attrEntryL, List.map_cons, List.map_nil]
  enc_list

theorem process_enc : EncList processE (regProcessL.map (·.field)) := by
  simp only [processE, regProcessL, pStr, pInt, pEnum, hnameL, List.map_cons, List.map_nil]
  enc_list
  exact zSub _ _ _ _ (by simp only [regProcessStateL, pStr, pEnum, List.map_cons, List.map_nil]; enc_list) (by decide)

theorem service_enc : EncList serviceE (regServiceL.map (·.field)) := by
  simp only [serviceE, regServiceL, sStr, sInt, sUint, sMethodsL, hnameL, entityL, List.map_cons, List.map_nil]
  enc_list
  exact zRep _ _ _ _ _ _ method_enc (by decide)

theorem client_enc : EncList clientE (regClientL.map (·.field)) := by
  simp only [clientE, regClientL, cStr, cInt, cUint, cMethodsL, hnameL, entityL, List.map_cons, List.map_nil]
  enc_list
  exact zRep _ _ _ _ _ _ method_enc (by decide)

theorem topic_enc : EncList topicE (regTopicL.map (·.field)) := by
  simp only [topicE, regTopicL, tStr, tInt, tInt64, tLayersL, tAttrL, hnameL, entityL, List.map_cons, List.map_nil]
  enc_list
  · exact zRep _ _ _ _ _ _ layer_enc (by decide)
  · exact zElems _ _ _ _ _ rfl (fun _ => rfl) attr_enc (by decide)
  · exact zSub _ _ _ _ (by simp only [regDatatypeL, tStr, List.map_cons, List.map_nil]; enc_list) (by decide)

theorem reg_enc : EncList regE (regL.map (·.field)) := by
  simp only [regE, regL, List.map_cons, List.map_nil]
  enc_list
  · exact zSub _ _ _ _ (by simp only [regHostL, List.map_cons, List.map_nil]; enc_list) (by decide)
  · exact zSub _ _ _ _ process_enc (by decide)
  · exact zSub _ _ _ _ service_enc (by decide)
  · exact zSub _ _ _ _ topic_enc (by decide)
  · exact zSub _ _ _ _ client_enc (by decide)

theorem regList_enc :
    EncList regListE [{ tag := 1, enc := fun l => l.map (fun m => .len (serializeReg m)), dec := appendSample }] := by
  refine .cons ?_ .nil
  exact zElems 1 _ _ _ _ rfl (fun m => by simp [serializeReg]) reg_enc (by decide)

theorem request_enc : EncList requestE (requestL.map (·.field)) := by
  simp only [requestE, requestL, List.map_cons, List.map_nil]
  enc_list
  refine zSub _ _ _ _ ?_ (by decide)
  simp only [headerE, requestHeaderL, serviceHeaderL, List.map_cons, List.map_nil]
  enc_list

theorem response_enc : EncList responseE (responseL.map (·.field)) := by
  simp only [responseE, responseL, List.map_cons, List.map_nil]
  enc_list
  refine zSub _ _ _ _ ?_ (by decide)
  simp only [headerE, responseHeaderL, serviceHeaderL, List.map_cons, List.map_nil]
  enc_list

theorem log_enc : EncList logE (logL.map (·.field)) := by
  simp only [logE, logL, List.map_cons, List.map_nil]
  enc_list

theorem logList_enc : EncList logListE (logListL.map (·.field)) := by
  refine .cons ?_ .nil
  exact zRep _ _ _ _ _ _ log_enc (by decide)

theorem mProcess_enc : EncList mProcessE (monProcessL.map (·.field)) := by
  simp only [mProcessE, monProcessL, List.map_cons, List.map_nil]
  enc_list
  exact zSub _ _ _ _ (by simp only [monStateL, List.map_cons, List.map_nil]; enc_list) (by decide)

theorem mLayer_enc : EncList mLayerE (monLayerL.map (·.field)) := by
  simp only [mLayerE, monLayerL, List.map_cons, List.map_nil]
  enc_list

theorem mTopic_enc : EncList mTopicE (monTopicL.map (·.field)) := by
  simp only [mTopicE, monTopicL, monLayersL, monAttrL, List.map_cons, List.map_nil]
  enc_list
  · exact zRep _ _ _ _ _ _ mLayer_enc (by decide)
  · exact zElems _ _ _ _ _ rfl (fun _ => rfl) attr_enc (by decide)
  · exact zSub _ _ _ _ (by simp only [monDatatypeL, List.map_cons, List.map_nil]; enc_list) (by decide)

theorem mServer_enc : EncList mServerE (monServerL.map (·.field)) := by
  simp only [mServerE, monServerL, List.map_cons, List.map_nil]
  enc_list
  exact zRep _ _ _ _ _ _ method_enc (by decide)

theorem mClient_enc : EncList mClientE (monClientL.map (·.field)) := by
  simp only [mClientE, monClientL, List.map_cons, List.map_nil]
  enc_list
  exact zRep _ _ _ _ _ _ method_enc (by decide)

theorem topics_enc : EncRef topicsE monTopicsL.field := by
  intro m s hw hl
  simp only [fieldBytes, monTopicsL, List.map_append] at hl ⊢
  have e : ∀ a b : List (Nat × Raw), writeAll (a ++ b) = writeAll a ++ writeAll b := by
    intro a b; simp [writeAll]
  rw [e] at hl ⊢
  rw [List.length_append] at hl
  refine emit_seq hw (elems_emit (encodeMsg_emits mTopic_enc) m.publisher 4 (by decide) s hw (by omega)) ?_
  intro s' h1 h2 _
  exact elems_emit (encodeMsg_emits mTopic_enc) m.subscriber 4 (by decide) s' h1 (by omega)

theorem mon_enc : EncList monE (monL.map (·.field)) := by
  simp only [monE, monL, List.map_cons, List.map_nil]
  enc_list
  · exact zRep _ _ _ _ _ _ mProcess_enc (by decide)
  · exact zRep _ _ _ _ _ _ mServer_enc (by decide)
  · exact topics_enc
  · exact zRep _ _ _ _ _ _ mClient_enc (by decide)

/-! ### Whole messages -/

theorem resize_length (old : Bytes) (n : Nat) : (resize old n).length = n := by
  simp only [resize, List.length_append, List.length_take, List.length_replicate]; omega

theorem countPass_eq {α} {es : List (EField α)} {fs : List (Field α)} (h : EncList es fs) (m : α)
    (hl : (encode fs m).length < 2 ^ 64) : countPass es m = (encode fs m).length := by
  unfold countPass
  rw [encodeMsg_emits h m sizing sizing_wf (by show 0 + _ < _; omega)]
  show 0 + _ = _
  omega

theorem encodeBuffer_eq {α} {es : List (EField α)} {fs : List (Field α)} (h : EncList es fs) (m : α) (old : Bytes)
    (hl : (encode fs m).length < 2 ^ 64) : encodeBuffer es m old = .ok (encode fs m) := by
  unfold encodeBuffer
  rw [countPass_eq h m hl]
  have hlen := resize_length old (encode fs m).length
  rw [encodeMsg_emits h m _ (by intro _; simp only [fromBuffer]; omega) (by simp only [fromBuffer]; omega)]
  unfold emit
  rw [if_pos (by rfl), if_pos (by simp [fromBuffer])]
  simp only [Res.bind, fromBuffer, overwrite, List.take_zero, List.nil_append, Nat.zero_add]
  rw [List.drop_eq_nil_of_le (by omega), List.append_nil]

end Ecal.Pb
