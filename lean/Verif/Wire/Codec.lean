import Verif.Wire.Raw

/-!
# Messages: field tables, generic encoder and decoder

`pb_encode` (pb_encode.c L511-533) walks the field table; `pb_decode_inner` looks up the field
of each tag and skips unknown ones.  A message is a list of `Field`s over a state `α`; callback
fields (strings, repeated fields) and static fields (numbers, sub-messages) differ only in
`enc`/`dec`.
-/

namespace Ecal.Wire

/-- One row of a field table: what is written for a message `m`, and how a received value
changes the state. -/
structure Field (α : Type) where
  tag : Nat
  enc : α → List Raw
  dec : α → Raw → Option α

abbrev Codec (α : Type) := List (Field α)

/-- Occurrences written for `m`, in table order. -/
def rawOf {α} (c : Codec α) (m : α) : List (Nat × Raw) :=
  c.flatMap (fun f => (f.enc m).map (fun r => (f.tag, r)))

/-- `pb_encode` into a buffer of sufficient size (all serialisers size the buffer first). -/
def encode {α} (c : Codec α) (m : α) : Bytes := writeAll (rawOf c m)

/-- One round of `pb_decode_inner` (pb_decode.c L1036-1104). -/
def applyField {α} (c : Codec α) (s : α) (p : Nat × Raw) : Option α :=
  match c.find? (fun f => f.tag == p.1) with
  | none => some s
  | some f => f.dec s p.2

def applyAll {α} (c : Codec α) : α → List (Nat × Raw) → Option α
  | s, [] => some s
  | s, p :: l =>
    match applyField c s p with
    | none => none
    | some s' => applyAll c s' l

/-- `pb_decode` into the state `s`. -/
def decode {α} (c : Codec α) (s : α) (bs : Bytes) : Option α :=
  match readAll bs with
  | none => none
  | some l => applyAll c s l

/-! ### Field kinds -/

/-- `pb_decode_varint` on a static number field; other wire types are errors
(`decode_basic_field`, pb_decode.c L393-). -/
def asVarint : Raw → Option Nat
  | .varint b => (decVarint64 b 0 0).map Prod.fst
  | _ => none

/-- INT64: `pb_enc_varint`/`pb_dec_varint` with an 8-byte field; zero is not written
(`pb_check_proto3_default_value`, pb_encode.c L243-). -/
def int64F {α} (tag : Nat) (get : α → BitVec 64) (set : α → BitVec 64 → α) : Field α where
  tag := tag
  enc m := if get m = 0 then [] else [.varint (encVarint (get m).toNat)]
  dec s r := (asVarint r).map (fun v => set s (BitVec.ofNat 64 v))

/-- INT32: sign-extended to 64 bits on the wire, truncated on reading
(pb_decode.c L1475-1482). -/
def int32F {α} (tag : Nat) (get : α → BitVec 32) (set : α → BitVec 32 → α) : Field α where
  tag := tag
  enc m := if get m = 0 then [] else [.varint (encVarint ((get m).signExtend 64).toNat)]
  dec s r := (asVarint r).map (fun v => set s (BitVec.ofNat 32 v))

/-- UINT32 and UENUM: too large values are errors (pb_decode.c L1430-1452). -/
def uint32F {α} (tag : Nat) (get : α → BitVec 32) (set : α → BitVec 32 → α) : Field α where
  tag := tag
  enc m := if get m = 0 then [] else [.varint (encVarint (get m).toNat)]
  dec s r :=
    match asVarint r with
    | none => none
    | some v => if v < 2 ^ 32 then some (set s (BitVec.ofNat 32 v)) else none

/-- BOOL (`pb_enc_bool` L774-780, `pb_decode_bool`). -/
def boolF {α} (tag : Nat) (get : α → Bool) (set : α → Bool → α) : Field α where
  tag := tag
  enc m := if get m then [.varint (encVarint 1)] else []
  dec s r :=
    match r with
    | .varint b => (decVarint32 b).map (fun p => set s (p.1 != 0))
    | _ => none

/-- What a callback field receives (`decode_callback_field`, pb_decode.c L751-795): the bytes
of the value; a number may have at most ten bytes. -/
def callbackBytes : Raw → Option Bytes
  | .varint b => if b.length ≤ 10 then some b else none
  | r => some r.bytes

/-- `encode_string` / `decode_string` (core/src/serialization/ecal_serialize_common.cpp
L42-78) and `encode_bytes` of `SNanoBytes` (L83-102): empty strings are not written, a received
value replaces the old one. -/
def strF {α} (tag : Nat) (get : α → Bytes) (set : α → Bytes → α) : Field α where
  tag := tag
  enc m := if get m = [] then [] else [.len (get m)]
  dec s r := (callbackBytes r).map (set s)

/-- `encode_bytes` of a vector (L104-121): written also when empty. -/
def bytesF {α} (tag : Nat) (get : α → Bytes) (set : α → Bytes → α) : Field α where
  tag := tag
  enc m := [.len (get m)]
  dec s r := (callbackBytes r).map (set s)

/-- A callback field without decoder or encoder: ignored
(`pb_default_field_callback`). -/
def ignoredF {α} (tag : Nat) : Field α where
  tag := tag
  enc _ := []
  dec s r := (callbackBytes r).map (fun _ => s)

/-- A static sub-message whose fields live in the same state; written when `present`;
received ones are merged (`pb_dec_submessage`, pb_decode.c L1586-1636, PB_DECODE_NOINIT). -/
def subF {α} (tag : Nat) (c : Codec α) (present : α → Bool) : Field α where
  tag := tag
  enc m := if present m then [.len (encode c m)] else []
  dec s r :=
    match r with
    | .len b => decode c s b
    | _ => none

/-- Repeated sub-messages by callback: each occurrence is decoded into a fresh element
`init` and appended as `fin` of it (ecal_serialize_common.cpp L249-413). -/
def repF {α β} (tag : Nat) (c : Codec β) (init : β) (get : α → List β) (set : α → List β → α) : Field α where
  tag := tag
  enc m := (get m).map (fun b => .len (encode c b))
  dec s r :=
    match callbackBytes r with
    | none => none
    | some b =>
      match decode c init b with
      | none => none
      | some e => some (set s (get s ++ [e]))

/-- Repeated strings by callback (L205-244). -/
def strListF {α} (tag : Nat) (get : α → List Bytes) (set : α → List Bytes → α) : Field α where
  tag := tag
  enc m := (get m).map .len
  dec s r := (callbackBytes r).map (fun b => set s (get s ++ [b]))

/-! ### Round trip -/

/-- A field with its transfer function: `put m s` is the state after `s` received everything
written for `m`. -/
structure LField (α : Type) where
  field : Field α
  put : α → α → α

/-- Correctness of a field for message `m`. -/
structure LField.Ok {α} (f : LField α) (m : α) : Prop where
  raw : ∀ r ∈ f.field.enc m, r.bytes.length < 2 ^ 32 → r.Ok
  law : ∀ s, (∀ r ∈ f.field.enc m, r.bytes.length < 2 ^ 32) →
    (f.field.enc m).foldl (fun o r => o.bind (fun s => f.field.dec s r)) (some s) = some (f.put m s)

/-- All transfers in order. -/
def puts {α} (c : List (LField α)) (m s : α) : α := c.foldl (fun s f => f.put m s) s

/-- Field numbers are admissible and distinct. -/
def tagsOk {α} (c : Codec α) : Bool :=
  c.all (fun f => decide (0 < f.tag) && decide (f.tag < 2 ^ 29)) && decide ((c.map (·.tag)).Nodup)

theorem applyAll_append {α} (c : Codec α) (s : α) (l1 l2 : List (Nat × Raw)) :
    applyAll c s (l1 ++ l2) = (applyAll c s l1).bind (fun s' => applyAll c s' l2) := by
  induction l1 generalizing s with
  | nil => rfl
  | cons p l1 ih =>
    simp only [List.cons_append, applyAll]
    cases applyField c s p with
    | none => rfl
    | some s' => exact ih s'

theorem find_tag {α} (c : Codec α) (hn : (c.map (·.tag)).Nodup) (f : Field α) (hf : f ∈ c) :
    c.find? (fun g => g.tag == f.tag) = some f := by
  induction c with
  | nil => simp at hf
  | cons g c ih =>
    rw [List.map_cons, List.nodup_cons] at hn
    rcases List.mem_cons.1 hf with rfl | hm
    · simp
    · have : (g.tag == f.tag) = false := by
        simp only [beq_eq_false_iff_ne]
        intro e
        exact hn.1 (e ▸ List.mem_map_of_mem hm)
      rw [List.find?_cons, this]
      exact ih hn.2 hm

theorem foldl_bind_none {α β} (l : List β) (g : α → β → Option α) :
    l.foldl (fun o r => o.bind (fun s => g s r)) none = none := by
  induction l with
  | nil => rfl
  | cons x l ih => exact ih

theorem applyAll_field {α} (c : Codec α) (hn : (c.map (·.tag)).Nodup) (f : Field α) (hf : f ∈ c) (s : α)
    (l : List Raw) :
    applyAll c s (l.map (fun r => (f.tag, r))) =
      l.foldl (fun o r => o.bind (fun s => f.dec s r)) (some s) := by
  induction l generalizing s with
  | nil => rfl
  | cons r l ih =>
    simp only [List.map_cons, applyAll, applyField, List.foldl_cons, Option.bind_some]
    rw [find_tag c hn f hf]
    simp only
    cases f.dec s r with
    | none => exact (foldl_bind_none l f.dec).symm
    | some s' => exact ih s'

/-- **Generic round trip.** A message of less than 4 GiB decoded into any state `s` yields the
transfers of its fields, whatever `s` contained before. -/
theorem decode_encode {α} (c : List (LField α)) (m s : α)
    (ht : tagsOk (c.map (·.field)) = true) (hok : ∀ f ∈ c, f.Ok m)
    (hl : (encode (c.map (·.field)) m).length < 2 ^ 32) :
    decode (c.map (·.field)) s (encode (c.map (·.field)) m) = some (puts c m s) := by
  simp only [tagsOk, Bool.and_eq_true, List.all_eq_true, decide_eq_true_eq] at ht
  obtain ⟨ht1, ht2⟩ := ht
  have hsize : ∀ f ∈ c, ∀ r ∈ f.field.enc m, r.bytes.length < 2 ^ 32 := by
    intro f hf r hr
    refine Nat.lt_of_le_of_lt (bytes_le_writeAll _ (f.field.tag, r) ?_) hl
    unfold rawOf
    rw [List.mem_flatMap]
    exact ⟨f.field, List.mem_map_of_mem hf, List.mem_map_of_mem hr⟩
  unfold decode
  have hr : readAll (encode (c.map (·.field)) m) = some (rawOf (c.map (·.field)) m) := by
    apply readAll_writeAll
    intro p hp
    unfold rawOf at hp
    rw [List.mem_flatMap] at hp
    obtain ⟨f', hf', hp⟩ := hp
    obtain ⟨r, hr, rfl⟩ := List.mem_map.1 hp
    obtain ⟨f, hf, rfl⟩ := List.mem_map.1 hf'
    have := ht1 f.field hf'
    exact ⟨this.1, this.2, (hok f hf).raw r hr (hsize f hf r hr)⟩
  rw [hr]
  simp only
  -- apply the fields in order, keeping the full table for the lookup
  suffices ∀ (l : List (LField α)) (s : α), (∀ f ∈ l, f ∈ c) →
      applyAll (c.map (·.field)) s (rawOf (l.map (·.field)) m) = some (puts l m s) from
    this c s (fun _ h => h)
  intro l
  induction l with
  | nil => intro s _; rfl
  | cons f l ih =>
    intro s hsub
    have e : rawOf ((f :: l).map (·.field)) m =
        (f.field.enc m).map (fun r => (f.field.tag, r)) ++ rawOf (l.map (·.field)) m := by
      simp [rawOf]
    have hf := hsub f (by simp)
    rw [e, applyAll_append, applyAll_field _ ht2 f.field (List.mem_map_of_mem hf),
      (hok f hf).law s (hsize f hf), Option.bind_some, ih _ (fun g hg => hsub g (by simp [hg]))]
    rfl

/-! ### Transfer functions of the field kinds -/

/-- What remains of the old value: replaced unless the new one is the default. -/
def orElse {β} [DecidableEq β] (dflt new old : β) : β := if new = dflt then old else new

@[simp] theorem orElse_default {β} [DecidableEq β] (d x : β) : orElse d x d = x := by
  unfold orElse; split <;> simp_all

@[simp] theorem callbackBytes_len (b : Bytes) : callbackBytes (.len b) = some b := rfl

theorem asVarint_enc (n : Nat) (h : n < 2 ^ 64) : asVarint (.varint (encVarint n)) = some n := by
  have := decVarint64_encVarint n h []
  rw [List.append_nil] at this
  simp [asVarint, this]

def int64L {α} (tag : Nat) (get : α → BitVec 64) (set : α → BitVec 64 → α) : LField α where
  field := int64F tag get set
  put m s := set s (orElse 0 (get m) (get s))

theorem int64L_ok {α} (tag : Nat) (get : α → BitVec 64) (set : α → BitVec 64 → α)
    (hs : ∀ s, set s (get s) = s) (m : α) : (int64L tag get set).Ok m := by
  constructor
  · intro r hr _
    simp only [int64L, int64F] at hr
    split at hr
    · simp at hr
    · simp at hr; subst hr; exact ⟨_, (get m).isLt, rfl⟩
  · intro s _
    simp only [int64L, int64F, orElse]
    split
    · simp [hs]
    · simp [asVarint_enc _ (get m).isLt]

def int32L {α} (tag : Nat) (get : α → BitVec 32) (set : α → BitVec 32 → α) : LField α where
  field := int32F tag get set
  put m s := set s (orElse 0 (get m) (get s))

theorem signExtend_trunc (x : BitVec 32) : (x.signExtend 64).setWidth 32 = x := by
  apply BitVec.eq_of_getLsbD_eq
  intro i hi
  simp only [BitVec.getLsbD_setWidth, BitVec.getLsbD_signExtend, hi, show i < 64 by omega, decide_true,
    Bool.true_and, if_true]

theorem int32L_ok {α} (tag : Nat) (get : α → BitVec 32) (set : α → BitVec 32 → α)
    (hs : ∀ s, set s (get s) = s) (m : α) : (int32L tag get set).Ok m := by
  constructor
  · intro r hr _
    simp only [int32L, int32F] at hr
    split at hr
    · simp at hr
    · simp at hr; subst hr; exact ⟨_, (BitVec.signExtend 64 (get m)).isLt, rfl⟩
  · intro s _
    simp only [int32L, int32F, orElse]
    split
    · simp [hs]
    · simp only [List.foldl_cons, List.foldl_nil, Option.bind_some]
      rw [asVarint_enc _ (BitVec.signExtend 64 (get m)).isLt]
      simp [signExtend_trunc]

def uint32L {α} (tag : Nat) (get : α → BitVec 32) (set : α → BitVec 32 → α) : LField α where
  field := uint32F tag get set
  put m s := set s (orElse 0 (get m) (get s))

theorem uint32L_ok {α} (tag : Nat) (get : α → BitVec 32) (set : α → BitVec 32 → α)
    (hs : ∀ s, set s (get s) = s) (m : α) : (uint32L tag get set).Ok m := by
  have h64 : (get m).toNat < 2 ^ 64 := Nat.lt_of_lt_of_le (get m).isLt (by decide)
  constructor
  · intro r hr _
    simp only [uint32L, uint32F] at hr
    split at hr
    · simp at hr
    · simp at hr; subst hr; exact ⟨_, h64, rfl⟩
  · intro s _
    simp only [uint32L, uint32F, orElse]
    split
    · simp [hs]
    · simp only [List.foldl_cons, List.foldl_nil, Option.bind_some]
      rw [asVarint_enc _ h64]
      simp only
      rw [if_pos (get m).isLt]
      simp

def boolL {α} (tag : Nat) (get : α → Bool) (set : α → Bool → α) : LField α where
  field := boolF tag get set
  put m s := set s (orElse false (get m) (get s))

theorem boolL_ok {α} (tag : Nat) (get : α → Bool) (set : α → Bool → α)
    (hs : ∀ s, set s (get s) = s) (m : α) : (boolL tag get set).Ok m := by
  constructor
  · intro r hr _
    simp only [boolL, boolF] at hr
    split at hr
    · simp at hr; subst hr; exact ⟨1, by decide, rfl⟩
    · simp at hr
  · intro s _
    simp only [boolL, boolF, orElse]
    cases hg : get m with
    | false => simp [hs]
    | true =>
      have : decVarint32 (encVarint 1) = some (1, []) := by decide +kernel
      simp [this]

def strL {α} (tag : Nat) (get : α → Bytes) (set : α → Bytes → α) : LField α where
  field := strF tag get set
  put m s := set s (orElse [] (get m) (get s))

theorem strL_ok {α} (tag : Nat) (get : α → Bytes) (set : α → Bytes → α)
    (hs : ∀ s, set s (get s) = s) (m : α) : (strL tag get set).Ok m := by
  constructor
  · intro r hr hl
    simp only [strL, strF] at hr
    split at hr
    · simp at hr
    · simp at hr; subst hr; exact hl
  · intro s _
    simp only [strL, strF, orElse]
    split
    · simp [hs]
    · simp [callbackBytes, Raw.bytes]

def bytesL {α} (tag : Nat) (get : α → Bytes) (set : α → Bytes → α) : LField α where
  field := bytesF tag get set
  put m s := set s (get m)

theorem bytesL_ok {α} (tag : Nat) (get : α → Bytes) (set : α → Bytes → α) (m : α) :
    (bytesL tag get set).Ok m := by
  constructor
  · intro r hr hl
    simp only [bytesL, bytesF] at hr
    simp at hr; subst hr; exact hl
  · intro s _
    simp [bytesL, bytesF, callbackBytes, Raw.bytes]

def ignoredL {α} (tag : Nat) : LField α where
  field := ignoredF tag
  put _ s := s

theorem ignoredL_ok {α} (tag : Nat) (m : α) : (ignoredL tag).Ok m := by
  constructor
  · intro r hr _; simp [ignoredL, ignoredF] at hr
  · intro s _; simp [ignoredL, ignoredF]

def subL {α} (tag : Nat) (c : List (LField α)) (present : α → Bool) : LField α where
  field := subF tag (c.map (·.field)) present
  put m s := if present m then puts c m s else s

theorem subL_ok {α} (tag : Nat) (c : List (LField α)) (present : α → Bool) (m : α)
    (ht : tagsOk (c.map (·.field)) = true) (hok : ∀ f ∈ c, f.Ok m) : (subL tag c present).Ok m := by
  constructor
  · intro r hr hl
    simp only [subL, subF] at hr
    split at hr
    · simp at hr; subst hr; exact hl
    · simp at hr
  · intro s hl
    simp only [subL, subF] at hl ⊢
    split
    · next hp =>
      simp only [hp, if_true, List.mem_singleton, forall_eq, Raw.bytes] at hl
      simp only [List.foldl_cons, List.foldl_nil, Option.bind_some]
      exact decode_encode c m s ht hok hl
    · rfl

def repL {α β} (tag : Nat) (c : List (LField β)) (init : β) (get : α → List β) (set : α → List β → α) :
    LField α where
  field := repF tag (c.map (·.field)) init get set
  put m s := set s (get s ++ (get m).map (fun b => puts c b init))

theorem repL_ok {α β} (tag : Nat) (c : List (LField β)) (init : β) (get : α → List β) (set : α → List β → α)
    (m : α) (hs : ∀ s, set s (get s) = s) (hgs : ∀ s l, get (set s l) = l)
    (hss : ∀ s l l', set (set s l) l' = set s l')
    (ht : tagsOk (c.map (·.field)) = true) (hok : ∀ b ∈ get m, ∀ f ∈ c, f.Ok b) :
    (repL tag c init get set).Ok m := by
  constructor
  · intro r hr hl
    simp only [repL, repF, List.mem_map] at hr
    obtain ⟨b, _, rfl⟩ := hr
    exact hl
  · intro s hl
    simp only [repL, repF] at hl ⊢
    generalize get m = l at hok hl
    induction l generalizing s with
    | nil => simp [hs]
    | cons b l ih =>
      simp only [List.map_cons, List.foldl_cons, Option.bind_some]
      have hb := hl (.len (encode (c.map (·.field)) b)) (by simp)
      simp only [Raw.bytes] at hb
      simp only [callbackBytes_len]
      rw [decode_encode c b init ht (hok b (by simp)) hb]
      simp only
      rw [ih (set s (get s ++ [puts c b init])) (fun x hx => hok x (by simp [hx]))
        (fun r hr => hl r (by rw [List.map_cons]; exact List.mem_cons_of_mem _ hr))]
      rw [hgs, hss]
      simp

def strListL {α} (tag : Nat) (get : α → List Bytes) (set : α → List Bytes → α) : LField α where
  field := strListF tag get set
  put m s := set s (get s ++ get m)

theorem strListL_ok {α} (tag : Nat) (get : α → List Bytes) (set : α → List Bytes → α) (m : α)
    (hs : ∀ s, set s (get s) = s) (hgs : ∀ s l, get (set s l) = l)
    (hss : ∀ s l l', set (set s l) l' = set s l') : (strListL tag get set).Ok m := by
  constructor
  · intro r hr hl
    simp only [strListL, strListF, List.mem_map] at hr
    obtain ⟨b, _, rfl⟩ := hr
    exact hl
  · intro s _
    simp only [strListL, strListF]
    generalize get m = l
    induction l generalizing s with
    | nil => simp [hs]
    | cons b l ih =>
      simp only [List.map_cons, List.foldl_cons, Option.bind_some, callbackBytes_len, Option.map_some]
      rw [ih, hgs, hss]
      simp

/-! ### Known fields without a target: checked and dropped -/

/-- A static number field nobody reads. -/
def dropIntL {α} (tag : Nat) : LField α where
  field := { tag := tag, enc := fun _ => [], dec := fun s r => (asVarint r).map (fun _ => s) }
  put _ s := s

/-- A static UINT32/UENUM field nobody reads. -/
def dropUintL {α} (tag : Nat) : LField α where
  field := { tag := tag, enc := fun _ => [],
             dec := fun s r => (asVarint r).bind (fun v => if v < 2 ^ 32 then some s else none) }
  put _ s := s

/-- A static BOOL field nobody reads. -/
def dropBoolL {α} (tag : Nat) : LField α where
  field := { tag := tag, enc := fun _ => [],
             dec := fun s r => match r with | .varint b => (decVarint32 b).map (fun _ => s) | _ => none }
  put _ s := s

theorem dropBoolL_ok {α} (tag : Nat) (m : α) : (dropBoolL tag).Ok m :=
  ⟨fun r hr _ => by simp [dropBoolL] at hr, fun s _ => by simp [dropBoolL]⟩

theorem dropIntL_ok {α} (tag : Nat) (m : α) : (dropIntL tag).Ok m :=
  ⟨fun r hr _ => by simp [dropIntL] at hr, fun s _ => by simp [dropIntL]⟩

theorem dropUintL_ok {α} (tag : Nat) (m : α) : (dropUintL tag).Ok m :=
  ⟨fun r hr _ => by simp [dropUintL] at hr, fun s _ => by simp [dropUintL]⟩

/-- A sub-message nobody writes. -/
def dropSubL {α} (tag : Nat) (c : List (LField α)) : LField α := subL tag c (fun _ => false)

theorem dropSubL_ok {α} (tag : Nat) (c : List (LField α)) (m : α) : (dropSubL tag c).Ok m :=
  ⟨fun r hr _ => by simp [dropSubL, subL, subF] at hr, fun s _ => by simp [dropSubL, subL, subF]⟩

/-- Proves `Ok` of one field of a table over a structure. -/
macro "field_ok" : tactic => `(tactic| first
  | exact int64L_ok _ _ _ (fun _ => rfl) _
  | exact int32L_ok _ _ _ (fun _ => rfl) _
  | exact uint32L_ok _ _ _ (fun _ => rfl) _
  | exact boolL_ok _ _ _ (fun _ => rfl) _
  | exact strL_ok _ _ _ (fun _ => rfl) _
  | exact bytesL_ok _ _ _ _
  | exact ignoredL_ok _ _
  | exact dropIntL_ok _ _
  | exact dropUintL_ok _ _
  | exact dropBoolL_ok _ _
  | exact dropSubL_ok _ _ _
  | exact strListL_ok _ _ _ _ (fun _ => rfl) (fun _ _ => rfl) (fun _ _ _ => rfl))

/-- Proves `Ok` of all leading simple fields of a table. -/
macro "table_ok" : tactic => `(tactic| repeat
  (first
    | (refine List.forall_mem_cons.2 ⟨by field_ok, ?_⟩)
    | exact (fun _ h => absurd h List.not_mem_nil)))

end Ecal.Wire
