import Verif.Wire.Registration

/-!
# nanopb's decoder, statement by statement

core/src/serialization/nanopb/nanopb/pb_decode.c and pb_common.c (the message format itself is
`Verif.Wire`).  A stream is a pointer into a byte array with a count of bytes left; a read outside
of the array, a write outside of the 10-byte scratch buffer and a shift by the width of the type or
more are the outcome `ub`; a loop that does not end is `stuck`.

Simplifications: integers of the counts (`size_t`) do not overflow (they are bounded by the size of
the message); error texts are dropped; after an error the contents of the target are not tracked
(every caller discards them or keeps what it had, see DESIGN.md); the branches for extensions,
fixed-size arrays, required fields, one-ofs, pointers and fixed-width numbers are left out since no
field table of the project uses them (core/src/serialization/nanopb/*.pb.h).
-/

namespace Ecal.Pb

open Ecal.Wire (Bytes)

/-- What a C function does: returns true with a result, returns false, undefined behaviour,
does not return. -/
inductive Res (α : Type) where
  | ok (a : α)
  | err
  | ub
  | stuck
deriving Repr, DecidableEq

def Res.bind {α β} : Res α → (α → Res β) → Res β
  | .ok a, f => f a
  | .err, _ => .err
  | .ub, _ => .ub
  | .stuck, _ => .stuck

/-- `pb_istream_t` over a buffer (pb_decode.h L31-54, `pb_istream_from_buffer` L142-164): the
array, the position of `state` in it, and `bytes_left`. -/
structure IStream where
  buf  : Bytes
  pos  : Nat
  left : Nat
deriving Repr, DecidableEq

/-- `pb_readbyte` (L124-140) with `buf_read` (L68-79). -/
def readByte (s : IStream) : Res (UInt8 × IStream) :=
  if s.left = 0 then .err
  else
    match s.buf[s.pos]? with
    | none => .ub
    | some b => .ok (b, { s with pos := s.pos + 1, left := s.left - 1 })

/-- `pb_read` into memory (L81-120). -/
def pbRead (s : IStream) (n : Nat) : Res (Bytes × IStream) :=
  if n = 0 then .ok ([], s)
  else if s.left < n then .err
  else if s.buf.length < s.pos + n then .ub
  else .ok ((s.buf.drop s.pos).take n, { s with pos := s.pos + n, left := s.left - n })

/-- `pb_read` with `buf == NULL` (L81-120): the pointer moves, nothing is read; moving it
beyond the end of the array is undefined too. -/
def pbSkip (s : IStream) (n : Nat) : Res IStream :=
  if n = 0 then .ok s
  else if s.left < n then .err
  else if s.buf.length < s.pos + n then .ub
  else .ok { s with pos := s.pos + n, left := s.left - n }

/-! ### Numbers -/

/-- `(uint32_t)x << pos` for a byte `x`. -/
def shl32 (x : UInt8) (pos : Nat) : Res (BitVec 32) :=
  if pos < 32 then .ok (x.toBitVec.setWidth 32 <<< pos) else .ub

/-- `(uint64_t)x << pos` for a byte `x`. -/
def shl64 (x : UInt8) (pos : Nat) : Res (BitVec 64) :=
  if pos < 64 then .ok (x.toBitVec.setWidth 64 <<< pos) else .ub

/-- The change of `result` in one round of the loop L199-229. -/
def varint32Step (b : UInt8) (pos : Nat) (r : BitVec 32) : Res (BitVec 32) :=
  if 32 ≤ pos then
    let signExt : UInt8 := if pos < 63 then 0xFF else 0x01
    if 64 ≤ pos ∨ ¬ ((b &&& 0x7F) = 0 ∨ (r >>> 31 ≠ 0 ∧ b = signExt)) then .err else .ok r
  else if pos = 28 then
    if (b &&& 0x70) ≠ 0 ∧ (b &&& 0x78) ≠ 0x78 then .err
    else (shl32 (b &&& 0x0F) pos).bind (fun x => .ok (r ||| x))
  else (shl32 (b &&& 0x7F) pos).bind (fun x => .ok (r ||| x))

/-- The loop L199-229; `bitpos` is 8 bits wide. -/
def varint32Loop : Nat → IStream → Nat → BitVec 32 → Res (BitVec 32 × IStream)
  | 0, _, _, _ => .stuck
  | f + 1, s, pos, r =>
    (readByte s).bind (fun p =>
      (varint32Step p.1 pos r).bind (fun r' =>
        if (p.1 &&& 0x80) ≠ 0 then varint32Loop f p.2 ((pos + 7) % 256) r' else .ok (r', p.2)))

/-- `pb_decode_varint32` (L170-239).  The `eof` flag is raised exactly when no byte is left at
the start. -/
def varint32 (s : IStream) : Res (BitVec 32 × IStream) :=
  (readByte s).bind (fun p =>
    if (p.1 &&& 0x80) = 0 then .ok (p.1.toBitVec.setWidth 32, p.2)
    else varint32Loop 10 p.2 7 ((p.1 &&& 0x7F).toBitVec.setWidth 32))

/-- The loop of `pb_decode_varint` (L248-258). -/
def varint64Loop : Nat → IStream → Nat → BitVec 64 → Res (BitVec 64 × IStream)
  | 0, _, _, _ => .stuck
  | f + 1, s, pos, r =>
    (readByte s).bind (fun p =>
      if 63 ≤ pos ∧ (p.1 &&& 0xFE) ≠ 0 then .err
      else
        (shl64 (p.1 &&& 0x7F) pos).bind (fun x =>
          if (p.1 &&& 0x80) ≠ 0 then varint64Loop f p.2 ((pos + 7) % 256) (r ||| x) else .ok (r ||| x, p.2)))

/-- `pb_decode_varint` (L242-262). -/
def varint64 (s : IStream) : Res (BitVec 64 × IStream) := varint64Loop 10 s 0 0

/-- `pb_skip_varint` (L265-274); every round takes a byte. -/
def skipVarintLoop : Nat → IStream → Res IStream
  | 0, _ => .stuck
  | f + 1, s =>
    (pbRead s 1).bind (fun p => if (p.1.headD 0 &&& 0x80) ≠ 0 then skipVarintLoop f p.2 else .ok p.2)

def skipVarint (s : IStream) : Res IStream := skipVarintLoop (s.left + 1) s

/-- `pb_skip_string` (L276-288). -/
def skipString (s : IStream) : Res IStream := (varint32 s).bind (fun p => pbSkip p.2 p.1.toNat)

/-- `pb_decode_tag` (L290-305): wire type and field number. -/
def decodeTag (s : IStream) : Res ((Nat × Nat) × IStream) :=
  (varint32 s).bind (fun p => .ok (((p.1 &&& 7).toNat, (p.1 >>> 3).toNat), p.2))

/-- `pb_skip_field` (L307-317). -/
def skipField (w : Nat) (s : IStream) : Res IStream :=
  match w with
  | 0 => skipVarint s
  | 1 => pbSkip s 8
  | 2 => skipString s
  | 5 => pbSkip s 4
  | _ => .err

/-! ### Values for callbacks -/

/-- Size of the scratch buffer (L786). -/
def scratchSize : Nat := 10

/-- The number branch of `read_raw_value` (L327-338): `acc` are the bytes written so far, the
next one goes to index `acc.length`. -/
def rawVarintLoop : Nat → IStream → Bytes → Res (Bytes × IStream)
  | 0, _, _ => .stuck
  | f + 1, s, acc =>
    if acc.length + 1 > scratchSize then .err
    else
      (pbRead s 1).bind (fun p =>
        if scratchSize ≤ acc.length then .ub
        else if (p.1.headD 0 &&& 0x80) ≠ 0 then rawVarintLoop f p.2 (acc ++ p.1) else .ok (acc ++ p.1, p.2))

/-- A fixed number of bytes into the scratch buffer (L340-346). -/
def rawFixed (s : IStream) (n : Nat) : Res (Bytes × IStream) :=
  (pbRead s n).bind (fun p => if scratchSize < n then .ub else .ok p)

/-- `read_raw_value` (L322-356). -/
def readRawValue (w : Nat) (s : IStream) : Res (Bytes × IStream) :=
  match w with
  | 0 => rawVarintLoop (scratchSize + 1) s []
  | 1 => rawFixed s 8
  | 5 => rawFixed s 4
  | _ => .err

/-- `pb_make_string_substream` (L361-374): the stream (with its count reduced) and the
sub-stream. -/
def makeSubstream (s : IStream) : Res (IStream × IStream) :=
  (varint32 s).bind (fun p =>
    if p.2.left < p.1.toNat then .err
    else .ok ({ p.2 with left := p.2.left - p.1.toNat }, { p.2 with left := p.1.toNat }))

/-- `pb_close_string_substream` (L376-389). -/
def closeSubstream (s sub : IStream) : Res IStream :=
  if sub.left ≠ 0 then (pbSkip sub sub.left).bind (fun sub' => .ok { s with pos := sub'.pos })
  else .ok { s with pos := sub.pos }

/-! ### Fields -/

/-- A decoder working on a stream and a target. -/
abbrev Dec (α : Type) := IStream → α → Res (α × IStream)

/-- Type of a field (`PB_LTYPE` and `PB_ATYPE`) with the place its value goes to: static
numbers, a static sub-message (its decoder), a callback. -/
inductive Kind (α : Type) where
  | bool (set : α → Bool → α)
  | int64 (set : α → BitVec 64 → α)
  | int32 (set : α → BitVec 32 → α)
  | uint32 (set : α → BitVec 32 → α)
  | sub (inner : Dec α)
  | callback (cb : Dec α)

/-- One row of a field table. -/
structure PbField (α : Type) where
  tag  : Nat
  kind : Kind α

/-- The loop of `decode_callback_field` (L764-772): as long as the callback leaves bytes and
takes some. -/
def cbLoop {α} (cb : Dec α) : Nat → Dec α
  | 0, _, _ => .stuck
  | f + 1, sub, st =>
    (cb sub st).bind (fun p =>
      if 0 < p.2.left ∧ p.2.left < sub.left then cbLoop cb f p.2 p.1 else .ok p)

/-- `decode_callback_field` (L751-795). -/
def decodeCallback {α} (cb : Dec α) (w : Nat) (s : IStream) (st : α) : Res (α × IStream) :=
  if w = 2 then
    (makeSubstream s).bind (fun p =>
      (cbLoop cb (p.2.left + 1) p.2 st).bind (fun q =>
        (closeSubstream p.1 q.2).bind (fun s' => .ok (q.1, s'))))
  else
    (readRawValue w s).bind (fun p =>
      (cb { buf := p.1, pos := 0, left := p.1.length } st).bind (fun q => .ok (q.1, p.2)))

/-- `pb_dec_submessage` (L1586-1636). -/
def decSubmessage {α} (inner : Dec α) (s : IStream) (st : α) : Res (α × IStream) :=
  (makeSubstream s).bind (fun p =>
    (inner p.2 st).bind (fun q => (closeSubstream p.1 q.2).bind (fun s' => .ok (q.1, s'))))

/-- `decode_field` (L797-823): `decode_static_field` (L466-476) with `decode_basic_field`
(L395-464), `pb_decode_bool` (L1345-1353), `pb_dec_varint` (L1424-1494); `decode_callback_field`. -/
def decodeField {α} (k : Kind α) (w : Nat) (s : IStream) (st : α) : Res (α × IStream) :=
  match k with
  | .bool set => if w ≠ 0 then .err else (varint32 s).bind (fun p => .ok (set st (p.1 != 0), p.2))
  | .int64 set => if w ≠ 0 then .err else (varint64 s).bind (fun p => .ok (set st p.1, p.2))
  | .int32 set => if w ≠ 0 then .err else (varint64 s).bind (fun p => .ok (set st (p.1.setWidth 32), p.2))
  | .uint32 set =>
    if w ≠ 0 then .err
    else
      (varint64 s).bind (fun p =>
        if (p.1.setWidth 32).setWidth 64 ≠ p.1 then .err else .ok (set st (p.1.setWidth 32), p.2))
  | .sub inner => if w ≠ 2 then .err else decSubmessage inner s st
  | .callback cb => decodeCallback cb w s st

/-! ### Messages -/

/-- `advance_iterator` (pb_common.c L122-154) with `n` fields. -/
def nextIndex (n j : Nat) : Nat := if j + 1 ≥ n then 0 else j + 1

/-- The scan of `pb_field_iter_find` (pb_common.c L218-238): from index `j` on, cyclically,
until back at `start`.  The preceding comparison of the lowest six bits only saves time. -/
def scan (tags : List Nat) (tag start : Nat) : Nat → Nat → Res (Bool × Nat)
  | 0, _ => .stuck
  | f + 1, j =>
    if tags[nextIndex tags.length j]? = some tag then .ok (true, nextIndex tags.length j)
    else if nextIndex tags.length j = start then .ok (false, start)
    else scan tags tag start f (nextIndex tags.length j)

/-- `pb_field_iter_find` (pb_common.c L195-244) from index `i`; `largest_tag` is the number of
the last field. -/
def iterFind (tags : List Nat) (i tag : Nat) : Res (Bool × Nat) :=
  if tags.getD i 0 = tag then .ok (true, i)
  else if tag > tags.getLastD 0 then .ok (false, i)
  else scan tags tag i (tags.length + 1) (if tag < tags.getD i 0 then tags.length else i)

/-- The loop of `pb_decode_inner` (pb_decode.c L1015-1111); `i` is the index of the field
iterator.  Every round takes a byte. -/
def decodeLoop {α} (fs : List (PbField α)) : Nat → Nat → IStream → α → Res (α × IStream)
  | 0, _, s, st => if s.left = 0 then .ok (st, s) else .stuck
  | f + 1, i, s, st =>
    if s.left = 0 then .ok (st, s)
    else
      match decodeTag s with
      | .err => if s.left = 0 then .ok (st, s) else .err
      | .ub => .ub
      | .stuck => .stuck
      | .ok ((w, t), s1) =>
        if t = 0 then .err
        else
          (iterFind (fs.map (·.tag)) i t).bind (fun it =>
            if it.1 then
              match fs[it.2]? with
              | none => .ub
              | some fl => (decodeField fl.kind w s1 st).bind (fun p => decodeLoop fs f it.2 p.2 p.1)
            else (skipField w s1).bind (fun s2 => decodeLoop fs f it.2 s2 st))

/-- `pb_decode` (L1181-1193) and, on a sub-message, `pb_decode_inner` (L989-1151). -/
def decodeMsg {α} (fs : List (PbField α)) : Dec α := fun s st => decodeLoop fs s.left 0 s st

/-! ### Callbacks of the project (core/src/serialization/ecal_serialize_common.cpp) -/

/-- `decode_string_field` (L62-72), `decode_bytes_field` (L121-131). -/
def cbString {α} (set : α → Bytes → α) : Dec α := fun s st =>
  (pbRead s s.left).bind (fun p => .ok (set st p.1, p.2))

/-- A callback field without decoder (`pb_default_field_callback`, pb_common.c L300-322). -/
def cbNone {α} : Dec α := fun s st => .ok (st, s)

/-- Repeated sub-messages: `decode_registration_layer_field` (L299-330),
`decode_service_methods_field` (L378-407), `decode_map_field` (L174-194) and the list fields of
ecal_serialize_{sample_registration,logging,monitoring}.cpp: decode into a fresh element, then add
it. -/
def cbElem {α β} (fs : List (PbField β)) (init : β) (add : α → β → α) : Dec α := fun s st =>
  (decodeMsg fs s init).bind (fun p => .ok (add st p.1, p.2))

/-! ### Whole messages -/

/-- `Buffer2…Struct`: `len` bytes at offset `off` of the memory `mem`. -/
def decodeBuffer {α} (fs : List (PbField α)) (mem : Bytes) (off len : Nat) (st : α) : Res α :=
  if len = 0 then .err
  else (decodeMsg fs { buf := mem, pos := off, left := len } st).bind (fun p => .ok p.1)

end Ecal.Pb
