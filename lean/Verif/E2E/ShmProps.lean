import Verif.E2E.Shm
import Verif.E2E.NetProps
import Verif.Shm.MemFileProps

/-! # Property C105: samples over shared memory, from `Send` to the subscriber -/

namespace Ecal.E2E.Shm

open Ecal.Shm

/-! ## Header bytes -/

@[simp] theorem length_le (n x : Nat) : (le n x).length = n := by
  induction n generalizing x with
  | zero => rfl
  | succ n ih => simp [le, ih]

@[simp] theorem length_pad (n : Nat) (j : Bytes) : (pad n j).length = n := by
  simp [pad]

theorem unle_le (n x : Nat) (h : x < 256 ^ n) : unle (le n x) = x := by
  induction n generalizing x with
  | zero => simp at h; subst h; rfl
  | succ n ih =>
    have h1 : x / 256 < 256 ^ n := by
      rw [Nat.pow_succ] at h
      exact Nat.div_lt_of_lt_mul (by omega)
    simp only [le, unle, ih _ h1]
    have : (UInt8.ofNat (x % 256)).toNat = x % 256 := by
      rw [UInt8.toNat_ofNat']; omega
    rw [this]; omega

@[simp] theorem length_bytes (j : Bytes × Bytes) (h : Hdr) : (h.bytes j).length = 64 := by
  simp [Hdr.bytes]

/-- Members within the range of their types. -/
structure Hdr.InRange (h : Hdr) : Prop where
  a : h.hdrSize < 256 ^ 2
  b : h.dataSize < 256 ^ 8
  c : h.id < 256 ^ 8
  d : h.clock < 256 ^ 8
  e : h.time < 256 ^ 8
  f : h.hash < 256 ^ 8
  g : h.flags < 256 ^ 1
  i : h.ack < 256 ^ 8

theorem field_at (pre x post : Bytes) (off n : Nat) (h1 : pre.length = off) (h2 : x.length = n) :
    field (pre ++ (x ++ post)) off n = unle x := by
  subst h1 h2
  simp [field]

theorem ofBytes_bytes (j : Bytes × Bytes) (h : Hdr) (hr : h.InRange) (post : Bytes) :
    ofBytes (h.bytes j ++ post) = h := by
  have key : ∀ pre x post' off n v, h.bytes j ++ post = pre ++ (le n v ++ post') → x = v → pre.length = off →
      v < 256 ^ n → field (h.bytes j ++ post) off n = x := by
    intro pre x post' off n v he hx hl hv
    rw [he, field_at _ _ _ _ _ hl (length_le n v), unle_le n v hv, hx]
  have e1 := key [] h.hdrSize (pad 6 j.1 ++ le 8 h.dataSize ++ le 8 h.id ++ le 8 h.clock ++ le 8 h.time
    ++ le 8 h.hash ++ le 1 h.flags ++ pad 7 j.2 ++ le 8 h.ack ++ post) 0 2 h.hdrSize
    (by simp [Hdr.bytes]) rfl rfl hr.a
  have e2 := key (le 2 h.hdrSize ++ pad 6 j.1) h.dataSize (le 8 h.id ++ le 8 h.clock ++ le 8 h.time
    ++ le 8 h.hash ++ le 1 h.flags ++ pad 7 j.2 ++ le 8 h.ack ++ post) 8 8 h.dataSize
    (by simp [Hdr.bytes]) rfl (by simp) hr.b
  have e3 := key (le 2 h.hdrSize ++ pad 6 j.1 ++ le 8 h.dataSize) h.id (le 8 h.clock ++ le 8 h.time
    ++ le 8 h.hash ++ le 1 h.flags ++ pad 7 j.2 ++ le 8 h.ack ++ post) 16 8 h.id
    (by simp [Hdr.bytes]) rfl (by simp) hr.c
  have e4 := key (le 2 h.hdrSize ++ pad 6 j.1 ++ le 8 h.dataSize ++ le 8 h.id) h.clock (le 8 h.time
    ++ le 8 h.hash ++ le 1 h.flags ++ pad 7 j.2 ++ le 8 h.ack ++ post) 24 8 h.clock
    (by simp [Hdr.bytes]) rfl (by simp) hr.d
  have e5 := key (le 2 h.hdrSize ++ pad 6 j.1 ++ le 8 h.dataSize ++ le 8 h.id ++ le 8 h.clock) h.time
    (le 8 h.hash ++ le 1 h.flags ++ pad 7 j.2 ++ le 8 h.ack ++ post) 32 8 h.time
    (by simp [Hdr.bytes]) rfl (by simp) hr.e
  have e6 := key (le 2 h.hdrSize ++ pad 6 j.1 ++ le 8 h.dataSize ++ le 8 h.id ++ le 8 h.clock ++ le 8 h.time)
    h.hash (le 1 h.flags ++ pad 7 j.2 ++ le 8 h.ack ++ post) 40 8 h.hash
    (by simp [Hdr.bytes]) rfl (by simp) hr.f
  have e7 := key (le 2 h.hdrSize ++ pad 6 j.1 ++ le 8 h.dataSize ++ le 8 h.id ++ le 8 h.clock ++ le 8 h.time
    ++ le 8 h.hash) h.flags (pad 7 j.2 ++ le 8 h.ack ++ post) 48 1 h.flags
    (by simp [Hdr.bytes]) rfl (by simp) hr.g
  have e8 := key (le 2 h.hdrSize ++ pad 6 j.1 ++ le 8 h.dataSize ++ le 8 h.id ++ le 8 h.clock ++ le 8 h.time
    ++ le 8 h.hash ++ le 1 h.flags ++ pad 7 j.2) h.ack post 56 8 h.ack
    (by simp [Hdr.bytes]) rfl (by simp) hr.i
  unfold ofBytes
  rw [e1, e2, e3, e4, e5, e6, e7, e8]

theorem dflt_range : Hdr.InRange {} := by constructor <;> decide

/-- A reader with the lock. -/
def rdOf (f : File) : Handle := { access := .read, max := f.max, cur := f.cur }

theorem contents_length (f : File) (hf : f.Ok) : (contents f).length = f.cur := by
  unfold contents
  have := hf.1
  have := hf.2
  simp; omega

theorem read_front (f : File) (n off : Nat) (hn : 0 < n) (h : n + off ≤ f.cur) :
    read f (rdOf f) n off = some (((contents f).drop off).take n) := by
  have h1 : n + off ≠ 0 := by omega
  have hc : canRead (rdOf f) (n + off) = true := by
    simp only [canRead, rdOf, Bool.true_and, bne_iff_ne, ne_eq, h1, not_false_eq_true,
      Bool.and_eq_true, beq_self_eq_true, true_and]
    exact decide_eq_true h
  simp only [Ecal.Shm.read, hc, if_true, contents, List.drop_take, List.take_take]
  rw [Nat.min_eq_left (by omega)]

/-- The header found in a file that holds one. -/
theorem readHeader_eq (f : File) (hf : f.Ok) (j : Bytes × Bytes) (h : Hdr) (hr : h.InRange)
    (hs : h.hdrSize = 64) (c : Bytes) (hc : contents f = h.bytes j ++ c) :
    readHeader f (rdOf f) = h ∧ f.cur = 64 + c.length := by
  have hcur : f.cur = 64 + c.length := by
    rw [← contents_length f hf, hc]; simp
  refine ⟨?_, hcur⟩
  unfold readHeader
  rw [if_pos (by show f.cur ≥ 2; omega)]
  have hb : readInto f (rdOf f) dflt 2 = le 2 64 ++ dflt.drop 2 := by
    unfold readInto
    rw [read_front f 2 0 (by omega) (by omega)]
    simp only [hc, List.drop_zero]
    congr 1
    simp only [Hdr.bytes, List.append_assoc, hs]
    rw [List.take_append_of_le_length (by simp)]
    simp [List.take_of_length_le]
  have hf1 : field (readInto f (rdOf f) dflt 2) 0 2 = 64 := by rw [hb]; decide +kernel
  simp only [hf1, Nat.min_self]
  rw [if_pos (by show 64 ≤ f.cur; omega)]
  have hb2 : readInto f (rdOf f) (readInto f (rdOf f) dflt 2) 64 = h.bytes j := by
    rw [hb]
    unfold readInto
    rw [read_front f 64 0 (by omega) (by omega)]
    simp only [hc, List.drop_zero]
    rw [List.take_append_of_le_length (by simp), List.take_of_length_le (by simp)]
    have : (le 2 64 ++ dflt.drop 2).drop 64 = [] := by decide +kernel
    rw [this, List.append_nil]
  rw [hb2]
  have := ofBytes_bytes j h hr []
  simpa using this

/-! ## The invariant -/

/-- The copies that may be written: of this publisher, for shared memory, in the range of their
types, with counters below `B`. -/
structure Ok (wc : Writer.Config) (h : List Writer.Op) (B : Int) (s : Reader.Sample) : Prop where
  copy  : Copy wc h s
  layer : s.layer = .shm
  len   : s.payload.length < 2 ^ 64
  below : s.clock < B

/-- Inputs: what is written are copies of the publisher's samples, by a payload that delivers
their bytes. -/
def Writes (wc : Writer.Config) (h : List Writer.Op) : In → Prop
  | .write s p o => (∃ cs ∈ (Writer.run wc Writer.init h).2, s ∈ cs) ∧ s.layer = .shm ∧
      s.payload.length < 2 ^ 64 ∧ (s.payload ≠ [] → p.Delivers s.payload) ∧ o.ack < 2 ^ 63
  | .app (.sample s) => s.tid ≠ wc.tid ∨ ∃ cs ∈ (Writer.run wc Writer.init h).2, s ∈ cs
  | _ => True

theorem hdrOf_range (wc h B s) (hs : Sane h) (hk : Ok wc h B s) (o : WOpt) (ho : o.ack < 2 ^ 63) :
    (hdrOf s o).InRange := by
  have hh := (hk.copy.ranges hs).2.2.2.2
  have hl := hk.len
  constructor
  · show 64 < _
    decide
  · exact hl
  · exact BitVec.isLt _
  · exact BitVec.isLt _
  · exact BitVec.isLt _
  · exact hh
  · show (if o.flags then 1 else 0) < _
    split <;> decide
  · show o.ack < 2 ^ 64
    omega

/-- The header bytes carry the sample. -/
theorem sampleOf_hdrOf (wc h B s) (hs : Sane h) (hk : Ok wc h B s) (o : WOpt) :
    sampleOf wc.tid (hdrOf s o) s.payload = s := by
  obtain ⟨r1, r2, r3, r4, _⟩ := hk.copy.ranges hs
  unfold sampleOf hdrOf
  simp only [BitVec.ofNat_toNat, BitVec.setWidth_eq]
  rw [toInt_ofInt64 _ r2, toInt_ofInt64 _ r3, toInt_ofInt64 _ r4, ← r1, ← hk.layer]

/-- What a file holds: nothing yet, or a complete sample with a counter below `B`. -/
structure Good (wc : Writer.Config) (h : List Writer.Op) (B : Int) (g : Seg) : Prop where
  ok    : g.f.Ok
  cr    : g.w.created = true
  max   : g.w.max = g.f.max
  holds : (∃ j, contents g.f = Hdr.bytes j {}) ∨
    ∃ j s o, Ok wc h B s ∧ o.ack < 2 ^ 63 ∧ contents g.f = (hdrOf s o).bytes j ++ s.payload

theorem Ok.mono {wc h B B' s} (hk : Ok wc h B s) (hb : B ≤ B') : Ok wc h B' s :=
  ⟨hk.copy, hk.layer, hk.len, Int.lt_of_lt_of_le hk.below hb⟩

theorem Good.mono {wc h B B' g} (hg : Good wc h B g) (hb : B ≤ B') : Good wc h B' g :=
  ⟨hg.ok, hg.cr, hg.max, hg.holds.imp id (fun ⟨j, s, o, hk, x⟩ => ⟨j, s, o, hk.mono hb, x⟩)⟩

theorem _root_.Ecal.E2E.Copy.clock_pos {wc h s} (c : Copy wc h s) : 0 < s.clock := by
  obtain ⟨cs, hcs, hmem⟩ := c.mem
  obtain ⟨i, m, l, hm, rfl⟩ := Writer.run_copies wc h Writer.init cs hcs s hmem
  simp only [Writer.copyOf, Writer.init]
  omega

/-- The counter in the header is the sample's. -/
theorem Ok.clock_eq {wc h B s} (hk : Ok wc h B s) (hs : Sane h) (o : WOpt) :
    ((hdrOf s o).clock : Int) = s.clock := by
  have h1 := (hk.copy.ranges hs).2.2.2.1
  have h2 := hk.copy.clock_pos
  show ((BitVec.ofInt 64 s.clock).toNat : Int) = s.clock
  rw [BitVec.toNat_ofInt]
  omega

theorem good_fresh (wc h B) (m n : Nat) (j : Bytes × Bytes) : Good wc h B (fresh m n j) := by
  have hle : 64 ≤ max (64 + n) m := by have := Nat.le_max_left (64 + n) m; omega
  refine ⟨⟨?_, hle⟩, rfl, rfl, .inl ⟨j, ?_⟩⟩
  · show (overwrite _ _ _).length = _
    rw [length_overwrite _ _ _ (by simp only [length_bytes, List.length_replicate]; omega)]
    simp only [List.length_replicate]
    rfl
  · show ((overwrite _ 0 _).take 64) = _
    have := overwrite_region (List.replicate (max (64 + n) m) 0) (Hdr.bytes j {}) 0 (by omega)
    rw [length_bytes] at this
    simpa using this

theorem good_put (wc h B) (g : Seg) (hg : Good wc h B g) (s) (hk : Ok wc h B s) (p : Payload)
    (hp : s.payload ≠ [] → p.Delivers s.payload) (o : WOpt) (ho : o.ack < 2 ^ 63) (force : Bool)
    (hfit : 64 + s.payload.length ≤ g.w.max) :
    Good wc h B (put g s p o force) ∧
      contents (put g s p o force).f = (hdrOf s o).bytes o.junk ++ s.payload := by
  obtain ⟨f', h', hw, a, b, c, d, _, e, _⟩ := writeSample_effect g.f
    { g.w with max := g.f.max, cur := g.f.cur, access := .write } ((hdrOf s o).bytes o.junk) s.payload p force
    hg.ok hg.cr rfl rfl (by intro hn; have := length_bytes o.junk (hdrOf s o); rw [hn] at this; cases this)
    (by rw [length_bytes, ← hg.max]; exact hfit) hp
  have hput : put g s p o force = { f := f', w := h' } := by
    unfold put
    rw [granted_write _ _ hg.cr]
    simp only [hw]
  rw [hput]
  exact ⟨⟨a, d, e.trans b.symm, .inr ⟨o.junk, s, o, hk, ho, c⟩⟩, c⟩

theorem good_prepare (wc h B) (g : Seg) (hg : Good wc h B g) (len : Nat) (o : WOpt) :
    Good wc h B (prepare g len o).1 ∧ 64 + len ≤ (prepare g len o).1.w.max := by
  unfold prepare
  by_cases hb : g.w.max < 64 + len
  · simp only [if_pos hb]
    have hm : 64 + len ≤ (fresh o.minSize (64 + len + o.extra) o.junk).w.max := by
      show _ ≤ max (64 + (64 + len + o.extra)) o.minSize
      have := Nat.le_max_left (64 + (64 + len + o.extra)) o.minSize
      omega
    split
    · exact ⟨good_fresh wc h B _ _ _, hm⟩
    · refine ⟨good_fresh wc h B _ _ _, ?_⟩
      show _ ≤ max (64 + (fresh o.minSize (64 + len + o.extra) o.junk).w.max) o.minSize
      have := Nat.le_max_left (64 + (fresh o.minSize (64 + len + o.extra) o.junk).w.max) o.minSize
      omega
  · simp only [if_neg hb]
    split
    · exact ⟨hg, by show 64 + len ≤ g.w.max; omega⟩
    · refine ⟨good_fresh wc h B _ _ _, ?_⟩
      show _ ≤ max (64 + g.w.max) o.minSize
      have := Nat.le_max_left (64 + g.w.max) o.minSize
      omega

theorem canRead_le (f : File) (n : Nat) (h0 : n ≠ 0) (h : n ≤ f.cur) : canRead (rdOf f) n = true := by
  simp only [canRead, rdOf, Bool.true_and, bne_iff_ne, ne_eq, h0, not_false_eq_true,
    Bool.and_eq_true, beq_self_eq_true, true_and]
  exact decide_eq_true h

/-- Processing a file that holds a sample passes on that sample. -/
theorem process_sample (wc h B) (hs : Sane h) (s) (hk : Ok wc h B s) (ob : Ob) (o : WOpt) (f : File)
    (j : Bytes × Bytes) (hc : contents f = (hdrOf s o).bytes j ++ s.payload)
    (hcur : f.cur = 64 + s.payload.length) :
    ∃ buf, process wc.tid ob (hdrOf s o) f (rdOf f) =
      ({ ob with last := (hdrOf s o).clock, buf := buf }, some s) := by
  have hso := sampleOf_hdrOf wc h B s hs hk o
  have hd : (hdrOf s o).dataSize = s.payload.length := rfl
  have hz : (hdrOf s o).hdrSize = 64 := rfl
  have hfl : (hdrOf s o).flags = if o.flags then 1 else 0 := rfl
  have hdat : ((contents f).drop 64).take s.payload.length = s.payload := by
    rw [hc, List.drop_append_of_le_length (by simp), List.drop_of_length_le (by simp)]
    simp
  have hdat2 : (f.data.drop 64).take s.payload.length = s.payload := by
    have := hdat
    simp only [contents, List.drop_take, List.take_take] at this
    rwa [Nat.min_eq_left (by omega)] at this
  unfold process
  simp only [hd, hz, hfl]
  cases o.flags
  · simp only [Bool.false_eq_true, if_false, Nat.zero_mod, Nat.zero_ne_one]
    by_cases h0 : s.payload.length = 0
    · have hp : s.payload = [] := List.length_eq_zero_iff.1 h0
      refine ⟨[], ?_⟩
      simp only [h0, ne_eq, not_true_eq_false, if_false, resize, List.take_zero, Nat.zero_sub,
        List.replicate_zero, List.append_nil]
      rw [hp] at hso
      rw [hso]
    · refine ⟨s.payload, ?_⟩
      rw [if_pos h0, read_front f _ _ (by omega) (by omega), hdat, Option.getD_some, hso]
  · simp only [if_true, Nat.one_mod]
    by_cases h0 : s.payload.length = 0
    · have hp : s.payload = [] := List.length_eq_zero_iff.1 h0
      rw [if_neg (by omega)]
      rw [hp] at hso
      exact ⟨ob.buf, by rw [hso]⟩
    · rw [if_pos (by omega), canRead_le f _ h0 (by omega)]
      simp only [if_true, hdat2, hso]
      exact ⟨ob.buf, rfl⟩

/-- A turn passes on nothing, or the sample the file holds. -/
theorem turn_good (wc h B) (hs : Sane h) (g : Seg) (hg : Good wc h B g) (ob : Ob) (sg ac : Bool)
    (s : Reader.Sample) (ht : (turn wc.tid ob sg ac g.f).2 = some s) : Ok wc h B s := by
  unfold turn at ht
  simp only at ht
  generalize (if ob.pending = true then ob else { ob with pending := sg }) = ob1 at ht
  by_cases hp : (ob1.pending && ac) = true
  · rw [if_pos hp] at ht
    change (if (readHeader g.f (rdOf g.f)).clock ≤ ob1.last then _ else
      process wc.tid _ (readHeader g.f (rdOf g.f)) g.f (rdOf g.f)).2 = _ at ht
    rcases hg.holds with ⟨j, hc⟩ | ⟨j, s0, o, hk, ho, hc⟩
    · obtain ⟨e, _⟩ := readHeader_eq g.f hg.ok j {} dflt_range rfl [] (by rw [hc]; simp)
      rw [e, if_pos (Nat.zero_le _)] at ht
      cases ht
    · obtain ⟨e, hcur⟩ := readHeader_eq g.f hg.ok j _ (hdrOf_range wc h B s0 hs hk o ho) rfl _ hc
      rw [e] at ht
      by_cases hl : (hdrOf s0 o).clock ≤ ob1.last
      · rw [if_pos hl] at ht; cases ht
      · rw [if_neg hl] at ht
        obtain ⟨buf, hpr⟩ := process_sample wc h B hs s0 hk { ob1 with pending := false } o g.f j hc hcur
        rw [hpr] at ht
        injection ht with ht
        exact ht ▸ hk
  · rw [if_neg hp] at ht
    cases ht

/-- After a turn the observer knows a counter it knew before, or that of a sample. -/
theorem turn_last (wc h B) (hs : Sane h) (g : Seg) (hg : Good wc h B g) (ob : Ob) (sg ac : Bool)
    (hl : (ob.last : Int) < B) : ((turn wc.tid ob sg ac g.f).1.last : Int) < B := by
  unfold turn
  simp only
  generalize hob : (if ob.pending = true then ob else { ob with pending := sg }) = ob1
  have hl1 : ob1.last = ob.last := by rw [← hob]; split <;> rfl
  by_cases hp : (ob1.pending && ac) = true
  · rw [if_pos hp]
    change ((if (readHeader g.f (rdOf g.f)).clock ≤ ob1.last then _ else
      process wc.tid _ (readHeader g.f (rdOf g.f)) g.f (rdOf g.f)).1.last : Int) < B
    rcases hg.holds with ⟨j, hc⟩ | ⟨j, s0, o, hk, ho, hc⟩
    · obtain ⟨e, _⟩ := readHeader_eq g.f hg.ok j {} dflt_range rfl [] (by rw [hc]; simp)
      rw [e, if_pos (Nat.zero_le _)]
      show (ob1.last : Int) < B
      omega
    · obtain ⟨e, hcur⟩ := readHeader_eq g.f hg.ok j _ (hdrOf_range wc h B s0 hs hk o ho) rfl _ hc
      rw [e]
      by_cases hle : (hdrOf s0 o).clock ≤ ob1.last
      · rw [if_pos hle]
        show (ob1.last : Int) < B
        omega
      · rw [if_neg hle]
        obtain ⟨buf, hpr⟩ := process_sample wc h B hs s0 hk { ob1 with pending := false } o g.f j hc hcur
        rw [hpr]
        show ((hdrOf s0 o).clock : Int) < B
        rw [hk.clock_eq hs]
        exact hk.below
  · rw [if_neg hp]
    show (ob1.last : Int) < B
    omega

/-- A signalled observer that gets the lock passes on a sample it has not seen. -/
theorem turn_new (wc h B) (hs : Sane h) (g : Seg) (hg : Good wc h B g) (s) (hk : Ok wc h B s) (o : WOpt)
    (ho : o.ack < 2 ^ 63) (j : Bytes × Bytes) (hc : contents g.f = (hdrOf s o).bytes j ++ s.payload)
    (ob : Ob) (sg : Bool) (hl : (ob.last : Int) < s.clock) (hsg : ob.pending = true ∨ sg = true) :
    (turn wc.tid ob sg true g.f).2 = some s := by
  unfold turn
  simp only
  generalize hob : (if ob.pending = true then ob else { ob with pending := sg }) = ob1
  have hl1 : ob1.last = ob.last := by rw [← hob]; split <;> rfl
  have hp1 : ob1.pending = true := by
    rw [← hob]
    split
    · assumption
    · rcases hsg with h1 | h1
      · contradiction
      · exact h1
  rw [hp1]
  simp only [Bool.and_true, if_true]
  change (if (readHeader g.f (rdOf g.f)).clock ≤ ob1.last then _ else
      process wc.tid _ (readHeader g.f (rdOf g.f)) g.f (rdOf g.f)).2 = some s
  obtain ⟨e, hcur⟩ := readHeader_eq g.f hg.ok j _ (hdrOf_range wc h B s hs hk o ho) rfl _ hc
  have hck := hk.clock_eq hs o
  rw [e, if_neg (by omega)]
  obtain ⟨buf, hpr⟩ := process_sample wc h B hs s hk { ob1 with pending := false } o g.f j hc hcur
  rw [hpr]

/-- Files and observers know only counters below `B`. -/
structure AllGood (wc : Writer.Config) (h : List Writer.Op) (B : Int) (y : Sys) : Prop where
  segs : ∀ g ∈ y.segs, Good wc h B g
  obs  : ∀ k, ((y.obs k).last : Int) < B

/-- Every sample written has a counter below `B`. -/
def Below (B : Int) : In → Prop
  | .write s _ _ => s.clock < B
  | _ => True

/-- A step: files stay good; the subscriber is called at most once, with a copy if under the
publisher's id. -/
theorem step_good (wc : Writer.Config) (h) (B : Int) (hB : 0 < B) (hs : Sane h) (rc : Reader.Config)
    (y y' : Sys) (i : In) (hi : Writes wc h i) (hbel : Below B i) (hg : AllGood wc h B y)
    (hst : step wc.tid rc y i = some y') :
    AllGood wc h B y' ∧
    ((y'.rd = y.rd ∧ y'.evs = y.evs) ∨
     ∃ op, y'.rd = (Reader.step rc y.rd op).1 ∧ y'.evs = y.evs ++ (Reader.step rc y.rd op).2 ∧
       ∀ s, op = .sample s → s.tid = wc.tid → Copy wc h s) := by
  cases i with
  | buffers n m j =>
    simp only [step] at hst
    split at hst
    · injection hst with hst; subst hst; exact ⟨hg, .inl ⟨rfl, rfl⟩⟩
    · split at hst
      · injection hst with hst; subst hst; exact ⟨hg, .inl ⟨rfl, rfl⟩⟩
      · injection hst with hst; subst hst
        refine ⟨⟨?_, hg.obs⟩, .inl ⟨rfl, rfl⟩⟩
        intro g hm
        rcases List.mem_append.1 hm with hm | hm
        · exact hg.segs g hm
        · rw [(List.mem_replicate.1 hm).2]; exact good_fresh wc h B _ _ _
  | write s p o =>
    obtain ⟨hc, hl, hlen, hp, ho⟩ := hi
    have hk : Ok wc h B s := ⟨⟨hc⟩, hl, hlen, hbel⟩
    simp only [step] at hst
    split at hst
    · cases hst
    · next k hk1 =>
      split at hst
      · cases hst
      · next g hgk =>
        have hgg : Good wc h B g := hg.segs g (List.mem_of_getElem? hgk)
        obtain ⟨a, b⟩ := good_prepare wc h B g hgg s.payload.length o
        have hg2 : Good wc h B (if o.refused ≥ 2 then (prepare g s.payload.length o).1 else
            put (prepare g s.payload.length o).1 s p o (decide (y.vec.length > 1))) := by
          split
          · exact a
          · exact (good_put wc h B _ a s hk p hp o ho _ b).1
        split at hst
        · injection hst with hst; subst hst
          refine ⟨⟨?_, hg.obs⟩, .inl ⟨rfl, rfl⟩⟩
          intro x hm
          rcases List.mem_append.1 hm with hm | hm
          · exact hg.segs x hm
          · rw [List.mem_singleton.1 hm]; exact hg2
        · injection hst with hst; subst hst
          refine ⟨⟨?_, hg.obs⟩, .inl ⟨rfl, rfl⟩⟩
          intro x hm
          rcases List.mem_or_eq_of_mem_set hm with hm | hm
          · exact hg.segs x hm
          · rw [hm]; exact hg2
  | turn k sg ac =>
    simp only [step] at hst
    split at hst
    · injection hst with hst; subst hst; exact ⟨hg, .inl ⟨rfl, rfl⟩⟩
    · next g hgk =>
      have hgg : Good wc h B g := hg.segs g (List.mem_of_getElem? hgk)
      have hobs : ∀ j, (((fun j => if j = k then (turn wc.tid (y.obs k) sg ac g.f).1 else y.obs j) j : Ob).last : Int)
          < B := by
        intro j
        simp only
        split
        · exact turn_last wc h B hs g hgg (y.obs k) sg ac (hg.obs k)
        · exact hg.obs j
      split at hst
      · injection hst with hst; subst hst; exact ⟨⟨hg.segs, hobs⟩, .inl ⟨rfl, rfl⟩⟩
      · next s ht =>
        injection hst with hst; subst hst
        refine ⟨⟨hg.segs, hobs⟩, .inr ⟨.sample s, rfl, rfl, ?_⟩⟩
        intro s' he _
        injection he with he
        exact he ▸ (turn_good wc h B hs g hgg _ sg ac s ht).copy
  | restart k =>
    simp only [step, Option.some.injEq] at hst
    subst hst
    refine ⟨⟨hg.segs, ?_⟩, .inl ⟨rfl, rfl⟩⟩
    intro j
    simp only
    split
    · exact hB
    · exact hg.obs j
  | app op =>
    simp only [step, Option.some.injEq] at hst
    subst hst
    refine ⟨⟨hg.segs, hg.obs⟩, .inr ⟨op, rfl, rfl, ?_⟩⟩
    intro s he htid
    subst he
    rcases hi with hi | hi
    · exact absurd htid hi
    · exact ⟨hi⟩

theorem run_calls (wc : Writer.Config) (h) (B : Int) (hB : 0 < B) (hs : Sane h) (rc : Reader.Config)
    (ins : List In) (hi : ∀ i ∈ ins, Writes wc h i) (hbel : ∀ i ∈ ins, Below B i) (y y' : Sys)
    (hg : AllGood wc h B y) (hr : run wc.tid rc y ins = some y') :
    AllGood wc h B y' ∧
    ∃ a, y'.rd = (Reader.run rc y.rd a).1 ∧ y'.evs = y.evs ++ (Reader.run rc y.rd a).2 ∧
      ∀ s ∈ Reader.arrivals a, s.tid = wc.tid → Copy wc h s := by
  induction ins generalizing y with
  | nil =>
    simp only [run, Option.some.injEq] at hr
    subst hr
    exact ⟨hg, [], rfl, by simp [Reader.run], by simp [Reader.arrivals]⟩
  | cons i ins ih =>
    simp only [run] at hr
    cases hst : step wc.tid rc y i with
    | none => simp [hst] at hr
    | some y1 =>
      simp only [hst] at hr
      obtain ⟨g1, hop⟩ := step_good wc h B hB hs rc y y1 i (hi i (by simp)) (hbel i (by simp)) hg hst
      obtain ⟨g2, a, h1, h2, h3⟩ := ih (fun j hj => hi j (by simp [hj])) (fun j hj => hbel j (by simp [hj])) y1 g1 hr
      refine ⟨g2, ?_⟩
      rcases hop with ⟨e1, e2⟩ | ⟨op, e1, e2, hc⟩
      · exact ⟨a, by rw [h1, e1], by rw [h2, e1, e2], h3⟩
      · refine ⟨op :: a, by rw [h1, e1]; rfl, by rw [h2, e1, e2]; simp [Reader.run], ?_⟩
        intro s hsm htid
        rcases (arrivals_cons op a s).1 hsm with hos | hos
        · exact hc s hos htid
        · exact h3 s hos htid

theorem allGood_init (wc h B) (hB : 0 < B) : AllGood wc h B {} :=
  ⟨(by intro g hg; cases hg), (by intro k; exact hB)⟩

/-! ## C105 -/

/-- **C105 (safety).** A publisher writes into shared memory — any number of buffers, files that
grow or are created anew, with or without zero copy, the lock refused or not — and the observers
of a subscribing process take their turns at any moment, miss signals and locks, and are started
anew: the messages the application gets from the publisher are a subsequence of those sent, with
payload, time and id as sent. -/
theorem C105_delivered_is_subsequence (wc : Writer.Config) (h : List Writer.Op) (hs : Sane h)
    (rc : Reader.Config) (hd : rc.drop = true) (ins : List In) (hi : ∀ i ∈ ins, Writes wc h i)
    (y : Sys) (hr : run wc.tid rc {} ins = some y) :
    ((Reader.fromPub wc.tid (Reader.delivered y.evs)).map Writer.strip).Sublist
      ((Writer.sent h).map Writer.Msg.strip) := by
  have hbel : ∀ i ∈ ins, Below (2 ^ 63) i := by
    intro i hm
    cases i with
    | write s p o =>
      have h1 : Copy wc h s := ⟨(hi _ hm).1⟩
      exact (h1.ranges hs).2.2.2.1.2
    | _ => trivial
  obtain ⟨_, a, _, h2, h3⟩ := run_calls wc h (2 ^ 63) (by decide) hs rc ins hi hbel {} y
    (allGood_init wc h _ (by decide)) hr
  rw [h2]
  exact Writer.C59_delivered_is_subsequence wc h rc hd a (fun s hm e => (h3 s hm e).mem)

/-- **C105 (delivery).** After any history, a newly written sample — written although the lock may
have been refused once — is in one of the publisher's files, and an observer of that file that has
been signalled and gets the lock before the file is written again hands exactly that sample to the
subscriber. -/
theorem C105_new_sample_delivered (wc : Writer.Config) (h : List Writer.Op) (hs : Sane h)
    (rc : Reader.Config) (ins : List In) (hi : ∀ i ∈ ins, Writes wc h i) (y : Sys)
    (hr : run wc.tid rc {} ins = some y) (s : Reader.Sample) (p : Payload) (o : WOpt)
    (hnew : ∀ s' p' o', In.write s' p' o' ∈ ins → s'.clock < s.clock)
    (hw : Writes wc h (.write s p o)) (href : o.refused < 2) (y1 : Sys)
    (hst : step wc.tid rc y (.write s p o) = some y1) :
    y1.rd = y.rd ∧ y1.evs = y.evs ∧
    ∃ k ∈ y1.vec, ∀ sg, ((y1.obs k).pending = true ∨ sg = true) →
      ∃ y2, step wc.tid rc y1 (.turn k sg true) = some y2 ∧
        y2.rd = (Reader.step rc y.rd (.sample s)).1 ∧
        y2.evs = y.evs ++ (Reader.step rc y.rd (.sample s)).2 := by
  obtain ⟨hc, hl, hlen, hp, ho⟩ := hw
  have hcopy : Copy wc h s := ⟨hc⟩
  have hclk := hcopy.clock_pos
  have hbel : ∀ i ∈ ins, Below s.clock i := by
    intro i hm
    cases i with
    | write s' p' o' => exact hnew s' p' o' hm
    | _ => trivial
  obtain ⟨hg, _⟩ := run_calls wc h s.clock hclk hs rc ins hi hbel {} y (allGood_init wc h _ hclk) hr
  have hk : Ok wc h (s.clock + 1) s := ⟨hcopy, hl, hlen, by omega⟩
  -- an observer of a file that holds the sample
  have key : ∀ (g : Seg) (y1 : Sys) (k : Nat), Good wc h (s.clock + 1) g →
      contents g.f = (hdrOf s o).bytes o.junk ++ s.payload → y1.segs[k]? = some g →
      ((y1.obs k).last : Int) < s.clock → ∀ sg, ((y1.obs k).pending = true ∨ sg = true) →
      ∃ y2, step wc.tid rc y1 (.turn k sg true) = some y2 ∧
        y2.rd = (Reader.step rc y1.rd (.sample s)).1 ∧
        y2.evs = y1.evs ++ (Reader.step rc y1.rd (.sample s)).2 := by
    intro g y1 k hgg hcont hseg hlast sg hsg
    have ht := turn_new wc h _ hs g hgg s hk o ho o.junk hcont (y1.obs k) sg hlast hsg
    refine ⟨feed rc { y1 with obs := fun j => if j = k then (turn wc.tid (y1.obs k) sg true g.f).1 else y1.obs j }
      (.sample s), ?_, rfl, rfl⟩
    simp only [step, hseg, ht]
  simp only [step] at hst
  split at hst
  · cases hst
  · next k hk1 =>
    split at hst
    · cases hst
    · next g hgk =>
      have hgg : Good wc h s.clock g := hg.segs g (List.mem_of_getElem? hgk)
      have hgg' : Good wc h (s.clock + 1) g := hgg.mono (by omega)
      obtain ⟨a, b⟩ := good_prepare wc h _ g hgg' s.payload.length o
      obtain ⟨c, d⟩ := good_put wc h _ _ a s hk p hp o ho (decide (y.vec.length > 1)) b
      have hr2 : ¬ o.refused ≥ 2 := by omega
      simp only [if_neg hr2] at hst
      generalize put (prepare g s.payload.length o).1 s p o (decide (y.vec.length > 1)) = G at c d hst
      have hidx := (List.getElem?_eq_some_iff.1 hk1).1
      split at hst
      · injection hst with hst; subst hst
        refine ⟨rfl, rfl, y.segs.length, List.mem_set hidx y.segs.length, ?_⟩
        intro sg hsg
        exact key G ⟨y.segs ++ [G], y.vec.set (y.idx % y.vec.length) y.segs.length,
          (y.idx % y.vec.length + 1) % y.vec.length, y.obs, y.rd, y.evs⟩ y.segs.length c d
          List.getElem?_concat_length (hg.obs _) sg hsg
      · injection hst with hst; subst hst
        have hkk := (List.getElem?_eq_some_iff.1 hgk).1
        refine ⟨rfl, rfl, k, List.mem_of_getElem? hk1, ?_⟩
        intro sg hsg
        exact key G ⟨y.segs.set k G, y.vec, (y.idx % y.vec.length + 1) % y.vec.length, y.obs, y.rd, y.evs⟩ k c d
          (List.getElem?_set_self hkk) (hg.obs _) sg hsg

/-! Three messages of different sizes, two buffers; the second file has to grow. -/

def exSub : Writer.Op := .applySub ⟨"h1", 1, "a"⟩ [⟨.shm, 2, true⟩]
def exH : List Writer.Op := [exSub, .send ⟨[1, 2], 10, 0⟩, .send ⟨List.replicate 20 7, 20, -1⟩, .send ⟨[], 30, 5⟩]
def exS (i : Nat) : Reader.Sample := ((Writer.run Writer.cfg Writer.init exH).2.flatten).getD i ⟨"", [], 0, 0, 0, 0, .shm⟩
def exW (i : Nat) (o : WOpt) : In := .write (exS i) (bufferPayload (exS i).payload) o

example : ∀ i < 3, (exS i).layer = .shm ∧ (exS i) ∈ (Writer.run Writer.cfg Writer.init exH).2.flatten := by
  decide +kernel

example :
    (run "42" ⟨true, true, true, true⟩ {}
      [.buffers 2 10 ([], []), exW 0 {}, .turn 0 true true, exW 1 { flags := true, junk := ([9], [9, 9]) },
       .turn 1 true true, .turn 2 true false, exW 2 { ack := 5 }, .turn 2 false true, .turn 0 true true,
       .turn 0 true true]).map
      (fun y => (y.vec, (Reader.delivered y.evs).map Writer.strip)) =
    some ([0, 2], [([1, 2], 10, 0), (List.replicate 20 7, 20, -1), ([], 30, 5)]) := by
  decide +kernel

example (i : Nat) (hi : i < 3) (o : WOpt) (ho : o.ack < 2 ^ 63) : Writes Writer.cfg exH (exW i o) := by
  have h1 : ∀ i < 3, (∃ cs ∈ (Writer.run Writer.cfg Writer.init exH).2, exS i ∈ cs) ∧ (exS i).layer = .shm ∧
      (exS i).payload.length < 2 ^ 64 := by decide +kernel
  obtain ⟨a, b, c⟩ := h1 i hi
  exact ⟨a, b, c, bufferPayload_delivers _, ho⟩

/-- **C105 violated (zero copy and the size check).** The size check of the zero-copy path forgets
the header: for a file with an inconsistent size — as an incomplete write leaves it — the sample
passed on reaches beyond the content. -/
theorem C105_violated_zero_copy_check :
    ∃ f : File, f.Ok ∧ f.cur = 66 ∧ (turn "t" {} true true f).2.map (·.payload.length) = some 10 := by
  refine ⟨{ max := 80, cur := 66,
            data := Hdr.bytes ([], []) { dataSize := 10, clock := 1, flags := 1 } ++ List.replicate 16 1 }, ?_, rfl, ?_⟩
  · exact ⟨by decide +kernel, by decide⟩
  · decide +kernel

end Ecal.E2E.Shm
