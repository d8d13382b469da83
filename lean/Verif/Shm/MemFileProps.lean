import Verif.Shm.MemFile

/-! # C18: shared memory returns exactly what was written -/

namespace Ecal.Shm

/-! ## Byte-level lemmas -/

theorem length_overwrite (data bytes : List Byte) (off : Nat)
    (h : off + bytes.length ≤ data.length) : (overwrite data off bytes).length = data.length := by
  simp [overwrite]; omega

theorem overwrite_region (data bytes : List Byte) (off : Nat) (h : off ≤ data.length) :
    ((overwrite data off bytes).drop off).take bytes.length = bytes := by
  unfold overwrite
  rw [List.append_assoc, List.drop_append_of_le_length (by simp; omega)]
  have : (data.take off).drop off = [] := by simp
  rw [this, List.nil_append, List.take_append_of_le_length (by simp)]
  simp

theorem overwrite_below (data bytes : List Byte) (off n : Nat) (hn : n ≤ off)
    (h : off ≤ data.length) : (overwrite data off bytes).take n = data.take n := by
  unfold overwrite
  rw [List.append_assoc, List.take_append_of_le_length (by simp; omega), List.take_take]
  congr 1; omega

/-! ## Single operations -/

/-- A granted access gives the reader the header of the segment. -/
theorem granted_read (f : File) (h : Handle) (hc : h.created = true) :
    getReadAccess f h .granted = (f, { h with max := f.max, cur := f.cur, access := .read }, true) := by
  simp [getReadAccess, getAccess, hc]

theorem granted_write (f : File) (h : Handle) (hc : h.created = true) :
    getWriteAccess f h .granted =
      (f, { h with max := f.max, cur := f.cur, access := .write }, true) := by
  simp [getWriteAccess, getAccess, hc]

/-- **C18 (refused).**  A write beyond the capacity is refused and leaves segment and handle
unchanged. -/
theorem C18_refused_buffer (f : File) (h : Handle) (bytes : List Byte) (off : Nat)
    (hbig : h.max < bytes.length + off) : writeBuffer f h bytes off = (f, h, 0) := by
  have : canWrite h (bytes.length + off) = false := by
    simp only [canWrite, Bool.and_eq_false_iff, decide_eq_false_iff_not]
    exact Or.inr (by omega)
  simp [writeBuffer, this]

theorem C18_refused_payload (f : File) (h : Handle) (p : Payload) (len off : Nat) (force : Bool)
    (hbig : h.max < len + off) : writePayload f h p len off force = (f, h, 0) := by
  have : canWrite h (len + off) = false := by
    simp only [canWrite, Bool.and_eq_false_iff, decide_eq_false_iff_not]
    exact Or.inr (by omega)
  simp [writePayload, this]

/-- **C18 (no stale bytes).**  Reading beyond the current content is refused, whatever was there
before. -/
theorem C18_no_read_beyond (f : File) (h : Handle) (len off : Nat) (hbig : h.cur < len + off) :
    read f h len off = none := by
  have : canRead h (len + off) = false := by
    simp only [canRead, Bool.and_eq_false_iff, decide_eq_false_iff_not]
    exact Or.inr (by omega)
  simp [read, this]

/-- No access without the lock, and none in the wrong mode. -/
theorem C18_no_access_without_lock (f : File) (h : Handle) (len off : Nat)
    (ha : h.access ≠ .read) : read f h len off = none := by
  have : canRead h (len + off) = false := by
    cases hh : h.access <;> simp_all [canRead]
  simp [read, this]

/-! ## Write, then read -/

/-- The payload writer delivers the content `c` into any region of its length, by either call. -/
def Payload.Delivers (p : Payload) (c : List Byte) : Prop :=
  ∀ r : List Byte, r.length = c.length → p.full r = (c, true) ∧ p.modified r = (c, true)

/-- `CBufferPayloadWriter`: copies a buffer; `WriteModified` is `WriteFull`
(`ecal_writer_buffer_payload.h`). -/
def bufferPayload (c : List Byte) : Payload where
  full r := if r.length < c.length ∨ c = [] then (r, false) else (c ++ r.drop c.length, true)
  modified r := if r.length < c.length ∨ c = [] then (r, false) else (c ++ r.drop c.length, true)

theorem bufferPayload_delivers (c : List Byte) (hc : c ≠ []) : (bufferPayload c).Delivers c := by
  intro r hr
  have h1 : ¬ (r.length < c.length ∨ c = []) := by simp [hc]; omega
  have h2 : r.drop c.length = [] := by rw [← hr]; simp
  simp [bufferPayload, h1, h2]

/-- What a reader that gets the lock obtains: the current number of bytes from the front. -/
def contents (f : File) : List Byte := f.data.take f.cur

/-- Effect of writing one sample with write access. -/
theorem writeSample_effect (f : File) (h : Handle) (hdr c : List Byte) (p : Payload) (force : Bool)
    (hf : f.Ok) (hcr : h.created = true) (hacc : h.access = .write) (hmax : h.max = f.max)
    (hhdr : hdr ≠ []) (hfit : hdr.length + c.length ≤ f.max) (hp : c ≠ [] → p.Delivers c) :
    ∃ f' h', writeSample f h hdr p c.length force = (f', h', true) ∧ f'.Ok ∧ f'.max = f.max ∧
      contents f' = hdr ++ c ∧ h'.created = true ∧ h'.sanitize = h.sanitize ∧ h'.max = f.max ∧
      h'.access = .closed := by
  obtain ⟨hlen, hcur⟩ := hf
  have hpos : 0 < hdr.length := List.length_pos_iff.2 hhdr
  have hw1 : canWrite h hdr.length = true := by
    simp [canWrite, hcr, hacc, hhdr]; omega
  -- the header
  have hb : writeBuffer f h hdr 0 =
      ({ f with cur := hdr.length, data := overwrite f.data 0 hdr }, { h with cur := hdr.length },
       hdr.length) := by
    simp [writeBuffer, hw1]
  have hl1 : (overwrite f.data 0 hdr).length = f.data.length :=
    length_overwrite _ _ _ (by omega)
  have ht1 : (overwrite f.data 0 hdr).take hdr.length = hdr := by
    have := overwrite_region f.data hdr 0 (by omega)
    simpa using this
  by_cases hce : c = []
  · subst hce
    refine ⟨{ f with cur := hdr.length, data := overwrite f.data 0 hdr },
      release { h with cur := hdr.length }, ?_, ?_, ?_, ?_, ?_, ?_, ?_, ?_⟩
    · simp [writeSample, hb, hpos]
    · exact ⟨by simpa [hlen] using hl1, by simp at hfit; exact hfit⟩
    · rfl
    · simpa [contents] using ht1
    · exact hcr
    · rfl
    · exact hmax
    · rfl
  · have hcpos : 0 < c.length := List.length_pos_iff.2 hce
    have hw2 : canWrite { h with cur := hdr.length } (c.length + hdr.length) = true := by
      have : c.length + hdr.length ≠ 0 := by omega
      simp only [canWrite, hcr, hacc, hmax, Bool.true_and, bne_iff_ne, ne_eq, this,
        not_false_eq_true, Bool.and_eq_true, decide_eq_true_eq, beq_self_eq_true, true_and]
      omega
    have hreg : (region { f with cur := hdr.length, data := overwrite f.data 0 hdr }
        hdr.length c.length).length = c.length := by
      simp [region, hl1]; omega
    obtain ⟨hfull, hmod⟩ := hp hce _ hreg
    -- the payload, by either call
    obtain ⟨h', hpay, h1, h2, h3⟩ : ∃ h' : Handle, writePayload
        { f with cur := hdr.length, data := overwrite f.data 0 hdr } { h with cur := hdr.length } p
        c.length hdr.length force =
        ({ f with cur := c.length + hdr.length,
                  data := overwrite (overwrite f.data 0 hdr) hdr.length c }, h', c.length) ∧
        h'.created = true ∧ h'.sanitize = h.sanitize ∧ h'.max = f.max := by
      by_cases hi : (!h.payloadInit || force) = true
      · refine ⟨{ h with cur := c.length + hdr.length, payloadInit := true }, ?_, hcr, rfl, hmax⟩
        simp only [writePayload, hw2, if_true, hi, hfull]
      · refine ⟨{ h with cur := c.length + hdr.length }, ?_, hcr, rfl, hmax⟩
        simp only [writePayload, hw2, if_true, hi, hmod]
        simp
    have hl2 : (overwrite (overwrite f.data 0 hdr) hdr.length c).length = f.data.length := by
      rw [length_overwrite _ _ _ (by rw [hl1]; omega), hl1]
    refine ⟨{ f with cur := c.length + hdr.length,
                     data := overwrite (overwrite f.data 0 hdr) hdr.length c }, release h', ?_,
      ⟨by simpa [hlen] using hl2, by show c.length + hdr.length ≤ f.max; omega⟩, rfl, ?_, h1, h2, h3,
      rfl⟩
    · simp only [writeSample, hb, hpay, hcpos, hpos, if_true]
      simp
    · show List.take (c.length + hdr.length) _ = hdr ++ c
      rw [Nat.add_comm, List.take_add]
      rw [overwrite_below _ _ _ _ (Nat.le_refl _) (by rw [hl1]; omega), ht1]
      rw [overwrite_region _ _ _ (by rw [hl1]; omega)]

/-- **C18.**  Whatever the segment held before: after a sample has been written, a reader obtains
exactly its header and exactly its bytes, for every content that fits and both ways of writing; and
nothing beyond. -/
theorem C18_write_then_read (f : File) (w r : Handle) (hdr c : List Byte) (p : Payload)
    (force : Bool) (hf : f.Ok) (hw : w.created = true) (hr : r.created = true) (hhdr : hdr ≠ [])
    (hfit : hdr.length + c.length ≤ f.max) (hp : c ≠ [] → p.Delivers c) :
    ∃ f' w' r', writeSample f (getWriteAccess f w .granted).2.1 hdr p c.length force = (f', w', true) ∧
      getReadAccess f' r .granted = (f', r', true) ∧
      read f' r' hdr.length 0 = some hdr ∧
      (c ≠ [] → read f' r' c.length hdr.length = some c) ∧
      (∀ n off, hdr.length + c.length < n + off → read f' r' n off = none) := by
  rw [granted_write f w hw]
  obtain ⟨f', w', hws, hok, hmax, hcont, _, _, _, _⟩ := writeSample_effect f
    { w with max := f.max, cur := f.cur, access := .write } hdr c p force hf hw rfl rfl hhdr hfit hp
  have hcur : f'.cur = hdr.length + c.length := by
    have := congrArg List.length hcont
    simp only [contents, List.length_take, List.length_append] at this
    have h1 := hok.1
    have h2 := hok.2
    omega
  refine ⟨f', w', { r with max := f'.max, cur := f'.cur, access := .read }, hws,
    granted_read f' r hr, ?_, ?_, ?_⟩
  · have hc : canRead { r with max := f'.max, cur := f'.cur, access := .read } (hdr.length + 0) =
        true := by
      simp [canRead, hr, hhdr]; omega
    rw [read, hc, if_pos rfl]
    have : f'.data.take hdr.length = hdr := by
      have h3 := congrArg (List.take hdr.length) hcont
      rw [contents, List.take_take, List.take_append_of_le_length (Nat.le_refl _)] at h3
      rw [Nat.min_eq_left (by omega)] at h3
      simpa using h3
    simp [this]
  · intro hce
    have hcpos : 0 < c.length := List.length_pos_iff.2 hce
    have hc : canRead { r with max := f'.max, cur := f'.cur, access := .read }
        (c.length + hdr.length) = true := by
      simp [canRead, hr, hce]; omega
    rw [read, hc, if_pos rfl]
    have h3 := congrArg (List.drop hdr.length) hcont
    rw [contents, List.drop_take, List.drop_append_of_le_length (Nat.le_refl _)] at h3
    simp only [List.drop_length, List.nil_append] at h3
    rw [show f'.cur - hdr.length = c.length by omega] at h3
    rw [h3]
  · intro n off hbig
    exact C18_no_read_beyond f' _ n off (by show f'.cur < _; omega)

/-! ## Histories -/

/-- A sample: header bytes and content. -/
structure Sample where
  hdr : List Byte
  c   : List Byte

/-- Histories of writes by one writer; each write is `CheckSize` followed by `Write`
(`CDataWriterSHM::PrepareWrite`, `Write`), with buffer payloads. -/
structure WState where
  f : File
  h : Handle

def emptyHdr (n : Nat) : List Byte := List.replicate n 0

def publish (n : Nat) (st : WState) (x : Sample × Nat × Bool) : WState × Bool :=
  let (f, h) := checkSize st.f st.h (emptyHdr n) x.1.c.length x.2.1
  let (f, h, _) := getWriteAccess f h .granted
  let (f, h, ok) := writeSample f h x.1.hdr (bufferPayload x.1.c) x.1.c.length x.2.2
  (⟨f, h⟩, ok)

def WInv (st : WState) : Prop := st.f.Ok ∧ st.h.created = true ∧ st.h.max = st.f.max

theorem publish_ok (n : Nat) (st : WState) (x : Sample × Nat × Bool) (hn : 0 < n)
    (hh : x.1.hdr.length = n) (h : WInv st) :
    (publish n st x).2 = true ∧ WInv (publish n st x).1 ∧
      contents (publish n st x).1.f = x.1.hdr ++ x.1.c := by
  obtain ⟨hok, hcr, hmax⟩ := h
  obtain ⟨⟨hdr, c⟩, extra, force⟩ := x
  simp only at hh
  have hhdr : hdr ≠ [] := by intro h0; subst h0; simp at hh; omega
  -- after `CheckSize`
  obtain ⟨f1, h1, hcs, hok1, hcr1, hmax1, hfit⟩ : ∃ f1 h1, checkSize st.f st.h (emptyHdr n) c.length extra =
      (f1, h1) ∧ f1.Ok ∧ h1.created = true ∧ h1.max = f1.max ∧ n + c.length ≤ f1.max := by
    by_cases hb : st.h.max < n + c.length
    · refine ⟨{ max := n + c.length + extra, cur := n,
                 data := overwrite (List.replicate (n + c.length + extra) 0) 0 (List.replicate n 0) },
        { max := n + c.length + extra, cur := n },
        by simp only [checkSize, emptyHdr, List.length_replicate, if_pos hb], ?_, rfl, rfl, ?_⟩
      · refine ⟨?_, by show n ≤ n + c.length + extra; omega⟩
        show (overwrite _ 0 _).length = _
        rw [length_overwrite _ _ _ (by simp; omega)]
        simp
      · show n + c.length ≤ n + c.length + extra; omega
    · refine ⟨st.f, st.h, by simp only [checkSize, emptyHdr, List.length_replicate, if_neg hb], hok, hcr,
        hmax, by omega⟩
  obtain ⟨f2, h2, hws, a, b, d, e, _, g, _⟩ := writeSample_effect f1
    { h1 with max := f1.max, cur := f1.cur, access := .write } hdr c (bufferPayload c) force hok1 hcr1
    rfl rfl hhdr (by omega) (bufferPayload_delivers c)
  have hpub : publish n st (⟨hdr, c⟩, extra, force) = (⟨f2, h2⟩, true) := by
    simp only [publish, hcs, granted_write f1 h1 hcr1, hws]
  rw [hpub]
  exact ⟨rfl, ⟨a, e, g.trans b.symm⟩, d⟩

/-- **C18 (histories).**  For every sequence of published samples – growing, shrinking, empty,
recreating the segment or not – every publication succeeds and the segment afterwards holds exactly
the last sample. -/
theorem C18_history (n : Nat) (hn : 0 < n) (st : WState) (h : WInv st)
    (xs : List (Sample × Nat × Bool)) (x : Sample × Nat × Bool)
    (hx : ∀ y ∈ xs ++ [x], y.1.hdr.length = n) :
    let fin := (xs ++ [x]).foldl (fun s y => (publish n s y).1) st
    WInv fin ∧ contents fin.f = x.1.hdr ++ x.1.c := by
  simp only [List.foldl_append, List.foldl_cons, List.foldl_nil]
  have hpre : ∀ (ys : List (Sample × Nat × Bool)) (st : WState), WInv st →
      (∀ y ∈ ys, y.1.hdr.length = n) → WInv (ys.foldl (fun s y => (publish n s y).1) st) := by
    intro ys
    induction ys with
    | nil => intro st h _; exact h
    | cons y ys ih =>
      intro st h hy
      exact ih _ (publish_ok n st y hn (hy y (by simp)) h).2.1 (fun z hz => hy z (by simp [hz]))
  have h1 := hpre xs st h (fun y hy => hx y (by simp [hy]))
  obtain ⟨_, a, b⟩ := publish_ok n _ x hn (hx x (by simp)) h1
  exact ⟨a, b⟩

/-- Such a writer exists: a fresh segment. -/
example : WInv ⟨{ max := 8, cur := 4, data := List.replicate 8 0 }, { max := 8, cur := 4 }⟩ := by
  refine ⟨⟨rfl, by decide⟩, rfl, rfl⟩

/-- A long sample followed by a short one: nothing of the long one can be read. -/
example :
    let st0 : WState := ⟨{ max := 4, cur := 2, data := List.replicate 4 0 }, { max := 4, cur := 2 }⟩
    let st1 := (publish 2 st0 (⟨[1, 1], [7, 7, 7]⟩, 3, false)).1
    let st2 := (publish 2 st1 (⟨[2, 2], [9]⟩, 3, false)).1
    contents st1.f = [1, 1, 7, 7, 7] ∧ contents st2.f = [2, 2, 9] ∧ st2.f.max = 8 := by
  decide +kernel

/-! ## Findings -/

/-- A payload writer that fails after having written garbage. -/
def failingPayload : Payload where
  full r := (r.map (fun _ => 255), false)
  modified r := (r.map (fun _ => 255), false)

/-- **C18 is violated by failing payload writers**: the write is reported as successful and the
half-written content is what readers get. -/
theorem C18_violated_failed_payload_is_published :
    let f : File := { max := 8, cur := 0, data := List.replicate 8 0 }
    let w := (getWriteAccess f {} .granted).2.1
    let out := writeSample f w [1, 2] failingPayload 3 false
    out.2.2 = true ∧ contents out.1 = [1, 2, 255, 255, 255] := by decide +kernel

/-- **C18 is violated by an oversized `Write` without the preceding size check**: the write fails
but the header in the segment has already been replaced – it announces a content that is not there.
(`CDataWriterSHM` always checks the size first, `C18_history`.) -/
theorem C18_violated_oversize_clobbers_header :
    let f : File := { max := 4, cur := 4, data := [1, 2, 3, 4] }
    let w := (getWriteAccess f {} .granted).2.1
    let out := writeSample f w [9, 9] (bufferPayload [5, 5, 5]) 3 false
    out.2.2 = false ∧ contents out.1 = [9, 9] := by decide +kernel

/-- **C18 (recovery).**  If the process that held the lock died, a writer's access empties the segment, so that nobody
reads the half-written sample; a reader's access leaves it as it is. -/
theorem C18_recovered (f : File) (h : Handle) (hc : h.created = true) :
    (h.sanitize = true → (getAccess f h .recovered).2.2 = true ∧ contents (getAccess f h .recovered).1 = [] ∧
      (getAccess f h .recovered).2.1.cur = 0) ∧
    (h.sanitize = false → (getAccess f h .recovered).2.2 = true ∧ (getAccess f h .recovered).1 = f ∧
      (getAccess f h .recovered).2.1.cur = f.cur ∧ (getAccess f h .recovered).2.1.max = f.max) := by
  constructor <;> intro hs <;> simp [getAccess, hc, hs, contents]

/-- **C18 (recovery).**  The emptied segment keeps its capacity if the recovering handle remembers it (it was read when
the handle was created or last granted access). -/
theorem C18_recovered_capacity (f : File) (h : Handle) (hc : h.created = true) (hs : h.sanitize = true)
    (hm : h.max = f.max) : (getAccess f h .recovered).1.max = f.max ∧ (getAccess f h .recovered).2.1.max = f.max := by
  simp [getAccess, hc, hs, hm]

end Ecal.Shm
