import Verif.Writer.Lemmas

/-! # Properties C12, C15, C56, C59: layer choice, send counter, end-to-end delivery -/

namespace Ecal.Writer

/-- Default priorities, all layers enabled. -/
def cfg : Config :=
  { udp := true, shm := true, tcp := true, prioLocal := [.shm, .udp, .tcp],
    prioRemote := [.udp, .tcp], zeroCopy := false, host := "h1", tid := "42", tidHash := 7#64 }

/-- A subscriber on the host with all layers, one on another host with tcp only. -/
def locSub : Op := .applySub ⟨"h1", 1, "a"⟩ [⟨.udp, 2, true⟩, ⟨.shm, 2, true⟩, ⟨.tcp, 2, true⟩]
def remSub : Op := .applySub ⟨"h2", 1, "b"⟩ [⟨.udp, 2, false⟩, ⟨.shm, 2, true⟩, ⟨.tcp, 2, true⟩]

/-! ## C12 -/

/-- **C12.** After any history of subscriptions, unsubscriptions, expirations and sends a
layer is started exactly if some subscription called for it: it is the first one of the
local (same host) or remote priority list that the publisher has enabled and the subscriber
announced. -/
theorem C12_started_iff_wanted (c : Config) (h : List Op) (hs : Op.stop ∉ h) (l : TL) :
    Started (run c init h).1 l ↔ ∃ p ls, .applySub p ls ∈ h ∧ Wanted c p ls l := by
  rw [run_started c h hs]
  simp [Started, init]

/-- **C12 (one subscription).** The layer started by a subscription in a fresh publisher is
the first common one; none if there is none. -/
theorem C12_choice (c : Config) (p : Conn.Peer) (ls : List Gate.Layer) (l : TL) :
    Started (step c init (.applySub p ls)).1 l ↔ Wanted c p ls l := by
  rw [step_started c init _ l (by simp)]
  constructor
  · rintro (h | ⟨p', ls', h, hw⟩)
    · simp [Started, init] at h
    · cases h; exact hw
  · intro h; exact Or.inr ⟨p, ls, rfl, h⟩

/-- The choice is unique. -/
theorem C12_choice_unique (c : Config) (p : Conn.Peer) (ls : List Gate.Layer) (l l' : TL)
    (h : Wanted c p ls l) (h' : Wanted c p ls l') : l = l' := by
  have key : ∀ prio, FirstCommon c prio ls l → FirstCommon c prio ls l' → l = l' := by
    intro prio a b
    rw [← determine_some] at a b
    rw [a] at b
    exact Option.some.inj b
  rcases h with ⟨a, b⟩ | ⟨a, b⟩ <;> rcases h' with ⟨a', b'⟩ | ⟨a', b'⟩
  · exact key _ b b'
  · exact absurd a a'
  · exact absurd a' a
  · exact key _ b b'

example : (run cfg init [locSub]).1 = { init with shm := true, subs := [⟨"h1", 1, "a"⟩] } ∧
    (run cfg init [remSub]).1 = { init with tcp := true, subs := [⟨"h2", 1, "b"⟩] } := by
  decide +kernel

/-! ## C15 -/

/-- **C15 (counter).** The counter is the number of sends, with or without subscribers. -/
theorem C15_counter_counts_sends (c : Config) (h : List Op) (hs : Op.stop ∉ h) :
    (run c init h).1.clock = (sent h).length := by
  have key : ∀ (h : List Op) (st : State), Op.stop ∉ h → st.created = true →
      (run c st h).1.clock = st.clock + (sent h).length := by
    intro h
    induction h with
    | nil => intro st _ _; simp [run, sent]
    | cons op h ih =>
      intro st hs hc
      simp only [List.mem_cons, not_or] at hs
      simp only [run]
      rw [ih _ hs.2 (by rw [step_created c st op (fun e => hs.1 e.symm)]; exact hc), step_clock]
      cases op <;> simp [Op.isSend, hc, sent]
      omega
  simpa [init] using key h init hs rfl

/-- **C15 (copies).** Every copy handed to a transport layer belongs to the `i`-th send for
some `i` and carries its payload, its counter `i + 1` and the hash of this counter. -/
theorem C15_copies_carry_counter (c : Config) (h : List Op) :
    ∀ cs ∈ (run c init h).2, ∀ s ∈ cs, ∃ (i : Nat) (m : Msg), (sent h)[i]? = some m ∧
      s.clock = (i : Int) + 1 ∧ s.payload = m.payload ∧ s.time = m.time ∧ s.id = m.id ∧
      s.tid = c.tid := by
  intro cs hcs s hs
  obtain ⟨i, m, l, h1, rfl⟩ := run_copies c h init cs hcs s hs
  refine ⟨i, m, h1, ?_, rfl, rfl, rfl, rfl⟩
  simp [copyOf, init]; omega

/-- **C15 (uniqueness).** Copies handed over by two different calls have different counters,
increasing with the calls, and (fewer than 2^63 sends) different hashes. -/
theorem C15_counters_and_hashes_distinct (c : Config) (h : List Op)
    (hlen : (sent h).length < 2 ^ 63) :
    (run c init h).2.Pairwise (fun as bs => ∀ a ∈ as, ∀ b ∈ bs, a.clock < b.clock ∧ a.hash ≠ b.hash) := by
  have key : ∀ (h : List Op) (st : State), st.clock + (sent h).length < 2 ^ 63 →
      (run c st h).2.Pairwise (fun as bs => ∀ a ∈ as, ∀ b ∈ bs, a.clock < b.clock ∧ a.hash ≠ b.hash) := by
    intro h
    induction h with
    | nil => intro st _; simp [run]
    | cons op h ih =>
      intro st hb
      simp only [run, List.pairwise_cons]
      have hsent : (sent (op :: h)).length = (if op.isSend then 1 else 0) + (sent h).length := by
        cases op <;> simp [sent, Op.isSend]; omega
      refine ⟨?_, ih _ ?_⟩
      · intro bs hbs a ha b hb'
        obtain ⟨m, l, rfl, hc, rfl⟩ := step_copies c st op a ha
        obtain ⟨i, m', l', hi, rfl⟩ := run_copies c h _ bs hbs b hb'
        have hk := step_clock c st (.send m)
        rw [if_pos ⟨hc, rfl⟩] at hk
        have hi' : i < (sent h).length := by
          rcases Nat.lt_or_ge i (sent h).length with h | h
          · exact h
          · rw [List.getElem?_eq_none h] at hi; cases hi
        simp only [Op.isSend, if_true] at hsent
        refine ⟨by simp only [copyOf, hk]; omega, ?_⟩
        intro he
        simp only [copyOf] at he
        have := sndHash_inj c _ _ (by omega) (by omega) (BitVec.eq_of_toNat_eq he)
        omega
      · rw [step_clock]
        split
        · next hx => rw [hsent, if_pos hx.2] at hb; omega
        · rw [hsent] at hb; omega
  exact key h init (by simpa [init] using hlen)

example : ((run cfg init [.send ⟨[1], 5, 0⟩, locSub, .send ⟨[2], 6, 0⟩, remSub, .send ⟨[3], 7, 0⟩]).2.map
    (fun cs => cs.map (fun s => (s.clock, s.payload, s.layer)))) =
    [[], [], [(2, [2], .shm)], [], [(3, [3], .shm), (3, [3], .tcp)]] := by decide +kernel

/-- The bound is sharp: the shift drops the top bit, so counters 2^63 apart collide. -/
theorem C15_bound_sharp (c : Config) : sndHash c (1 + 2 ^ 63) = sndHash c 1 := by
  unfold sndHash
  congr 1

/-! ## C56 -/

/-- **C56 violated.** Zero-copy mode, shared memory subscriber only.  While a send is in
progress a remote subscriber appears and the registration thread starts the UDP layer: the
UDP layer is given the (never filled) payload buffer with the full payload length, that is,
memory beyond the buffer. -/
theorem C56_violated_layer_started_during_send :
    (wrun true winit [.start .shm, .begin ⟨[1, 2, 3], 0, 0⟩, .next, .next, .start .udp, .next, .next]).2
      = [⟨.shm, ⟨[1, 2, 3], 0, 0⟩, some [1, 2, 3]⟩, ⟨.udp, ⟨[1, 2, 3], 0, 0⟩, none⟩] := by
  decide +kernel

/-- What the sending thread relies on. -/
def WInv (zcMode : Bool) (s : WState) : Prop :=
  match s.pc with
  | .idle => True
  | .decided _ zc => zc = true → zcMode = true
  | .filled m zc => if zc then zcMode = true else s.buf = m.payload
  | .shmDone m zc => if zc then zcMode = true else s.buf = m.payload
  | .udpDone m zc => if zc then zcMode = true else s.buf = m.payload

/-- **C56 (zero-copy mode off, the default).** In every interleaving of sends with the start
of layers every layer gets exactly the payload of the send in progress. -/
theorem C56_all_layers_same_payload_partial (h : List WOp) :
    ∀ e ∈ (wrun false winit h).2, e.bytes = some e.msg.payload := by
  have key : ∀ (h : List WOp) (s : WState), WInv false s →
      ∀ e ∈ (wrun false s h).2, e.bytes = some e.msg.payload := by
    intro h
    induction h with
    | nil => intro s _ e he; simp [wrun] at he
    | cons op h ih =>
      intro s hi e he
      simp only [wrun, List.mem_append] at he
      have hstep : WInv false (wstep false s op).1 ∧
          ∀ e ∈ (wstep false s op).2, e.bytes = some e.msg.payload := by
        cases op with
        | begin m =>
          simp only [wstep]
          split <;> simp_all [WInv]
        | next =>
          obtain ⟨pc, buf, u, sh, t⟩ := s
          cases pc with
          | idle => simp [wstep, WInv]
          | decided m zc =>
            cases zc
            · simp [wstep, WInv]
            · simp [WInv] at hi
          | filled m zc =>
            cases zc
            · simp only [WInv, Bool.false_eq_true, if_false] at hi
              cases sh <;> simp [wstep, WInv, hi]
            · simp [WInv] at hi
          | shmDone m zc =>
            cases zc
            · simp only [WInv, Bool.false_eq_true, if_false] at hi
              cases u <;> simp [wstep, WInv, hi, fromBuf]
            · simp [WInv] at hi
          | udpDone m zc =>
            cases zc
            · simp only [WInv, Bool.false_eq_true, if_false] at hi
              cases t <;> simp [wstep, WInv, hi, fromBuf]
            · simp [WInv] at hi
        | start l =>
          obtain ⟨pc, buf, u, sh, t⟩ := s
          cases l <;> simp only [wstep] <;> exact ⟨hi, by simp⟩
      rcases he with he | he
      · exact hstep.2 e he
      · exact ih _ hstep.1 e he
  exact key h winit trivial

/-- **C56 (undisturbed sends, any mode).** A send during which no layer is started hands the
payload to every started layer. -/
theorem C56_undisturbed_partial (zc : Bool) (s : WState) (hpc : s.pc = .idle) (m : Msg) :
    (wrun zc s [.begin m, .next, .next, .next, .next]).2 =
      (if s.shm then [⟨.shm, m, some m.payload⟩] else []) ++
      (if s.udp then [⟨.udp, m, some m.payload⟩] else []) ++
      (if s.tcp then [⟨.tcp, m, some m.payload⟩] else []) := by
  obtain ⟨pc, buf, u, sh, t⟩ := s
  simp only at hpc
  subst hpc
  cases zc <;> cases u <;> cases sh <;> cases t <;> simp [wrun, wstep, fromBuf]

/-! ## C59 -/

theorem reader_delivers_arrivals (c : Reader.Config) (a : List Reader.Op) (st : Reader.State) :
    ∀ s ∈ Reader.delivered (Reader.run c st a).2, s ∈ Reader.arrivals a := by
  induction a generalizing st with
  | nil => intro s hs; simp [Reader.run] at hs
  | cons op a ih =>
    intro s hs
    simp only [Reader.run, Reader.delivered_append, List.mem_append] at hs
    have harr : ∀ s, (op = .sample s ∨ s ∈ Reader.arrivals a) → s ∈ Reader.arrivals (op :: a) := by
      rintro s (rfl | h)
      · simp [Reader.arrivals]
      · cases op <;> simp [Reader.arrivals] at h ⊢ <;> simp [h]
    apply harr
    rcases hs with hs | hs
    · left
      cases op with
      | sample x =>
        simp only [Reader.step] at hs
        have h := Reader.applyCase c st x
        generalize Reader.applySample c st x = r at h hs
        cases h with
        | ignored h => cases hs
        | dup hc hl h act => cases hs
        | filtered hc hl h hid act => cases hs
        | rejected hc hl h hid last hf hle act => cases hs
        | accepted hc hl h hid g evs hcase act b hb =>
          rw [Reader.delivered_append, Reader.delivered_end] at hs
          have : Reader.delivered evs = [] := by
            rcases hcase with ⟨_, _, he⟩ | ⟨_, _, _, ⟨_, _, he⟩ | ⟨_, _, he⟩⟩ <;> rw [he] <;> rfl
          rw [this] at hs
          simp at hs; rw [hs]
        | late hc hl h hid hd last hf hlt act b hb =>
          rw [Reader.delivered_end] at hs
          simp at hs; rw [hs]
      | read =>
        simp only [Reader.step, Reader.read] at hs
        split at hs
        · cases hs
        · split at hs <;> cases hs
      | addCb => cases hs
      | remCb => cases hs
      | setId ids => cases hs
      | stop => cases hs
    · right; exact ih _ s hs

/-- **C59 (safety).** End to end: whatever the transport does with the copies (lose, reorder,
duplicate, over any layers, mixed with samples of other publishers), whatever else the
subscriber's application calls, the messages delivered from a publisher form a subsequence
of the messages it sent: nothing invented, nothing twice, order kept, payload, time and id
intact.  (Out-of-order dropping on, the default.) -/
theorem C59_delivered_is_subsequence (wc : Config) (h : List Op) (rc : Reader.Config)
    (hd : rc.drop = true) (a : List Reader.Op)
    (hA : ∀ s ∈ Reader.arrivals a, s.tid = wc.tid → ∃ cs ∈ (run wc init h).2, s ∈ cs) :
    ((Reader.fromPub wc.tid (Reader.delivered (Reader.run rc Reader.init a).2)).map strip).Sublist
      ((sent h).map Msg.strip) := by
  let D := Reader.fromPub wc.tid (Reader.delivered (Reader.run rc Reader.init a).2)
  let K : List (Int × (List UInt8 × Int × Int)) := (sent h).mapIdx (fun i m => ((i : Int) + 1, m.strip))
  have hK : K.map Prod.snd = (sent h).map Msg.strip := by
    apply List.ext_getElem? ; intro i
    simp [K, List.getElem?_mapIdx, Function.comp_def]
  have hsub : (D.map (fun s => (s.clock, strip s))).Sublist K := by
    apply sublist_of_sorted Prod.fst
    · have := (Reader.run_increasing rc hd wc.tid a Reader.init).1
      simp only [List.map_map]
      exact this
    · rw [List.pairwise_iff_getElem]
      intro i j hi hj hij
      simp only [K, List.getElem_map, List.getElem_mapIdx]
      omega
    · intro x hx
      obtain ⟨s, hs, rfl⟩ := List.mem_map.1 hx
      have hmem : s ∈ Reader.delivered (Reader.run rc Reader.init a).2 ∧ s.tid = wc.tid := by
        have := List.mem_filter.1 hs
        exact ⟨this.1, by simpa using this.2⟩
      obtain ⟨cs, hcs, hsc⟩ := hA s (reader_delivers_arrivals rc a _ s hmem.1) hmem.2
      obtain ⟨i, m, h1, h2, h3, h4, h5, _⟩ := C15_copies_carry_counter wc h cs hcs s hsc
      simp only [K]
      rw [List.mem_mapIdx]
      obtain ⟨hi, he⟩ := List.getElem?_eq_some_iff.1 h1
      refine ⟨i, hi, ?_⟩
      rw [he]
      simp [strip, Msg.strip, h2, h3, h4, h5]
  have := hsub.map Prod.snd
  rw [hK] at this
  simpa [List.map_map, Function.comp_def] using this

theorem ideal_copies (rc : Reader.Config) (hu : rc.udp = true) (hs : rc.shm = true)
    (ht : rc.tcp = true) (cs rest : List Reader.Sample) (tid : String) (k : Int)
    (last : String → Option Int) (hlast : ∀ x, last tid = some x → x < k)
    (hcs : ∀ s ∈ cs, s.tid = tid ∧ s.clock = k) :
    Reader.ideal rc [] last (cs ++ rest) = cs.head?.toList ++
      Reader.ideal rc [] (if cs = [] then last else fun t => if t = tid then some k else last t) rest := by
  have hdis : ∀ l, ¬ Reader.Disabled rc l := by
    intro l; simp [Reader.Disabled, hu, hs, ht]
  -- once the counter is recorded, copies are skipped
  have skip : ∀ (cs : List Reader.Sample) (last : String → Option Int), last tid = some k →
      (∀ s ∈ cs, s.tid = tid ∧ s.clock = k) →
      Reader.ideal rc [] last (cs ++ rest) = Reader.ideal rc [] last rest := by
    intro cs
    induction cs with
    | nil => intro last _ _; rfl
    | cons s cs ih =>
      intro last hl hc
      obtain ⟨h1, h2⟩ := hc s (by simp)
      simp only [List.cons_append, Reader.ideal]
      rw [if_neg, ih last hl (fun x hx => hc x (by simp [hx]))]
      rintro ⟨_, _, h3⟩
      have := h3 k (by rw [h1]; exact hl)
      omega
  cases cs with
  | nil => simp
  | cons s cs =>
    obtain ⟨h1, h2⟩ := hcs s (by simp)
    simp only [List.cons_append, Reader.ideal]
    rw [if_pos]
    · have hne : ¬ (s :: cs = []) := by simp
      rw [if_neg hne, skip cs _ (by simp [h1, h2]) (fun x hx => hcs x (by simp [hx]))]
      simp [h1, h2]
    · refine ⟨hdis _, by simp, ?_⟩
      intro x hx
      rw [h1] at hx
      have := hlast x hx
      omega

/-- **C59 (completeness).** If all copies arrive in sending order at a subscriber with all
layers enabled and no id filter, every send made while at least one layer was started and a
subscriber known is delivered exactly once (fewer than 2^63 sends). -/
theorem C59_lossless_transport_delivers_all (wc : Config) (h : List Op) (rc : Reader.Config)
    (hd : rc.drop = true) (hu : rc.udp = true) (hs : rc.shm = true) (ht : rc.tcp = true)
    (hlen : (sent h).length < 2 ^ 63) :
    Reader.delivered (Reader.run rc Reader.init ((run wc init h).2.flatten.map .sample)).2 =
      (run wc init h).2.filterMap List.head? := by
  have harr : ∀ l : List Reader.Sample, Reader.arrivals (l.map .sample) = l := by
    intro l; induction l with
    | nil => rfl
    | cons s l ih => simp [Reader.arrivals] at ih ⊢; exact ih
  have hsteady : ∀ l : List Reader.Sample, Reader.Steady (l.map .sample) := by
    intro l op hop
    obtain ⟨s, _, rfl⟩ := List.mem_map.1 hop
    exact ⟨by simp, by simp⟩
  have hdist : Reader.HashesDistinct ((run wc init h).2.flatten) := by
    intro x hx y hy he
    obtain ⟨cs, hcs, hxc⟩ := List.mem_flatten.1 hx
    obtain ⟨ds, hds, hyd⟩ := List.mem_flatten.1 hy
    obtain ⟨i, m, l, hi, rfl⟩ := run_copies wc h init cs hcs x hxc
    obtain ⟨j, m', l', hj, rfl⟩ := run_copies wc h init ds hds y hyd
    have bound : ∀ (i : Nat) (m : Msg), (sent h)[i]? = some m → i < (sent h).length := by
      intro i m hi
      rcases Nat.lt_or_ge i (sent h).length with h' | h'
      · exact h'
      · rw [List.getElem?_eq_none h'] at hi; cases hi
    have b1 := bound i m hi
    have b2 := bound j m' hj
    simp only [copyOf, init] at he
    have := sndHash_inj wc _ _ (by omega) (by omega) (BitVec.eq_of_toNat_eq he)
    have hij : i = j := by omega
    subst hij
    rw [hi] at hj
    cases hj
    exact ⟨rfl, rfl, rfl⟩
  have hq : Reader.QInv [] Reader.init [] := ⟨rfl, rfl, by simp [Reader.init]⟩
  have := Reader.run_ideal rc hd [] _ (hsteady (run wc init h).2.flatten) Reader.init []
    (by rw [harr]; simpa using hdist) hq
  rw [this, harr]
  have key : ∀ (h : List Op) (st : State) (last : String → Option Int),
      (∀ x, last wc.tid = some x → x ≤ st.clock) →
      Reader.ideal rc [] last (run wc st h).2.flatten = (run wc st h).2.filterMap List.head? := by
    intro h
    induction h with
    | nil => intro st last _; rfl
    | cons op h ih =>
      intro st last hl
      simp only [run, List.flatten_cons, List.filterMap_cons]
      rw [ideal_copies rc hu hs ht (step wc st op).2 _ wc.tid ((st.clock : Int) + 1) last
        (fun x hx => by have := hl x hx; omega)
        (by
          intro s hs'
          obtain ⟨m, l, _, _, rfl⟩ := step_copies wc st op s hs'
          exact ⟨rfl, by simp [copyOf]⟩)]
      rw [ih]
      · cases (step wc st op).2 <;> simp
      · intro x hx
        have hk := step_clock wc st op
        split at hx
        · have := hl x hx; rw [hk]; split <;> omega
        · next hne =>
          obtain ⟨s, hsm⟩ := List.exists_mem_of_ne_nil _ hne
          obtain ⟨m, l, rfl, hc, _⟩ := step_copies wc st op s hsm
          rw [if_pos ⟨hc, rfl⟩] at hk
          simp only [if_true, Option.some.injEq] at hx
          rw [hk]; omega
  exact key h init (fun t => Reader.init.clocks.find t) (by simp [Reader.init])

example :
    (Reader.delivered (Reader.run ⟨true, true, true, true⟩ Reader.init
      ((run cfg init [.send ⟨[1], 5, 0⟩, locSub, .send ⟨[2], 6, 0⟩, remSub, .send ⟨[3], 7, 0⟩]).2.flatten.map
        .sample)).2).map (·.payload) = [[2], [3]] := by decide +kernel

end Ecal.Writer
