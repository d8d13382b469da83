import Verif.Msg.Typed

/-! # Properties of typed publishing (C101) -/

namespace Ecal.Msg.Typed

/-- A well-behaved message type: the serialiser produces the announced size, and the deserialiser gets
the message back. -/
structure Lawful {M : Type} (c : Codec M) : Prop where
  ser : ∀ m, ∃ bs, c.ser m (c.size m) = some bs ∧ bs.length = c.size m ∧ c.de bs = some m

/-- The string type is well behaved. -/
example : Lawful stringCodec := ⟨fun m => ⟨m, by simp [stringCodec]⟩⟩

/-! ## Auxiliary -/

theorem length_resize (buf : List Byte) (n : Nat) : (resize buf n).length = n := by
  simp [resize]; omega

theorem put_same (buf bs : List Byte) (h : buf.length = bs.length) : put buf bs = bs := by
  simp [put, ← h]

/-- The payload of the message being sent. -/
def Good {M : Type} (c : Codec M) (m : M) (p : Payload M) : Prop :=
  match p with
  | .raw bs => c.de bs = some m
  | .lazy m' => m' = m

theorem Good.written {M : Type} {c : Codec M} (hc : Lawful c) {m : M} {p : Payload M}
    (h : Good c m p) (old : List Byte) :
    c.de (p.writeFull c (resize old (p.size c))) = some m := by
  cases p with
  | raw bs =>
    simp only [Good] at h
    simp only [Payload.writeFull, Payload.size, length_resize]
    by_cases hb : bs = []
    · subst hb; simp [resize, h]
    · rw [if_neg (by simp [hb]), put_same _ _ (length_resize _ _)]; exact h
  | lazy m' =>
    simp only [Good] at h
    subst h
    obtain ⟨bs, h1, h2, h3⟩ := hc.ser m'
    simp only [Payload.writeFull, Payload.size, length_resize, h1]
    rw [put_same _ _ (by rw [length_resize, h2])]
    exact h3

theorem typed_good {M : Type} {c : Codec M} (hc : Lawful c) (style : Style) (m : M) :
    ∃ p, typed c style true m = some p ∧ Good c m p := by
  cases style with
  | writer => exact ⟨.lazy m, rfl, rfl⟩
  | buffer =>
    obtain ⟨bs, h1, h2, h3⟩ := hc.ser m
    by_cases h0 : 0 < c.size m
    · refine ⟨.raw bs, ?_, h3⟩
      simp [typed, h0, serialised, h1, put_same (List.replicate (c.size m) 0) bs (by simp [h2])]
    · have : bs = [] := List.eq_nil_of_length_eq_zero (by omega)
      subst this
      exact ⟨.raw [], by simp [typed, h0], h3⟩

/-- The messages a subscriber was called with. -/
def received {M : Type} (s : State M) (n : Nat) : List M :=
  (s.got.filter (fun g => g.1 = n)).map (·.2)

/-- No subscriber connects while a send is under way. -/
def Calm {M : Type} (c : Codec M) (style : Style) : State M → List (Step M) → Prop
  | _, [] => True
  | s, op :: h =>
    (match op with
      | .connect _ => (match s.pc with | .idle => True | _ => False)
      | _ => True) ∧ Calm c style (step c style s op) h

/-- The messages completed before the send in progress. -/
def finished {M : Type} (s : State M) : List M :=
  match s.pc with
  | .idle => s.called
  | _ => s.called.dropLast

structure Inv {M : Type} (c : Codec M) (s : State M) : Prop where
  nodup : s.subs.Nodup
  sub   : ∀ n, (received s n).Sublist (finished s)
  cur   : match s.pc with
    | .idle => True
    | .begun m => s.called.getLast? = some m
    | .plain m p => s.called.getLast? = some m ∧ (s.subs ≠ [] → Good c m p)
    | .writing m p => s.called.getLast? = some m ∧ (s.subs ≠ [] → Good c m p)

theorem received_deliver {M : Type} (c : Codec M) (s : State M) (hn : s.subs.Nodup) (bs : List Byte)
    (n : Nat) (s' : State M) (hg : s'.got = s.got ++ deliver c s.subs bs) :
    received s' n = received s n ++
      (if n ∈ s.subs then (c.de bs).toList else []) := by
  unfold received
  rw [hg, List.filter_append, List.map_append]
  congr 1
  unfold deliver
  cases h : c.de bs with
  | none => simp
  | some m =>
    simp only [List.filter_map, List.map_map, Option.toList]
    have : (s.subs.filter ((fun g : Nat × M => decide (g.1 = n)) ∘ fun k => (k, m))) =
        s.subs.filter (fun k => k = n) := by
      congr 1
    rw [this]
    clear this
    generalize s.subs = l at hn
    induction l with
    | nil => simp
    | cons a l ih =>
      simp only [List.nodup_cons] at hn
      have := ih hn.2
      by_cases ha : a = n
      · subst ha
        simp [hn.1] at this ⊢
        intro x hx; intro h'; subst h'; exact hn.1 hx
      · have ha' : ¬ n = a := fun h => ha h.symm
        simp [ha, ha'] at this ⊢
        exact this

theorem dropLast_getLast {M : Type} {l : List M} {m : M} (h : l.getLast? = some m) :
    l = l.dropLast ++ [m] := by
  obtain ⟨ys, rfl⟩ := List.getLast?_eq_some_iff.1 h
  simp

theorem inv_step {M : Type} {c : Codec M} (hc : Lawful c) (style : Style) (s : State M) (op : Step M)
    (hi : Inv c s) (hq : match op with
      | .connect _ => (match s.pc with | .idle => True | _ => False)
      | _ => True) : Inv c (step c style s op) := by
  obtain ⟨hn, hsub, hcur⟩ := hi
  cases op with
  | start m =>
    cases hpc : s.pc with
    | idle =>
      simp only [step, hpc]
      refine ⟨hn, ?_, by simp⟩
      intro n
      have := hsub n
      simpa [received, finished, hpc] using this
    | _ => simp only [step, hpc]; exact ⟨hn, hsub, hcur⟩
  | typed =>
    cases hpc : s.pc with
    | begun m =>
      simp only [hpc] at hcur
      have hs := hsub
      simp only [finished, hpc] at hs
      have hlast := dropLast_getLast hcur
      simp only [step, hpc]
      cases ht : typed c style (!s.subs.isEmpty) m with
      | none =>
        refine ⟨hn, ?_, trivial⟩
        intro n
        refine (hs n).trans ?_
        simp only [finished]
        exact List.dropLast_sublist _
      | some p =>
        refine ⟨hn, ?_, hcur, ?_⟩
        · intro n; simpa [finished, received] using hs n
        · intro hne
          obtain ⟨p', hp', hg⟩ := typed_good hc style m
          have : (!s.subs.isEmpty) = true := by
            cases hl : s.subs with
            | nil => exact absurd hl hne
            | cons => rfl
          rw [this, hp'] at ht
          cases ht
          exact hg
    | _ => simp only [step, hpc]; exact ⟨hn, hsub, hcur⟩
  | check =>
    cases hpc : s.pc with
    | plain m p =>
      simp only [hpc] at hcur
      have hs := hsub
      simp only [finished, hpc] at hs
      have hfin : ∀ n, (received s n).Sublist s.called := fun n => (hs n).trans (List.dropLast_sublist _)
      simp only [step, hpc]
      by_cases h1 : (!s.created) = true
      · rw [if_pos h1]; exact ⟨hn, fun n => hfin n, trivial⟩
      · rw [if_neg h1]
        by_cases h2 : s.subs.isEmpty = true
        · rw [if_pos h2]; exact ⟨hn, fun n => hfin n, trivial⟩
        · rw [if_neg h2]
          exact ⟨hn, fun n => hs n, hcur.1, hcur.2⟩
    | _ => simp only [step, hpc]; exact ⟨hn, hsub, hcur⟩
  | write =>
    cases hpc : s.pc with
    | writing m p =>
      simp only [hpc] at hcur
      have hs := hsub
      simp only [finished, hpc] at hs
      have hlast := dropLast_getLast hcur.1
      simp only [step, hpc]
      refine ⟨hn, ?_, trivial⟩
      intro n
      rw [received_deliver c s hn _ n _ rfl]
      simp only [finished]
      rw [hlast]
      refine (hs n).append ?_
      by_cases hm : n ∈ s.subs
      · rw [if_pos hm, (hcur.2 (List.ne_nil_of_mem hm)).written hc]
        exact List.Sublist.refl _
      · rw [if_neg hm]; exact List.nil_sublist _
    | _ => simp only [step, hpc]; exact ⟨hn, hsub, hcur⟩
  | connect k =>
    simp only at hq
    cases hpc : s.pc with
    | idle =>
      simp only [step]
      by_cases hm : k ∈ s.subs
      · rw [if_pos hm]; exact ⟨hn, hsub, hcur⟩
      · rw [if_neg hm]
        refine ⟨?_, ?_, ?_⟩
        · simp only [List.nodup_append]
          refine ⟨hn, by simp, ?_⟩
          intro a ha b hb hab
          simp at hb; subst hb; subst hab; exact hm ha
        · intro n; simpa [finished, received] using hsub n
        · simp [hpc]
    | _ => rw [hpc] at hq; exact hq.elim
  | disconnect k =>
    simp only [step]
    refine ⟨hn.filter _, fun n => by simpa [finished, received] using hsub n, ?_⟩
    have hne : s.subs.filter (fun x => decide (x ≠ k)) ≠ [] → s.subs ≠ [] := by
      intro h h'; rw [h'] at h; simp at h
    cases hpc : s.pc with
    | idle => trivial
    | begun m => simpa [hpc] using hcur
    | plain m p => simp only [hpc] at hcur; exact ⟨hcur.1, fun h => hcur.2 (hne h)⟩
    | writing m p => simp only [hpc] at hcur; exact ⟨hcur.1, fun h => hcur.2 (hne h)⟩

theorem inv_run {M : Type} {c : Codec M} (hc : Lawful c) (style : Style) (h : List (Step M)) :
    ∀ s : State M, Inv c s → Calm c style s h → Inv c (run c style s h) := by
  induction h with
  | nil => intro s hi _; exact hi
  | cons op h ih =>
    intro s hi hq
    exact ih _ (inv_step hc style s op hi hq.1) hq.2

/-! ## C101 -/

/-- **C101 (no subscriber connects in the middle of a send).** For every well-behaved message type and
both families of publishers: whatever subscribers connect between sends and disconnect at any time, the
messages a subscriber's callback gets are a subsequence of the messages the application sent - nothing
invented, nothing twice, nothing out of order.
Missing: a subscriber that connects inside a send of a `CMsgPublisher`, see
`C101_violated_empty_message`. -/
theorem C101_received_were_sent_partial {M : Type} (c : Codec M) (hc : Lawful c) (style : Style)
    (h : List (Step M)) (hq : Calm c style {} h) (n : Nat) :
    (received (run c style {} h) n).Sublist (run c style {} h).called := by
  have hi : Inv c (run c style ({} : State M) h) :=
    inv_run hc style h _ ⟨List.nodup_nil, fun _ => by simp [received], trivial⟩ hq
  refine (hi.sub n).trans ?_
  unfold finished
  split
  · exact List.Sublist.refl _
  · exact List.dropLast_sublist _

/-- Two sends, a subscriber in between that leaves in the middle of the last. -/
example : Calm stringCodec .buffer {}
      (send [1] ++ [.connect 3] ++ send [2, 3] ++ [.start [4], .typed, .disconnect 3, .check]) ∧
    received (run stringCodec .buffer {}
      (send [1] ++ [.connect 3] ++ send [2, 3] ++ [.start [4], .typed, .disconnect 3, .check])) 3
      = [[2, 3]] := by
  refine ⟨?_, by decide +kernel⟩
  simp [send, Calm, step, typed, stringCodec]

/-- Every payload of a publisher with its own payload writer belongs to the message being sent. -/
structure LazyInv {M : Type} (s : State M) : Prop where
  nodup : s.subs.Nodup
  sub   : ∀ n, (received s n).Sublist (finished s)
  cur   : match s.pc with
    | .idle => True
    | .begun m => s.called.getLast? = some m
    | .plain m p => s.called.getLast? = some m ∧ p = .lazy m
    | .writing m p => s.called.getLast? = some m ∧ p = .lazy m

theorem lazyInv_step {M : Type} {c : Codec M} (hc : Lawful c) (s : State M) (op : Step M)
    (hi : LazyInv s) : LazyInv (step c .writer s op) := by
  obtain ⟨hn, hsub, hcur⟩ := hi
  cases op with
  | start m =>
    cases hpc : s.pc with
    | idle =>
      simp only [step, hpc]
      refine ⟨hn, ?_, by simp⟩
      intro n
      have := hsub n
      simpa [received, finished, hpc] using this
    | _ => simp only [step, hpc]; exact ⟨hn, hsub, hcur⟩
  | typed =>
    cases hpc : s.pc with
    | begun m =>
      simp only [hpc] at hcur
      have hs := hsub
      simp only [finished, hpc] at hs
      simp only [step, hpc, typed]
      exact ⟨hn, fun n => by simpa [finished, received] using hs n, hcur, rfl⟩
    | _ => simp only [step, hpc]; exact ⟨hn, hsub, hcur⟩
  | check =>
    cases hpc : s.pc with
    | plain m p =>
      simp only [hpc] at hcur
      have hs := hsub
      simp only [finished, hpc] at hs
      have hfin : ∀ n, (received s n).Sublist s.called := fun n => (hs n).trans (List.dropLast_sublist _)
      simp only [step, hpc]
      by_cases h1 : (!s.created) = true
      · rw [if_pos h1]; exact ⟨hn, fun n => hfin n, trivial⟩
      · rw [if_neg h1]
        by_cases h2 : s.subs.isEmpty = true
        · rw [if_pos h2]; exact ⟨hn, fun n => hfin n, trivial⟩
        · rw [if_neg h2]
          exact ⟨hn, fun n => hs n, hcur.1, hcur.2⟩
    | _ => simp only [step, hpc]; exact ⟨hn, hsub, hcur⟩
  | write =>
    cases hpc : s.pc with
    | writing m p =>
      simp only [hpc] at hcur
      have hs := hsub
      simp only [finished, hpc] at hs
      have hlast := dropLast_getLast hcur.1
      have hg : Good c m p := by rw [hcur.2]; rfl
      simp only [step, hpc]
      refine ⟨hn, ?_, trivial⟩
      intro n
      rw [received_deliver c s hn _ n _ rfl]
      simp only [finished]
      rw [hlast]
      refine (hs n).append ?_
      by_cases hm : n ∈ s.subs
      · rw [if_pos hm, hg.written hc]
        exact List.Sublist.refl _
      · rw [if_neg hm]; exact List.nil_sublist _
    | _ => simp only [step, hpc]; exact ⟨hn, hsub, hcur⟩
  | connect k =>
    simp only [step]
    by_cases hm : k ∈ s.subs
    · rw [if_pos hm]; exact ⟨hn, hsub, hcur⟩
    · rw [if_neg hm]
      refine ⟨?_, ?_, ?_⟩
      · simp only [List.nodup_append]
        refine ⟨hn, by simp, ?_⟩
        intro a ha b hb hab
        simp at hb; subst hb; subst hab; exact hm ha
      · intro n; simpa [finished, received] using hsub n
      · exact hcur
  | disconnect k =>
    simp only [step]
    exact ⟨hn.filter _, fun n => by simpa [finished, received] using hsub n, hcur⟩

/-- **C101 (publishers with their own payload writer).** For protobuf and capnproto publishers the same
holds without any condition on when subscribers connect. -/
theorem C101_writer_received_were_sent {M : Type} (c : Codec M) (hc : Lawful c)
    (h : List (Step M)) (n : Nat) :
    (received (run c .writer {} h) n).Sublist (run c .writer {} h).called := by
  have key : ∀ h (s : State M), LazyInv s → LazyInv (run c .writer s h) := by
    intro h
    induction h with
    | nil => intro s hi; exact hi
    | cons op h ih => intro s hi; exact ih _ (lazyInv_step hc s op hi)
  have hi := key h {} ⟨List.nodup_nil, fun _ => by simp [received], trivial⟩
  refine (hi.sub n).trans ?_
  unfold finished
  split
  · exact List.Sublist.refl _
  · exact List.dropLast_sublist _

/-- A subscriber connecting inside the send. -/
example : received (run stringCodec .writer {}
    [.start [7], .typed, .connect 1, .check, .write]) 1 = [[7]] := by decide +kernel

/-- **C101 (completeness).** An undisturbed send reaches every connected subscriber exactly once and
returns the size of the message. -/
theorem C101_send_reaches_all {M : Type} (c : Codec M) (hc : Lawful c) (style : Style) (s : State M)
    (hidle : s.pc = .idle) (hcr : s.created = true) (hn : s.subs.Nodup) (hne : s.subs ≠ []) (m : M) :
    (run c style s (send m)).pc = .idle ∧
    (run c style s (send m)).rets = s.rets ++ [c.size m] ∧
    (run c style s (send m)).count = s.count + 1 ∧
    ∀ n, received (run c style s (send m)) n =
      received s n ++ (if n ∈ s.subs then [m] else []) := by
  have hsub : (!s.subs.isEmpty) = true := by
    cases hl : s.subs with
    | nil => exact absurd hl hne
    | cons => rfl
  have hemp : s.subs.isEmpty = false := by simpa using hsub
  obtain ⟨p, hp, hg⟩ := typed_good hc style m
  have hsize : p.size c = c.size m := by
    cases style with
    | writer => simp only [typed, Option.some.injEq] at hp; subst hp; rfl
    | buffer =>
      obtain ⟨bs, h1, h2, h3⟩ := hc.ser m
      by_cases h0 : 0 < c.size m
      · simp [typed, h0, serialised, h1, put_same (List.replicate (c.size m) 0) bs (by simp [h2])] at hp
        subst hp; simpa [Payload.size] using h2
      · simp [typed, h0] at hp
        subst hp; simp [Payload.size]; omega
  have hrun : run c style s (send m) =
      { s with pc := .idle, called := s.called ++ [m], rets := s.rets ++ [p.size c],
               count := s.count + 1, wbuf := p.writeFull c (resize s.wbuf (p.size c)),
               got := s.got ++ deliver c s.subs (p.writeFull c (resize s.wbuf (p.size c))) } := by
    simp [run, send, step, hidle, hp, hcr, hemp]
  rw [hrun]
  refine ⟨rfl, by simp [hsize], rfl, ?_⟩
  intro n
  rw [received_deliver c s hn _ n _ rfl, hg.written hc]
  rfl

/-- Two subscribers. -/
example : (run stringCodec .buffer { subs := [1, 2] } (send [9, 8])).rets = [2] ∧
    received (run stringCodec .buffer { subs := [1, 2] } (send [9, 8])) 2 = [[9, 8]] := by decide +kernel

/-- **C101 (violated: a message nobody sent).** A `CMsgPublisher` that finds no subscriber replaces the
message by an empty payload and calls the plain `Send`, which looks again: a subscriber that connects
between the two looks receives the empty message - for a string topic the empty string - although the
application sent `[104, 105]`. -/
theorem C101_violated_empty_message :
    (run stringCodec .buffer {} [.start [104, 105], .typed, .connect 1, .check, .write]).called
      = [[104, 105]] ∧
    received (run stringCodec .buffer {} [.start [104, 105], .typed, .connect 1, .check, .write]) 1
      = [[]] := by decide +kernel

/-- **C101 (violated: a failed payload writer).** The result of `WriteFull` is ignored when the payload is
copied: if a payload writer fails, the bytes of the previous message still in the buffer are sent as a new
sample. The subscriber gets the previous reading again, under a new counter value, and `Send` returns the
full size as if it had worked. -/
theorem C101_violated_stale_message :
    (run deviceCodec .writer { subs := [1] } (send (some (3, 4)) ++ send none)).called
      = [some (3, 4), none] ∧
    received (run deviceCodec .writer { subs := [1] } (send (some (3, 4)) ++ send none)) 1
      = [some (3, 4), some (3, 4)] ∧
    (run deviceCodec .writer { subs := [1] } (send (some (3, 4)) ++ send none)).rets = [2, 2] := by
  decide +kernel

/-- The same failing message sent through a `CMsgPublisher` is not sent at all: the call returns 0 and
the subscriber keeps what it had. -/
theorem C101_buffer_failure_not_sent {M : Type} (c : Codec M) (s : State M) (m : M)
    (hidle : s.pc = .idle) (hne : s.subs ≠ []) (h0 : 0 < c.size m) (hf : c.ser m (c.size m) = none) :
    (run c .buffer s (send m)).got = s.got ∧ (run c .buffer s (send m)).rets = s.rets ++ [0] ∧
    (run c .buffer s (send m)).count = s.count := by
  have hsub : s.subs.isEmpty = false := by
    cases hl : s.subs with
    | nil => exact absurd hl hne
    | cons => rfl
  simp [run, send, step, hidle, typed, hsub, h0, serialised, hf]

example : (run deviceCodec .buffer { subs := [1] } (send none)).rets = [0] := by decide +kernel

/-- **C101 (violated: the number of bytes sent).** Without any subscriber nothing is sent, yet a publisher
with its own payload writer reports the full size; a `CMsgPublisher` reports 0 for the same message, which
is also what it reports for an empty message that did reach every subscriber. -/
theorem C101_violated_bytes_sent :
    (run stringCodec .writer {} (send [1, 2, 3])).rets = [3] ∧
    (run stringCodec .writer {} (send [1, 2, 3])).got = [] ∧
    (run stringCodec .buffer {} (send [1, 2, 3])).rets = [0] ∧
    (run stringCodec .buffer { subs := [1] } (send [])).rets = [0] ∧
    received (run stringCodec .buffer { subs := [1] } (send [])) 1 = [[]] := by decide +kernel

/-- **C101 (a publisher that was never created or was destroyed).** Nothing is delivered, whatever happens,
and every send reports that it sent 0 bytes. -/
theorem C101_not_created_sends_nothing {M : Type} (c : Codec M) (style : Style) (h : List (Step M)) :
    (run c style { created := false } h).got = [] ∧
    ∀ n ∈ (run c style { created := false } h).rets, n = 0 := by
  have key : ∀ h (s : State M), s.created = false → s.got = [] → (∀ n ∈ s.rets, n = 0) →
      (match s.pc with | .writing _ _ => False | _ => True) → (run c style s h).got = [] ∧
      ∀ n ∈ (run c style s h).rets, n = 0 := by
    intro h
    induction h with
    | nil => intro s _ hg hz _; exact ⟨hg, hz⟩
    | cons op h ih =>
      intro s hc hg hz hp
      have hr : run c style s (op :: h) = run c style (step c style s op) h := rfl
      rw [hr]
      refine ih _ ?_ ?_ ?_ ?_ <;> cases op <;> cases hpc : s.pc <;> simp only [step, hc, hpc] at hp ⊢ <;>
        grind
  exact key h _ rfl rfl (by simp) trivial

example : (run stringCodec .buffer { created := false } ([.connect 1] ++ send [5])).rets = [0] := by
  decide +kernel

/-- **Every send that reaches the data writer is counted**: for a created publisher, without subscribers or with them, the send
counter and the number of returns grow by one with every message when the message type itself can be written (the second
generation of publishers; the first one refuses only messages whose serialisation fails). -/
theorem C101_every_send_counted {M : Type} (c : Codec M) (h : List (Step M)) :
    (run c .writer {} h).count = (run c .writer {} h).rets.length := by
  have key : ∀ h (s : State M), s.created = true → s.count = s.rets.length →
      (run c .writer s h).count = (run c .writer s h).rets.length := by
    intro h
    induction h with
    | nil => intro s _ h2; exact h2
    | cons e h ih =>
      intro s h1 h2
      refine ih (step c .writer s e) ?_ ?_
      · cases e <;> simp only [step, typed] <;> (repeat' split) <;> simp_all
      · cases e <;> simp only [step, typed] <;> (repeat' split) <;> simp_all
  exact key h {} rfl rfl

example : (run stringCodec .writer {} (send [1, 2] ++ [.connect 1] ++ send [3])).count = 2 := by decide +kernel

end Ecal.Msg.Typed
