import Verif.Service.ServerEvents

/-! # C41: notifications of a service server -/

namespace Ecal.Service.ServerEvents

/-- `connected, disconnected, connected, …` -/
def alternating (n : Nat) : List Event :=
  (List.range n).map (fun i => if i % 2 = 0 then .connected else .disconnected)

theorem alternating_succ (n : Nat) : alternating (n + 1) =
    alternating n ++ [if n % 2 = 0 then Event.connected else .disconnected] := by
  simp [alternating, List.range_succ]

/-! ## Violations -/

/-- **C41 is violated (lost `disconnected`).**  Client 1 is connected, client 2 is still in the
handshake.  Client 1 leaves: no notification, because the handshaking session counts as a connection.
Client 2's handshake fails: no event at all.  All clients are gone, the last notification is
`connected`. -/
theorem C41_violated_lost_disconnect :
    let st := run start [.accept 1 .v1, .established 1, .callback 0, .accept 2 .v1, .lost 1,
      .callback 0, .refused 2]
    st.sessions = [] ∧ st.waiting = [] ∧ st.notes = [.connected] ∧ st.flag1 = true := by
  decide

/-- … and the next client is not announced either. -/
theorem C41_violated_next_client_silent :
    let st := run start [.accept 1 .v1, .established 1, .callback 0, .accept 2 .v1, .lost 1,
      .callback 0, .refused 2, .accept 3 .v1, .established 3, .callback 0]
    st.sessions = [(3, .v1, .connected)] ∧ st.notes = [.connected] := by
  decide

/-- **C41 is violated (wrong type under concurrency).**  Two clients leave at the same time while a
third one connects: the second handler sees the new session, takes the change for its own event and
reports `disconnected` twice; the new connection is never announced. -/
theorem C41_violated_double_disconnect :
    let st := run start [.accept 1 .v1, .established 1, .callback 0, .accept 2 .v1, .established 2,
      .callback 0, .lost 1, .lost 2, .callback 0, .accept 3 .v1, .callback 0, .established 3,
      .callback 0]
    st.sessions = [(3, .v1, .connected)] ∧
      st.notes = [.connected, .disconnected, .disconnected] := by
  decide

/-- **C41 is violated (two protocol versions).**  A version 0 and a version 1 client are announced
with two `connected` in a row. -/
theorem C41_violated_two_protocols :
    (run start [.accept 1 .v0, .established 1, .callback 0, .accept 2 .v1, .established 2,
      .callback 0]).notes = [.connected, .connected] := by
  decide

/-- **C41 (removed callback).**  After `RemEventCallback` the next event calls an empty function: an
exception in the IO thread. -/
theorem C41_violated_removed_callback :
    (run start [.remCallback .connected, .accept 1 .v1, .established 1, .callback 0]).crashed = true := by
  decide

/-! ## What holds -/

/-- Session life cycles with undisturbed callbacks: the event handler of a session runs before
anything else happens. -/
inductive Op where
  | accept (id : Nat) | established (id : Nat) | refused (id : Nat) | lost (id : Nat)
deriving DecidableEq, Repr

def Op.steps : Op → List Step
  | .accept id => [.accept id .v1]
  | .established id => [.established id, .callback 0]
  | .refused id => [.refused id]
  | .lost id => [.lost id, .callback 0]

def runOps (st : State) (ops : List Op) : State := ops.foldl (fun s o => run s o.steps) st

/-- No handshake is under way when a client is lost. -/
def Calm : State → List Op → Prop
  | _, [] => True
  | st, o :: l =>
    (∀ id, o = .lost id → ∀ i p s, (i, p, s) ∈ st.sessions → s ≠ Sess.pending) ∧ Calm (run st o.steps) l

structure Inv (st : State) : Prop where
  waiting : st.waiting = []
  nodup : (AMap.keys st.sessions).Nodup
  states : ∀ i p s, st.sessions.find i = some (p, s) → p = Proto.v1 ∧ s ≠ Sess.failed
  flag0 : st.flag0 = false
  flag1 : st.flag1 = true ↔ ∃ i, st.sessions.find i = some (.v1, .connected)
  conn : st.onConn = .fn
  disc : st.onDisc = .fn
  notes : ∃ n, st.notes = alternating n ∧ (st.flag1 = true ↔ n % 2 = 1)

theorem isConnected_iff {st : State} (hn : (AMap.keys st.sessions).Nodup) (p : Proto) :
    isConnected st p = true ↔ ∃ i s, st.sessions.find i = some (p, s) ∧ s ≠ .failed := by
  unfold isConnected
  rw [List.any_eq_true]
  constructor
  · rintro ⟨⟨i, q, s⟩, hm, hc⟩
    simp only [Bool.and_eq_true, beq_iff_eq, bne_iff_ne, ne_eq] at hc
    obtain ⟨rfl, hs⟩ := hc
    exact ⟨i, s, AMap.find_of_mem hn hm, hs⟩
  · rintro ⟨i, s, hf, hs⟩
    refine ⟨(i, p, s), AMap.mem_of_find hf, ?_⟩
    simp [hs]

theorem find_set' (m : AMap Nat (Proto × Sess)) (k : Nat) (w : Proto × Sess) (x : Nat) :
    (m.set k w).find x = if k = x then some w else m.find x := AMap.find_set m k w x

/-- The callback of an event when the flags need a change of `v1` only. -/
theorem eventCallback_eq (st : State) (e : Event) (h0 : st.flag0 = false)
    (hc0 : isConnected st .v0 = false) (hfn : handlerOf st e = .fn) :
    eventCallback st e = { st with
      flag1 := isConnected st .v1
      notes := if st.flag1 = isConnected st .v1 then st.notes else st.notes ++ [e] } := by
  unfold eventCallback
  rw [hc0, hfn]
  generalize isConnected st .v1 = c1
  obtain ⟨ss, f0, f1, w, oc, od, n, c⟩ := st
  simp only at h0
  subst h0
  cases f1 <;> cases c1 <;> rfl

theorem inv_op {st : State} (h : Inv st) (o : Op)
    (hcalm : ∀ id, o = .lost id → ∀ i p s, (i, p, s) ∈ st.sessions → s ≠ Sess.pending) :
    Inv (run st o.steps) := by
  obtain ⟨hw, hnd, hst, h0, h1, hoc, hod, n, hnotes, hn⟩ := h
  cases o with
  | accept id =>
    simp only [Op.steps, run, List.foldl_cons, List.foldl_nil, step]
    split
    · rename_i hnone
      refine ⟨hw, AMap.nodup_set hnd _ _, ?_, h0, ?_, hoc, hod, n, hnotes, hn⟩
      · intro i p s hf
        simp only [find_set'] at hf
        split at hf
        · cases hf; exact ⟨rfl, by simp⟩
        · exact hst i p s hf
      · rw [h1]
        constructor
        · rintro ⟨i, hi⟩
          refine ⟨i, ?_⟩
          simp only [find_set']
          rw [if_neg]
          · exact hi
          · rintro rfl; rw [hnone] at hi; cases hi
        · rintro ⟨i, hi⟩
          simp only [find_set'] at hi
          split at hi
          · simp at hi
          · exact ⟨i, hi⟩
    · exact ⟨hw, hnd, hst, h0, h1, hoc, hod, n, hnotes, hn⟩
  | refused id =>
    simp only [Op.steps, run, List.foldl_cons, List.foldl_nil, step]
    split
    · rename_i p hf
      refine ⟨hw, AMap.nodup_erase hnd _, ?_, h0, ?_, hoc, hod, n, hnotes, hn⟩
      · intro i p s hf'
        simp only [AMap.find_erase] at hf'
        split at hf'
        · cases hf'
        · exact hst i p s hf'
      · rw [h1]
        constructor
        · rintro ⟨i, hi⟩
          refine ⟨i, ?_⟩
          simp only [AMap.find_erase]
          rw [if_neg]
          · exact hi
          · rintro rfl; rw [hf] at hi; simp at hi
        · rintro ⟨i, hi⟩
          simp only [AMap.find_erase] at hi
          split at hi
          · cases hi
          · exact ⟨i, hi⟩
    · exact ⟨hw, hnd, hst, h0, h1, hoc, hod, n, hnotes, hn⟩
  | established id =>
    simp only [Op.steps, run, List.foldl_cons, List.foldl_nil]
    cases hf : st.sessions.find id with
    | none =>
      have e1 : step st (.established id) = st := by simp only [step, hf]
      have e2 : step st (.callback 0) = st := by simp [step, hw]
      rw [e1, e2]
      exact ⟨hw, hnd, hst, h0, h1, hoc, hod, n, hnotes, hn⟩
    | some ps =>
      obtain ⟨p, s⟩ := ps
      obtain ⟨rfl, hs⟩ := hst id p s hf
      cases s with
      | failed => exact absurd rfl hs
      | connected =>
        have e1 : step st (.established id) = st := by simp only [step, hf]
        have e2 : step st (.callback 0) = st := by simp [step, hw]
        rw [e1, e2]
        exact ⟨hw, hnd, hst, h0, h1, hoc, hod, n, hnotes, hn⟩
      | pending =>
        have e1 : step st (.established id) = { st with
            sessions := st.sessions.set id (.v1, .connected), waiting := [(id, .connected)] } := by
          simp [step, hf, hw]
        rw [e1]
        have hnd' := AMap.nodup_set hnd id (Proto.v1, Sess.connected)
        have hst' : ∀ i p s, (st.sessions.set id (Proto.v1, Sess.connected)).find i = some (p, s) →
            p = Proto.v1 ∧ s ≠ Sess.failed := by
          intro i p s hf'
          simp only [find_set'] at hf'
          split at hf'
          · cases hf'; exact ⟨rfl, by simp⟩
          · exact hst i p s hf'
        have hfid : (st.sessions.set id (Proto.v1, Sess.connected)).find id
            = some (Proto.v1, Sess.connected) := AMap.find_set_self _ _ _
        generalize st.sessions.set id (Proto.v1, Sess.connected) = ss at *
        have hc0 : isConnected { st with sessions := ss, waiting := [] } .v0 = false := by
          rw [Bool.eq_false_iff, ne_eq, isConnected_iff (by exact hnd')]
          rintro ⟨i, s, hi, _⟩
          have := (hst' i _ s hi).1
          cases this
        have hc1 : isConnected { st with sessions := ss, waiting := [] } .v1 = true := by
          rw [isConnected_iff (by exact hnd')]
          exact ⟨id, .connected, hfid, by simp⟩
        have e2 : step { st with sessions := ss, waiting := [(id, Event.connected)] } (.callback 0) =
            eventCallback { st with sessions := ss, waiting := [] } .connected := by
          simp [step]
        rw [e2, eventCallback_eq _ _ (by exact h0) hc0 (by exact hoc), hc1]
        refine ⟨rfl, hnd', hst', h0, ⟨fun _ => ⟨id, hfid⟩, fun _ => rfl⟩, hoc, hod, ?_⟩
        by_cases hfl : st.flag1 = true
        · exact ⟨n, by simp [hfl, hnotes], by simpa [hfl] using hn⟩
        · refine ⟨n + 1, ?_, ?_⟩
          · have hn0 : n % 2 = 0 := by
              have : ¬ n % 2 = 1 := fun hh => hfl (hn.2 hh)
              omega
            rw [alternating_succ, if_pos hn0, ← hnotes]
            simp [hfl]
          · simp only [true_iff]
            have : ¬ n % 2 = 1 := fun hh => hfl (hn.2 hh)
            omega
  | lost id =>
    have hcalm' := hcalm id rfl
    simp only [Op.steps, run, List.foldl_cons, List.foldl_nil]
    cases hf : st.sessions.find id with
    | none =>
      have e1 : step st (.lost id) = st := by simp only [step, hf]
      have e2 : step st (.callback 0) = st := by simp [step, hw]
      rw [e1, e2]
      exact ⟨hw, hnd, hst, h0, h1, hoc, hod, n, hnotes, hn⟩
    | some ps =>
      obtain ⟨p, s⟩ := ps
      obtain ⟨rfl, hs⟩ := hst id p s hf
      cases s with
      | failed => exact absurd rfl hs
      | pending => exact absurd rfl (hcalm' id _ _ (AMap.mem_of_find hf))
      | connected =>
        have hflag : st.flag1 = true := h1.2 ⟨id, hf⟩
        have hn1 : n % 2 = 1 := hn.1 hflag
        have e1 : step st (.lost id) = { st with
            sessions := st.sessions.set id (.v1, .failed), waiting := [(id, .disconnected)] } := by
          simp [step, hf, hw]
        rw [e1]
        have hnd' := AMap.nodup_set hnd id (Proto.v1, Sess.failed)
        have hfind := find_set' st.sessions id (Proto.v1, Sess.failed)
        generalize hss : st.sessions.set id (Proto.v1, Sess.failed) = ss at *
        have hc0 : isConnected { st with sessions := ss, waiting := [] } .v0 = false := by
          rw [Bool.eq_false_iff, ne_eq, isConnected_iff (by exact hnd')]
          rintro ⟨i, s, hi, hs'⟩
          simp only [hfind] at hi
          split at hi
          · simp at hi
          · have := (hst i _ s hi).1; cases this
        have e2 : step { st with sessions := ss, waiting := [(id, Event.disconnected)] } (.callback 0) =
            { eventCallback { st with sessions := ss, waiting := [] } .disconnected with
              sessions := (eventCallback { st with sessions := ss, waiting := [] }
                .disconnected).sessions.erase id } := by
          simp [step]
        rw [e2, eventCallback_eq _ _ (by exact h0) hc0 (by exact hod)]
        have hfe : ∀ i, (ss.erase id).find i = if id = i then none else st.sessions.find i := by
          intro i
          rw [AMap.find_erase]
          split
          · rfl
          · rename_i hne; rw [hfind, if_neg hne]
        have hc1 : isConnected { st with sessions := ss, waiting := [] } .v1 = true ↔
            ∃ i, (ss.erase id).find i = some (.v1, .connected) := by
          rw [isConnected_iff (by exact hnd')]
          constructor
          · rintro ⟨i, s, hi, hs'⟩
            refine ⟨i, ?_⟩
            rw [hfe]
            simp only [hfind] at hi
            split at hi
            · simp only [Option.some.injEq, Prod.mk.injEq, true_and] at hi
              exact absurd hi.symm hs'
            · rename_i hne
              rw [if_neg hne]
              have hsp := hcalm' i _ s (AMap.mem_of_find hi)
              cases s with
              | pending => exact absurd rfl hsp
              | failed => exact absurd rfl hs'
              | connected => exact hi
          · rintro ⟨i, hi⟩
            refine ⟨i, .connected, ?_, by simp⟩
            rw [hfe] at hi
            split at hi
            · cases hi
            · rename_i hne
              show AMap.find ss i = _
              rw [hfind, if_neg hne]; exact hi
        refine ⟨rfl, AMap.nodup_erase hnd' id, ?_, h0, hc1, hoc, hod, ?_⟩
        · intro i p s hi
          simp only [hfe] at hi
          split at hi
          · cases hi
          · exact hst i p s hi
        · generalize isConnected { st with sessions := ss, waiting := [] } .v1 = b
          simp only [hflag]
          cases b with
          | true => exact ⟨n, by simp [hnotes], by simp [hn1]⟩
          | false =>
            refine ⟨n + 1, ?_, ?_⟩
            · rw [alternating_succ, ← hnotes]; simp [hn1]
            · simp only [Bool.false_eq_true, false_iff]; omega

theorem inv_ops (ops : List Op) : ∀ (st : State), Inv st → Calm st ops → Inv (runOps st ops) := by
  induction ops with
  | nil => intro st h _; exact h
  | cons o l ih => intro st h hc; exact ih _ (inv_op h o hc.1) hc.2

theorem inv_start : Inv start where
  waiting := rfl
  nodup := by simp [start]
  states := by simp [start]
  flag0 := rfl
  flag1 := by simp [start]
  conn := rfl
  disc := rfl
  notes := ⟨0, rfl, by simp [start]⟩

/-- **C41 (partial).**  For version 1 clients, if event handlers are not interrupted by other
sessions and no handshake is under way when a client is lost, the notifications alternate, starting
with `connected`; the last one is `connected` exactly if some client is connected. -/
theorem C41_alternate_partial (ops : List Op) (h : Calm start ops) :
    ∃ n, (runOps start ops).notes = alternating n ∧
      ((∃ i, (runOps start ops).sessions.find i = some (.v1, .connected)) ↔ n % 2 = 1) := by
  have hi := inv_ops ops start inv_start h
  obtain ⟨n, h1, h2⟩ := hi.notes
  exact ⟨n, h1, hi.flag1.symm.trans h2⟩

/-- After all clients are gone, the last notification (if any) is `disconnected`. -/
theorem C41_last_is_disconnected_partial (ops : List Op) (h : Calm start ops)
    (hgone : (runOps start ops).sessions = []) :
    (runOps start ops).notes = [] ∨ (runOps start ops).notes.getLast? = some .disconnected := by
  obtain ⟨n, h1, h2⟩ := C41_alternate_partial ops h
  have hn : ¬ n % 2 = 1 := by
    intro hn
    obtain ⟨i, hi⟩ := h2.2 hn
    rw [hgone] at hi; cases hi
  rw [h1]
  cases n with
  | zero => exact Or.inl rfl
  | succ m =>
    right
    rw [alternating_succ, if_neg (by omega)]
    simp

/-- Two clients one after the other, the second one joining while the first is connected. -/
def sampleOps : List Op :=
  [.accept 1, .established 1, .accept 2, .established 2, .lost 1, .accept 3, .refused 3, .lost 2]

example : (runOps start sampleOps).notes = [.connected, .disconnected] := by decide

example : Calm start sampleOps := by
  refine ⟨by simp, by simp, by simp, by simp, ?_, by simp, by simp, ?_, trivial⟩
  · intro id _ i p s hm
    have : (i, p, s) ∈ [(1, Proto.v1, Sess.connected), (2, Proto.v1, Sess.connected)] := hm
    simp at this
    rcases this with ⟨_, _, rfl⟩ | ⟨_, _, rfl⟩ <;> simp
  · intro id _ i p s hm
    have : (i, p, s) ∈ [(2, Proto.v1, Sess.connected)] := hm
    simp at this
    rw [this.2.2]; simp

/-- **C41 (partial: no callback is removed).** As long as the application removes no callback the server never calls an
empty function. -/
theorem C41_no_crash_partial (steps : List Step) (h : ∀ e, .remCallback e ∉ steps) : (run start steps).crashed = false := by
  have key : ∀ (l : List Step) (st : State), (∀ e, .remCallback e ∉ l) →
      (st.onConn ≠ .empty ∧ st.onDisc ≠ .empty ∧ st.crashed = false) → (run st l).crashed = false := by
    intro l
    induction l with
    | nil => intro st _ hi; exact hi.2.2
    | cons a l ih =>
      intro st hn hi
      refine ih (step st a) (fun e he => hn e (by simp [he])) ?_
      obtain ⟨h1, h2, h3⟩ := hi
      have hev : ∀ (s : State) (e : Event), (s.onConn ≠ .empty ∧ s.onDisc ≠ .empty ∧ s.crashed = false) →
          (eventCallback s e).onConn ≠ .empty ∧ (eventCallback s e).onDisc ≠ .empty ∧ (eventCallback s e).crashed = false := by
        intro s e hs
        have hh : handlerOf s e ≠ .empty := by cases e <;> simp [handlerOf, hs.1, hs.2.1]
        unfold eventCallback
        simp only
        split
        · split
          · exact hs
          · next he => exact absurd he hh
          · exact hs
        · exact hs
      cases a with
      | addCallback e => cases e <;> simp [step, setHandler, h1, h2, h3]
      | remCallback e => exact absurd (by simp) (hn e)
      | accept id p => simp only [step]; split <;> exact ⟨h1, h2, h3⟩
      | established id => simp only [step]; split <;> exact ⟨h1, h2, h3⟩
      | refused id => simp only [step]; split <;> exact ⟨h1, h2, h3⟩
      | lost id => simp only [step]; split <;> (try split) <;> exact ⟨h1, h2, h3⟩
      | callback k =>
        simp only [step]
        split
        · exact ⟨h1, h2, h3⟩
        · next id e _ =>
          have := hev { st with waiting := st.waiting.eraseIdx k } e ⟨h1, h2, h3⟩
          split
          · exact this
          · exact this
  exact key steps start h ⟨by simp [start], by simp [start], rfl⟩

/-- **C41 (no notification without a change).**  An event that follows another one, with the same sessions connected, is not
notified, for either protocol. -/
theorem C41_no_note_without_change (st : State) (e e' : Event) :
    (eventCallback (eventCallback st e) e').notes = (eventCallback st e).notes := by
  have h : (eventCallback st e).flag0 = isConnected st .v0 ∧ (eventCallback st e).flag1 = isConnected st .v1 ∧
      (eventCallback st e).sessions = st.sessions := by
    unfold eventCallback; dsimp only
    split
    · split <;> exact ⟨rfl, rfl, rfl⟩
    · exact ⟨rfl, rfl, rfl⟩
  generalize eventCallback st e = s at h
  have h0 : isConnected s .v0 = s.flag0 := by rw [h.1]; simp only [isConnected, h.2.2]
  have h1 : isConnected s .v1 = s.flag1 := by rw [h.2.1]; simp only [isConnected, h.2.2]
  simp [eventCallback, h0, h1]

/-- The first event of a client of the old protocol is notified, the second is not. -/
example : (eventCallback { sessions := [(1, .v0, .connected)], onConn := .fn } .connected).notes = [.connected] := by decide

end Ecal.Service.ServerEvents
