import Verif.Service.SessionStop
import Verif.Service.ClientSessionProps
import Verif.Service.ClientSessionV0Props

/-! # C93: stopping the client sessions lets the service threads end -/

namespace Ecal.Service.SessionStop

/-! ## What is left to do for a session -/

/-- An operation of the session is outstanding or one of its tasks is waiting. -/
def Enabled : Sess → SessStep → Prop
  | .v0 s, .v0 a => ClientV0.Enabled s a
  | .v1 s, .v1 a => Client.Enabled s a
  | _, _ => False

/-- The step completes an operation that only the peer can complete: the connection is open, and the session reads from it
or writes to it. -/
def Peer : Sess → SessStep → Prop
  | .v0 s, .v0 (.peekDone _) => s.isOpen = true
  | .v0 s, .v0 (.flightDone _ _) => s.isOpen = true
  | .v1 s, .v1 (.peekDone _) => s.isOpen = true
  | .v1 s, .v1 (.flightDone _ _ _) => s.isOpen = true
  | .v1 s, .v1 (.setupDone _ _) => s.isOpen = true ∧ (s.setup = some .hsSending ∨ s.setup = some .hsReceiving)
  | _, _ => False

/-- Nothing refers to the session any more: no operation outstanding, no task waiting. -/
def Quiet (s : Sess) : Prop := ∀ a, ¬ Enabled s a

/-- The connection of the session is being set up (no connection yet). -/
def Connecting : Sess → Prop
  | .v0 s => ∃ i, s.setup = some (.resolving i) ∨ s.setup = some (.connecting i)
  | .v1 s => ∃ i, s.setup = some (.resolving i) ∨ s.setup = some (.connecting i)

/-- Work left for a session, a number. -/
def work : Sess → Nat
  | .v0 s => ClientV0.work s
  | .v1 s => Client.work s

/-! ## A session stopped after the set-up -/

/-- The socket is closed and will not be opened. -/
def Past : Sess → Prop
  | .v0 s => s.isOpen = false ∧ ∀ i, s.setup ≠ some (.resolving i) ∧ s.setup ≠ some (.connecting i)
  | .v1 s => s.isOpen = false ∧ ∀ i, s.setup ≠ some (.resolving i) ∧ s.setup ≠ some (.connecting i)

theorem loss_v1 (s : Client.State) : (Client.loss s).isOpen = false ∧ (Client.loss s).setup = s.setup := by
  unfold Client.loss; simp only; split <;> exact ⟨rfl, rfl⟩

theorem next_v1 (s : Client.State) :
    (Client.sendNextOrPeek s).isOpen = s.isOpen ∧ (Client.sendNextOrPeek s).setup = s.setup := by
  unfold Client.sendNextOrPeek; cases s.queue <;> exact ⟨rfl, rfl⟩

theorem loss_v0 (s : ClientV0.State) : (ClientV0.loss s).isOpen = false ∧ (ClientV0.loss s).setup = s.setup := by
  unfold ClientV0.loss; simp only; split <;> exact ⟨rfl, rfl⟩

theorem next_v0 (s : ClientV0.State) :
    (ClientV0.sendNextOrPeek s).isOpen = s.isOpen ∧ (ClientV0.sendNextOrPeek s).setup = s.setup := by
  unfold ClientV0.sendNextOrPeek; cases s.queue <;> exact ⟨rfl, rfl⟩

/-- Outside the set-up steps: the socket is not opened, the set-up is as before. -/
theorem step_v1 (s : Client.State) (a : Client.Step) (h : ∀ x y, a ≠ .setupDone x y) :
    (s.isOpen = false → (Client.step s a).isOpen = false) ∧ (Client.step s a).setup = s.setup := by
  cases a with
  | call c => simp only [Client.step, Client.stepCall]; split <;> exact ⟨fun h => h, rfl⟩
  | stop => exact ⟨fun _ => rfl, rfl⟩
  | setupDone x y => exact absurd rfl (h x y)
  | runCall =>
    simp only [Client.step, Client.stepRunCall]
    cases s.posted with
    | nil => exact ⟨fun h => h, rfl⟩
    | cons c r =>
      simp only
      split
      · exact ⟨fun h => h, rfl⟩
      · split <;> exact ⟨fun h => h, rfl⟩
  | runFlush =>
    simp only [Client.step, Client.stepRunFlush]
    cases s.flushes with
    | zero => exact ⟨fun h => h, rfl⟩
    | succ n => cases s.queue <;> exact ⟨fun h => h, rfl⟩
  | flightDone k ok rt =>
    simp only [Client.step, Client.stepFlightDone, Client.setPhase]
    split
    · split <;> exact ⟨fun h => h, rfl⟩
    · split
      · split <;> exact ⟨fun h => h, rfl⟩
      · exact ⟨fun h => h, rfl⟩
    · exact ⟨fun h => h, rfl⟩
  | flightRun k =>
    simp only [Client.step, Client.stepFlightRun]
    split
    · have t := loss_v1 { s with flight := s.flight.eraseIdx k, answers := s.answers ++ [(‹Nat›, .error)] }
      exact ⟨fun _ => t.1, t.2⟩
    · have t := loss_v1 { s with flight := s.flight.eraseIdx k, answers := s.answers ++ [(‹Nat›, .error)] }
      exact ⟨fun _ => t.1, t.2⟩
    · rename_i c i _
      have t := next_v1 { s with flight := s.flight.eraseIdx k, answers := s.answers ++ [(c, .ok i)] }
      exact ⟨fun h => t.1.trans h, t.2⟩
    · exact ⟨fun h => h, rfl⟩
  | peekDone ok =>
    simp only [Client.step, Client.stepPeek]
    cases s.peeks with
    | zero => exact ⟨fun h => h, rfl⟩
    | succ n =>
      simp only
      split
      · exact ⟨fun h => h, rfl⟩
      · have t := loss_v1 { s with peeks := n }
        exact ⟨fun _ => t.1, t.2⟩

theorem step_v0 (s : ClientV0.State) (a : ClientV0.Step) (h : ∀ x, a ≠ .setupDone x) :
    (s.isOpen = false → (ClientV0.step s a).isOpen = false) ∧ (ClientV0.step s a).setup = s.setup := by
  cases a with
  | call c => simp only [ClientV0.step, ClientV0.stepCall]; split <;> exact ⟨fun h => h, rfl⟩
  | stop => exact ⟨fun _ => rfl, rfl⟩
  | setupDone x => exact absurd rfl (h x)
  | runCall =>
    simp only [ClientV0.step, ClientV0.stepRunCall]
    cases s.posted with
    | nil => exact ⟨fun h => h, rfl⟩
    | cons c r =>
      simp only
      split
      · exact ⟨fun h => h, rfl⟩
      · split <;> exact ⟨fun h => h, rfl⟩
  | runFlush =>
    simp only [ClientV0.step, ClientV0.stepRunFlush]
    cases s.flushes with
    | zero => exact ⟨fun h => h, rfl⟩
    | succ n => cases s.queue <;> exact ⟨fun h => h, rfl⟩
  | flightDone k ok =>
    simp only [ClientV0.step, ClientV0.stepFlightDone, ClientV0.setPhase]
    split
    · split <;> exact ⟨fun h => h, rfl⟩
    · split <;> exact ⟨fun h => h, rfl⟩
    · exact ⟨fun h => h, rfl⟩
  | flightRun k =>
    simp only [ClientV0.step, ClientV0.stepFlightRun]
    split
    · exact ⟨fun h => h, rfl⟩
    · have t := loss_v0 { s with flight := s.flight.eraseIdx k, answers := s.answers ++ [(‹Nat›, .error)] }
      exact ⟨fun _ => t.1, t.2⟩
    · rename_i c i _
      have t := next_v0 { s with flight := s.flight.eraseIdx k, answers := s.answers ++ [(c, .ok i)] }
      exact ⟨fun h => t.1.trans h, t.2⟩
    · exact ⟨fun h => h, rfl⟩
  | closeRun =>
    simp only [ClientV0.step, ClientV0.stepCloseRun]
    split
    · exact ⟨fun h => h, rfl⟩
    · exact ⟨fun _ => rfl, rfl⟩
  | lossRun =>
    simp only [ClientV0.step, ClientV0.stepLossRun]
    cases s.losing with
    | zero => exact ⟨fun h => h, rfl⟩
    | succ n =>
      have t := loss_v0 { s with losing := n }
      exact ⟨fun _ => t.1, t.2⟩
  | peekDone ok =>
    simp only [ClientV0.step, ClientV0.stepPeek]
    cases s.peeks with
    | zero => exact ⟨fun h => h, rfl⟩
    | succ n =>
      simp only
      split
      · exact ⟨fun h => h, rfl⟩
      · have t := loss_v0 { s with peeks := n }
        exact ⟨fun _ => t.1, t.2⟩

theorem past_step {s : Sess} (h : Past s) (a : SessStep) : Past (s.step a) := by
  match s, a, h with
  | .v0 s, .v1 _, h => exact h
  | .v1 s, .v0 _, h => exact h
  | .v0 s, .v0 a, h =>
    by_cases hs : ∃ x, a = .setupDone x
    · obtain ⟨x, rfl⟩ := hs
      have hn : s.setup = none := by
        match hc : s.setup with
        | none => rfl
        | some (.resolving i) => exact absurd hc (h.2 i).1
        | some (.connecting i) => exact absurd hc (h.2 i).2
      have he : ClientV0.step s (.setupDone x) = s := by simp only [ClientV0.step, ClientV0.stepSetup, hn]
      simp only [Sess.step, he]; exact h
    · have t := step_v0 s a (fun x hx => hs ⟨x, hx⟩)
      exact ⟨t.1 h.1, fun i => by rw [t.2]; exact h.2 i⟩
  | .v1 s, .v1 a, h =>
    by_cases hs : ∃ x y, a = .setupDone x y
    · obtain ⟨x, y, rfl⟩ := hs
      match hc : s.setup with
      | none =>
        have he : Client.step s (.setupDone x y) = s := by simp only [Client.step, Client.stepSetup, hc]
        simp only [Sess.step, he]; exact h
      | some (.resolving i) => exact absurd hc (h.2 i).1
      | some (.connecting i) => exact absurd hc (h.2 i).2
      | some .hsSending =>
        have he : Client.step s (.setupDone x y) = Client.loss { s with setup := none } := by
          simp [Client.step, Client.stepSetup, hc, h.1]
        have t := loss_v1 { s with setup := none }
        simp only [Sess.step, he]
        exact ⟨t.1, fun i => by rw [t.2]; simp⟩
      | some .hsReceiving =>
        have he : Client.step s (.setupDone x y) = Client.loss { s with setup := none } := by
          simp [Client.step, Client.stepSetup, hc, h.1]
        have t := loss_v1 { s with setup := none }
        simp only [Sess.step, he]
        exact ⟨t.1, fun i => by rw [t.2]; simp⟩
    · have t := step_v1 s a (fun x y hx => hs ⟨x, y, hx⟩)
      exact ⟨t.1 h.1, fun i => by rw [t.2]; exact h.2 i⟩

theorem stop_eq (s : Sess) : ∃ a, s.stop = s.step a := by
  cases s with
  | v0 s => exact ⟨.v0 .stop, rfl⟩
  | v1 s => exact ⟨.v1 .stop, rfl⟩

theorem past_stop {s : Sess} (h : Past s) : Past s.stop := by
  obtain ⟨a, ha⟩ := stop_eq s
  rw [ha]; exact past_step h a

/-- A session that is stopped when its connection is no longer being set up is past everything. -/
theorem stop_past {s : Sess} (h : ¬ Connecting s) : Past s.stop := by
  cases s with
  | v0 s => exact ⟨rfl, fun i => ⟨fun hc => h ⟨i, Or.inl hc⟩, fun hc => h ⟨i, Or.inr hc⟩⟩⟩
  | v1 s => exact ⟨rfl, fun i => ⟨fun hc => h ⟨i, Or.inl hc⟩, fun hc => h ⟨i, Or.inr hc⟩⟩⟩

/-- What is left for such a session happens without the peer. -/
theorem past_own {s : Sess} (h : Past s) (a : SessStep) : ¬ Peer s a := by
  intro hp
  match s, a with
  | .v0 s, .v0 a => cases a <;> simp [Peer, h.1] at hp
  | .v1 s, .v1 a => cases a <;> simp [Peer, h.1] at hp
  | .v0 s, .v1 a => cases a <;> simp [Peer] at hp
  | .v1 s, .v0 a => cases a <;> simp [Peer] at hp

/-! ## The system -/

/-- A session that came to its state by steps of its machine. -/
def Reached : Sess → Prop
  | .v0 s => ∃ n as, s = ClientV0.run (ClientV0.init n) as
  | .v1 s => ∃ n as, s = Client.run (Client.init n) as

theorem reached_step {s : Sess} (h : Reached s) (a : SessStep) : Reached (s.step a) := by
  match s, a, h with
  | .v0 _, .v1 _, h => exact h
  | .v1 _, .v0 _, h => exact h
  | .v0 _, .v0 a, ⟨n, as, rfl⟩ => exact ⟨n, as ++ [a], by simp [ClientV0.run, List.foldl_append]⟩
  | .v1 _, .v1 a, ⟨n, as, rfl⟩ => exact ⟨n, as ++ [a], by simp [Client.run, List.foldl_append]⟩

theorem reached_stop {s : Sess} (h : Reached s) : Reached s.stop := by
  obtain ⟨a, ha⟩ := stop_eq s
  rw [ha]; exact reached_step h a

theorem work_step {s : Sess} (hr : Reached s) {a : SessStep} (h : Enabled s a) : work (s.step a) < work s := by
  match s, a, hr with
  | .v0 _, .v1 _, _ => exact h.elim
  | .v1 _, .v0 _, _ => exact h.elim
  | .v0 _, .v0 a, ⟨n, as, rfl⟩ => exact ClientV0.C92_work_decreases n as a h
  | .v1 _, .v1 a, ⟨n, as, rfl⟩ => exact Client.C34_work_decreases n as a h

/-- What one step of the system does to one session: nothing, or a step of its machine. -/
theorem entry_step (st : State) (l : Label) (i : Nat) {e : Entry} (h : st.entries[i]? = some e) :
    ∃ e', (step st l).entries[i]? = some e' ∧ (e'.s = e.s ∨ ∃ a, e'.s = e.s.step a) := by
  have hmod : ∀ (j : Nat) (f : Entry → Entry),
      (∀ x : Entry, (f x).s = x.s ∨ ∃ a, (f x).s = x.s.step a) →
      ∃ e', (st.entries.modify j f)[i]? = some e' ∧ (e'.s = e.s ∨ ∃ a, e'.s = e.s.step a) := by
    intro j f hf
    rw [List.getElem?_modify, h]
    by_cases hj : j = i
    · refine ⟨f e, by simp [hj], hf e⟩
    · refine ⟨e, by simp [hj], Or.inl rfl⟩
  have hlt : i < st.entries.length := (List.getElem?_eq_some_iff.1 h).1
  cases l with
  | create v n =>
    simp only [step]
    split
    · exact ⟨e, h, Or.inl rfl⟩
    · exact ⟨e, by simp [List.getElem?_append_left hlt, h], Or.inl rfl⟩
  | drop j =>
    refine hmod j _ (fun x => ?_)
    unfold Entry.drop
    split
    · exact Or.inr (stop_eq x.s)
    · exact Or.inl rfl
  | act j a => exact hmod j _ (fun x => Or.inr ⟨a, rfl⟩)
  | halt => exact ⟨e, h, Or.inl rfl⟩
  | stopOne j =>
    refine hmod j _ (fun x => ?_)
    unfold Entry.stopOne
    split
    · exact Or.inr (stop_eq x.s)
    · exact Or.inl rfl

/-- A predicate on sessions that every step keeps is kept by the system. -/
theorem entry_run {P : Sess → Prop} (hP : ∀ s a, P s → P (s.step a)) (st : State) (ls : List Label) (i : Nat) {e : Entry}
    (h : st.entries[i]? = some e) (he : P e.s) : ∃ e', (run st ls).entries[i]? = some e' ∧ P e'.s := by
  induction ls generalizing st e with
  | nil => exact ⟨e, h, he⟩
  | cons l ls ih =>
    obtain ⟨e', h1, h2⟩ := entry_step st l i h
    have : P e'.s := by
      rcases h2 with h2 | ⟨a, h2⟩
      · rw [h2]; exact he
      · rw [h2]; exact hP _ _ he
    exact ih (step st l) h1 this

theorem reached_all (ls : List Label) : ∀ e ∈ (run init ls).entries, Reached e.s := by
  have key : ∀ (st : State), (∀ e ∈ st.entries, Reached e.s) → ∀ e ∈ (run st ls).entries, Reached e.s := by
    induction ls with
    | nil => exact fun st h => h
    | cons l ls ih =>
      intro st h
      refine ih (step st l) ?_
      intro e he
      obtain ⟨i, hi⟩ := List.mem_iff_getElem?.1 he
      by_cases hlt : i < st.entries.length
      · obtain ⟨e', h1, h2⟩ := entry_step st l i (List.getElem?_eq_getElem hlt)
        rw [h1] at hi
        obtain rfl := Option.some.inj hi
        have hr := h _ (List.getElem_mem hlt)
        rcases h2 with h2 | ⟨a, h2⟩
        · rw [h2]; exact hr
        · rw [h2]; exact reached_step hr a
      · cases l with
        | create v n =>
          simp only [step] at he
          split at he
          · exact h e he
          · rcases List.mem_append.1 he with he | he
            · exact h e he
            · simp only [List.mem_singleton] at he
              subst he
              unfold Sess.new
              simp only
              split
              · exact ⟨n, [], rfl⟩
              · exact ⟨n, [], rfl⟩
        | drop j =>
          have : i < (step st (.drop j)).entries.length := (List.getElem?_eq_some_iff.1 hi).1
          simp only [step, List.length_modify] at this; exact absurd this hlt
        | act j a =>
          have : i < (step st (.act j a)).entries.length := (List.getElem?_eq_some_iff.1 hi).1
          simp only [step, List.length_modify] at this; exact absurd this hlt
        | halt => exact h e he
        | stopOne j =>
          have : i < (step st (.stopOne j)).entries.length := (List.getElem?_eq_some_iff.1 hi).1
          simp only [step, List.length_modify] at this; exact absurd this hlt
  exact key init (by simp [init])

/-- `io_context::run` returns: the managers are stopped and no operation or task of any session is left. -/
def ThreadsEnd (st : State) : Prop := st.halted = true ∧ ∀ e ∈ st.entries, Quiet e.s

/-- A step that happens by itself: a completion or a task, without the help of any peer. -/
def Own (st : State) (i : Nat) (a : SessStep) : Prop :=
  ∃ e, st.entries[i]? = some e ∧ Enabled e.s a ∧ ¬ Peer e.s a

/-- In the history `ls`, session `i` was stopped (its handle given up, or by the manager) when it was no longer being
connected. -/
def StoppedLate (ls : List Label) (i : Nat) : Prop :=
  ∃ l1 l l2 e, ls = l1 ++ l :: l2 ∧ (l = .drop i ∨ l = .stopOne i) ∧
    (run init l1).entries[i]? = some e ∧ e.known = true ∧ ¬ Connecting e.s

theorem run_append (st : State) (l1 l2 : List Label) : run st (l1 ++ l2) = run (run st l1) l2 := by
  simp [run, List.foldl_append]

theorem late_past {ls : List Label} {i : Nat} (h : StoppedLate ls i) :
    ∃ e, (run init ls).entries[i]? = some e ∧ Past e.s := by
  obtain ⟨l1, l, l2, e, rfl, hl, he, hk, hc⟩ := h
  have h1 : ∃ e', (step (run init l1) l).entries[i]? = some e' ∧ Past e'.s := by
    rcases hl with rfl | rfl
    · refine ⟨Entry.drop e, ?_, ?_⟩
      · simp only [step, List.getElem?_modify, he]; simp
      · simp only [Entry.drop, hk, if_true]; exact stop_past hc
    · refine ⟨Entry.stopOne e, ?_, ?_⟩
      · simp only [step, List.getElem?_modify, he]; simp
      · simp only [Entry.stopOne, hk, if_true]; exact stop_past hc
  obtain ⟨e', h2, h3⟩ := h1
  rw [show l1 ++ l :: l2 = (l1 ++ [l]) ++ l2 by simp, run_append, run_append]
  exact entry_run (P := Past) (fun s a hs => past_step hs a) _ l2 i h2 h3

/-- **C93 (the threads end).**  The manager is being stopped and every session was stopped when it was no longer being
connected.  Then, whatever the peers do or do not do: as long as the service threads cannot end, some step happens by
itself. -/
theorem C93_threads_end_partial (ls : List Label) (hh : (run init ls).halted = true)
    (hs : ∀ i < (run init ls).entries.length, StoppedLate ls i) :
    ThreadsEnd (run init ls) ∨ ∃ i a, Own (run init ls) i a := by
  by_cases h : ∀ e ∈ (run init ls).entries, Quiet e.s
  · exact Or.inl ⟨hh, h⟩
  · right
    simp only [Quiet, Classical.not_forall, Classical.not_not] at h
    obtain ⟨e, he, a, ha⟩ := h
    obtain ⟨i, hi⟩ := List.mem_iff_getElem?.1 he
    obtain ⟨e', h1, h2⟩ := late_past (hs i (List.getElem?_eq_some_iff.1 hi).1)
    rw [hi] at h1
    obtain rfl := Option.some.inj h1
    exact ⟨i, a, e, hi, ha, past_own h2 a⟩

/-- Work left in all sessions. -/
def total (st : State) : Nat := (st.entries.map (fun e => work e.s)).sum

theorem sum_modify (l : List Entry) (i : Nat) (f : Entry → Entry) {e : Entry} (h : l[i]? = some e)
    (hlt : work (f e).s < work e.s) :
    ((l.modify i f).map (fun e => work e.s)).sum < (l.map (fun e => work e.s)).sum := by
  induction l generalizing i with
  | nil => simp at h
  | cons x l ih =>
    cases i with
    | zero =>
      simp only [List.getElem?_cons_zero, Option.some.injEq] at h
      subst h
      simp only [List.modify_zero_cons, List.map_cons, List.sum_cons]; omega
    | succ i =>
      simp only [List.getElem?_cons_succ] at h
      have := ih i h
      simp only [List.modify_succ_cons, List.map_cons, List.sum_cons]; omega

/-- **C93 (after finitely many steps).**  Every step that completes an operation or runs a task, with or without a peer,
reduces the work left; after `halt` no session is added.  So the steps of `C93_threads_end_partial` end, and then the
threads end. -/
theorem C93_work_decreases (ls : List Label) (i : Nat) (a : SessStep) {e : Entry}
    (he : (run init ls).entries[i]? = some e) (ha : Enabled e.s a) :
    total (run init (ls ++ [.act i a])) < total (run init ls) := by
  have hr := reached_all ls e (List.mem_of_getElem? he)
  rw [run_append]
  exact sum_modify _ i _ he (work_step hr ha)

theorem C93_no_new_session (st : State) (h : st.halted = true) (l : Label) :
    (step st l).entries.length = st.entries.length ∧ (step st l).halted = true := by
  cases l with
  | create v n => simp [step, h]
  | drop j => simp [step, h]
  | act j a => simp [step, h]
  | halt => simp [step]
  | stopOne j => simp [step, h]

/-! ## The condition is needed -/

/-- What can happen without any peer: steps that happen by themselves, and all calls of the application and the manager. -/
def Local (st : State) : Label → Prop
  | .act i a => Own st i a ∨ ∃ e c, st.entries[i]? = some e ∧ e.known = true ∧
      (a = .v0 (.call c) ∨ a = .v1 (.call c) ∨ a = .v0 .stop ∨ a = .v1 .stop)
  | _ => True

def LocalRun : State → List Label → Prop
  | _, [] => True
  | st, l :: ls => Local st l ∧ LocalRun (step st l) ls

/-- A connected session at rest, that the manager does not know. -/
def Lost (s : Sess) : Prop := (∃ a, Enabled s a) ∧ ∀ a, Enabled s a → Peer s a

theorem lost_stays (st : State) (ls : List Label) (i : Nat) {e : Entry} (h : st.entries[i]? = some e)
    (hk : e.known = false) (hl : Lost e.s) (hr : LocalRun st ls) : (run st ls).entries[i]? = some e := by
  induction ls generalizing st with
  | nil => exact h
  | cons l ls ih =>
    have hlt : i < st.entries.length := (List.getElem?_eq_some_iff.1 h).1
    refine ih (step st l) ?_ hr.2
    have hmod : ∀ (j : Nat) (f : Entry → Entry), (j = i → f e = e) → (st.entries.modify j f)[i]? = some e := by
      intro j f hf
      rw [List.getElem?_modify, h]
      by_cases hj : j = i
      · simp [hj, hf hj]
      · simp [hj]
    cases l with
    | create v n =>
      simp only [step]
      split
      · exact h
      · simp [List.getElem?_append_left hlt, h]
    | drop j => exact hmod j _ (fun _ => by simp [Entry.drop, hk])
    | halt => exact h
    | stopOne j => exact hmod j _ (fun _ => by simp [Entry.stopOne, hk])
    | act j a =>
      refine hmod j _ (fun hj => ?_)
      subst hj
      rcases hr.1 with ⟨e', h1, h2, h3⟩ | ⟨e', c, h1, h2, _⟩
      · rw [h] at h1
        obtain rfl := Option.some.inj h1
        exact absurd (hl.2 a h2) h3
      · rw [h] at h1
        obtain rfl := Option.some.inj h1
        rw [hk] at h2; cases h2

/-- The witness: a client is connected to a server (the two host names of
`/repo/ecal/core/src/service/ecal_service_client_impl.cpp` L739-743) and destroyed while the name of the host is still being
looked up; the set-up goes on and the connection comes about. -/
def dropped (version : Nat) : List Label :=
  [.create version 2, .drop 0] ++
    (if version = 0 then [.act 0 (.v0 (.setupDone true)), .act 0 (.v0 (.setupDone true))]
     else [.act 0 (.v1 (.setupDone true true)), .act 0 (.v1 (.setupDone true true)),
           .act 0 (.v1 (.setupDone true true)), .act 0 (.v1 (.setupDone true true))])

/-- **C93 violated (a client destroyed while it connects).**  With either protocol version: the connection of the destroyed
client stays open, the manager cannot reach it any more, and unless the server closes the connection the service threads
never end, whatever the application and the manager do: `Finalize` waits for ever. -/
theorem C93_violated_destroyed_while_connecting (version : Nat) (ls : List Label)
    (h : LocalRun (run init (dropped version)) ls) : ¬ ThreadsEnd (run init (dropped version ++ ls)) := by
  have key : ∃ e, (run init (dropped version)).entries[0]? = some e ∧ e.known = false ∧ Lost e.s := by
    by_cases hv : version = 0
    · subst hv
      refine ⟨_, rfl, rfl, ⟨.v0 (.peekDone true), Nat.one_pos⟩, ?_⟩
      intro a ha
      match a, ha with
      | .v0 a, ha =>
        cases a with
        | call c => exact ha.elim
        | stop => exact ha.elim
        | setupDone o => exact absurd rfl ha
        | runCall => exact absurd rfl ha
        | runFlush => exact absurd ha (Nat.lt_irrefl 0)
        | flightDone k o => obtain ⟨c, h | h⟩ := ha <;> cases h
        | flightRun k => obtain ⟨c, h | h | ⟨i, h⟩⟩ := ha <;> cases h
        | closeRun => exact ha.elim
        | lossRun => exact absurd ha (Nat.lt_irrefl 0)
        | peekDone ok => rfl
    · have hd : dropped version = [.create version 2, .drop 0, .act 0 (.v1 (.setupDone true true)),
          .act 0 (.v1 (.setupDone true true)), .act 0 (.v1 (.setupDone true true)),
          .act 0 (.v1 (.setupDone true true))] := by simp [dropped, hv]
      have hst : run init (dropped version) = run init (dropped 1) := by
        rw [hd]; simp [dropped, run, step, Sess.new, hv, init]
      rw [hst]
      refine ⟨_, rfl, rfl, ⟨.v1 (.peekDone true), Nat.one_pos⟩, ?_⟩
      intro a ha
      match a, ha with
      | .v1 a, ha =>
        cases a with
        | call c => exact ha.elim
        | stop => exact ha.elim
        | setupDone o _ => exact absurd rfl ha
        | runCall => exact absurd rfl ha
        | runFlush => exact absurd ha (Nat.lt_irrefl 0)
        | flightDone k o => obtain ⟨c, h | h⟩ := ha <;> cases h
        | flightRun k => obtain ⟨c, h | h | ⟨i, h⟩⟩ := ha <;> cases h
        | peekDone ok => rfl
  obtain ⟨e, h1, h2, h3⟩ := key
  intro ht
  have h4 := lost_stays _ ls 0 h1 h2 h3 h
  rw [← run_append] at h4
  obtain ⟨a, ha⟩ := h3.1
  exact ht.2 e (List.mem_of_getElem? h4) a ha

/-- **C93 violated (stopped while it connects to the first name).**  `stop` closes the socket, the attempt ends with an
error, and the session goes on with the second host name of its list. -/
theorem C93_violated_second_host :
    let ls : List Label := [.create 1 2, .act 0 (.v1 (.setupDone true true)), .halt, .stopOne 0,
      .act 0 (.v1 (.setupDone false true)), .act 0 (.v1 (.setupDone true true)), .act 0 (.v1 (.setupDone true true)),
      .act 0 (.v1 (.setupDone true true)), .act 0 (.v1 (.setupDone true true))]
    ∃ s, (run init ls).entries = [⟨.v1 s, true⟩] ∧ s.stopped = true ∧ s.net = .connected ∧ s.isOpen = true ∧ s.peeks = 1 ∧
      s.setup = none := by
  refine ⟨_, rfl, ?_⟩
  decide

/-- A history that meets the conditions of `C93_threads_end_partial`: two clients, one destroyed while it is connected, one
stopped by the manager during its handshake; a call is answered with an error. -/
def sample : List Label :=
  [.create 1 2, .create 0 2, .act 1 (.v0 (.setupDone true)), .act 1 (.v0 (.setupDone true)), .act 1 (.v0 (.call 7)),
   .drop 1, .act 0 (.v1 (.setupDone true true)), .act 0 (.v1 (.setupDone true true)), .halt, .stopOne 0, .stopOne 1]

example : (run init sample).halted = true ∧ (run init sample).entries.length = 2 ∧
    (∀ i < (run init sample).entries.length, StoppedLate sample i) := by
  refine ⟨rfl, rfl, ?_⟩
  intro i hi
  have hi' : i < 2 := hi
  match i, hi' with
  | 0, _ =>
    refine ⟨sample.take 9, .stopOne 0, sample.drop 10, _, by decide, Or.inr rfl, rfl, rfl, ?_⟩
    rintro ⟨j, h | h⟩ <;> cases h
  | 1, _ =>
    refine ⟨sample.take 5, .drop 1, sample.drop 6, _, by decide, Or.inl rfl, rfl, rfl, ?_⟩
    rintro ⟨j, h | h⟩ <;> cases h

example : Own (run init sample) 1 (.v0 .runCall) := ⟨_, rfl, (fun h => by cases h), fun h => h⟩

end Ecal.Service.SessionStop
