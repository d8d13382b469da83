import Verif.Service.ClientSessionV0Lemmas

/-! # C92: service calls of a client session of protocol version 0 -/

namespace Ecal.Service.ClientV0

/-- Steps that the runtime has to perform: operations under way and tasks in the strand. -/
def Enabled (st : State) : Step → Prop
  | .call _ => False
  | .stop => False
  | .setupDone _ => st.setup ≠ none
  | .runCall => st.posted ≠ []
  | .runFlush => 0 < st.flushes
  | .flightDone k _ => ∃ c, st.flight[k]? = some (c, .sending) ∨ st.flight[k]? = some (c, .receiving)
  | .flightRun k => ∃ c, st.flight[k]? = some (c, .doneError) ∨ st.flight[k]? = some (c, .sendFailed) ∨
      ∃ i, st.flight[k]? = some (c, .doneOk i)
  | .closeRun => False        -- part of `lossRun`
  | .lossRun => 0 < st.losing
  | .peekDone _ => 0 < st.peeks

/-- Nothing is left to do except waiting for the peer to close the connection. -/
def AtRest (st : State) : Prop := ∀ a, Enabled st a → ∃ ok, a = .peekDone ok

/-- **C92 (never twice).**  In every run, no call is answered more often than it was accepted. -/
theorem C92_at_most_once (n : Nat) (steps : List Step) (c : Nat) :
    let st := run (init n) steps
    (st.answers.map Prod.fst).count c ≤ st.accepted.count c := by
  have := (inv_reach n steps).bal c
  simp only
  omega

/-- With distinct calls: the callback of a call is invoked at most once, and only for accepted
calls. -/
theorem C92_distinct_calls (n : Nat) (steps : List Step)
    (hd : (run (init n) steps).accepted.Nodup) :
    ((run (init n) steps).answers.map Prod.fst).Nodup ∧
      ∀ c ∈ (run (init n) steps).answers.map Prod.fst, c ∈ (run (init n) steps).accepted := by
  have hle := C92_at_most_once n steps
  simp only at hle
  constructor
  · rw [List.nodup_iff_count]
    intro c
    exact Nat.le_trans (hle c) (List.nodup_iff_count.1 hd c)
  · intro c hc
    have h1 := List.count_pos_iff.2 hc
    have h2 := hle c
    exact List.count_pos_iff.1 (by omega)

theorem rest_empty {st : State} (h : AtRest st) (hi : Inv st) :
    st.posted = [] ∧ st.queue = [] ∧ st.flight = [] ∧ st.flushes = 0 ∧ st.setup = none ∧
      st.losing = 0 := by
  have hp : st.posted = [] := by
    cases hp : st.posted with
    | nil => rfl
    | cons c r => obtain ⟨ok, ho⟩ := h .runCall (by simp [Enabled, hp]); cases ho
  have hs : st.setup = none := by
    cases hs : st.setup with
    | none => rfl
    | some x => obtain ⟨ok, ho⟩ := h (.setupDone true) (by simp [Enabled, hs]); cases ho
  have hf : st.flushes = 0 := by
    rcases Nat.eq_zero_or_pos st.flushes with hf | hf
    · exact hf
    · obtain ⟨ok, ho⟩ := h .runFlush hf; cases ho
  have hfl : st.flight = [] := by
    cases hfl : st.flight with
    | nil => rfl
    | cons x r =>
      obtain ⟨c, p⟩ := x
      cases p with
      | sending =>
        obtain ⟨ok, ho⟩ := h (.flightDone 0 true) ⟨c, Or.inl (by simp [hfl])⟩; cases ho
      | receiving =>
        obtain ⟨ok, ho⟩ := h (.flightDone 0 true) ⟨c, Or.inr (by simp [hfl])⟩; cases ho
      | doneError =>
        obtain ⟨ok, ho⟩ := h (.flightRun 0) ⟨c, Or.inl (by simp [hfl])⟩; cases ho
      | sendFailed =>
        obtain ⟨ok, ho⟩ := h (.flightRun 0) ⟨c, Or.inr (Or.inl (by simp [hfl]))⟩; cases ho
      | doneOk i =>
        obtain ⟨ok, ho⟩ := h (.flightRun 0) ⟨c, Or.inr (Or.inr ⟨i, by simp [hfl]⟩)⟩; cases ho
  have hl : st.losing = 0 := by
    rcases Nat.eq_zero_or_pos st.losing with hf | hf
    · exact hf
    · obtain ⟨ok, ho⟩ := h .lossRun hf; cases ho
  refine ⟨hp, ?_, hfl, hf, hs, hl⟩
  rcases hi.setupN hs with hc | hc
  · rcases (hi.conn hc).1 hfl with hip | hlo
    · exact ((hi.conn hc).2.1 hip).2
    · omega
  · rcases hi.failedQ hc with hq | hq
    · exact hq
    · omega

/-- **C92 (exactly once).**  When the runtime has nothing left to do, every accepted call has been
answered exactly as often as it was accepted — in any interleaving of calls, network events, errors
and `stop`. -/
theorem C92_exactly_once (n : Nat) (steps : List Step) (h : AtRest (run (init n) steps)) (c : Nat) :
    let st := run (init n) steps
    (st.answers.map Prod.fst).count c = st.accepted.count c := by
  have hi := inv_reach n steps
  simp only
  obtain ⟨hp, hq, hf, _, _⟩ := rest_empty h hi
  have := hi.bal c
  simp only [hp, hq, hf, List.count_nil, List.map_nil] at this
  omega

/-- Work left in a state. -/
def wPhase : Nat × Phase → Nat
  | (_, .sending) => 6
  | (_, .receiving) => 5
  | (_, .doneError) => 4
  | (_, .sendFailed) => 4
  | (_, .doneOk _) => 4

def wSetup (n : Nat) : Option Setup → Nat
  | none => 0
  | some (.resolving i) => 7 + 2 * (n - i)
  | some (.connecting i) => 6 + 2 * (n - i)

def work (st : State) : Nat :=
  8 * st.posted.length + 7 * st.queue.length + (st.flight.map wPhase).sum + st.flushes + 3 * st.losing +
    2 * st.peeks + wSetup st.servers st.setup

theorem work_loss (st : State) : work (loss st) ≤ work st + 1 := by
  unfold loss work
  simp only
  split
  · simp
  · simp only
    split <;> omega

theorem work_next (st : State) (h : st.flight = []) : work (sendNextOrPeek st) ≤ work st + 2 := by
  unfold sendNextOrPeek
  cases hq : st.queue with
  | nil => simp only [work, hq]; omega
  | cons c q => simp only [startSend, work, hq, h, List.nil_append, List.map_cons, List.map_nil,
      List.sum_cons, List.sum_nil, List.length_cons, wPhase]; omega

/-- **C92 (progress).**  Every step of the runtime reduces the work left, so between two API calls it
performs finitely many steps (at most `work`) and then is at rest. -/
theorem C92_work_decreases (n : Nat) (steps : List Step) (a : Step)
    (h : Enabled (run (init n) steps) a) :
    work (step (run (init n) steps) a) < work (run (init n) steps) := by
  have hi := inv_reach n steps
  revert h hi
  generalize run (init n) steps = st
  intro h hi
  cases a with
  | call c => exact h.elim
  | stop => exact h.elim
  | setupDone ok =>
    have hne : st.setup ≠ none := h
    have hfl := (hi.setupS hne).1
    simp only [step, stepSetup]
    cases hs : st.setup with
    | none => exact absurd hs hne
    | some x =>
      have hloss : 2 ≤ wSetup st.servers st.setup →
          work (loss { st with setup := none }) < work st := by
        intro hw
        have h1 := work_loss { st with setup := none }
        have h2 : work { st with setup := none } + wSetup st.servers st.setup = work st := by
          simp only [work, wSetup]; omega
        omega
      have hnext : ∀ i, (7 + 2 * (st.servers - (i + 1)) < wSetup st.servers st.setup ∨
          ¬ i + 1 < st.servers) → 2 ≤ wSetup st.servers st.setup →
          work (nextHost st i) < work st := by
        intro i hw h2
        unfold nextHost
        split
        · rename_i hlt
          rcases hw with hw | hw
          · simp only [work, wSetup] at hw ⊢; omega
          · exact absurd hlt hw
        · exact hloss h2
      rw [hs] at hloss hnext
      cases x with
      | resolving i =>
        simp only [wSetup] at hloss hnext
        simp only
        split
        · simp only [work, hs, wSetup]; omega
        · exact hnext i (by omega) (by omega)
      | connecting i =>
        simp only [wSetup] at hloss hnext
        simp only
        split
        · refine Nat.lt_of_le_of_lt (work_next _ hfl) ?_
          simp only [work, hs, wSetup]; omega
        · exact hnext i (by omega) (by omega)
  | runCall =>
    simp only [step, stepRunCall]
    cases hp : st.posted with
    | nil => exact absurd hp h
    | cons c r =>
      simp only
      split
      · simp only [work, hp, List.length_cons]; omega
      · split
        · simp only [startSend, work, hp, List.length_cons, List.map_append, List.map_cons,
            List.map_nil, List.sum_append, List.sum_cons, List.sum_nil, wPhase]; omega
        · simp only [work, hp, List.length_cons, List.length_append, List.length_nil]; omega
  | runFlush =>
    simp only [step, stepRunFlush]
    cases hn : st.flushes with
    | zero => simp [Enabled, hn] at h
    | succ m =>
      simp only
      cases hq : st.queue with
      | nil => simp only [work, hn, hq]; omega
      | cons c q =>
        simp only [work, hn, hq, List.length_cons]
        split <;> omega
  | flightDone k ok =>
    obtain ⟨c, hk | hk⟩ := h
    · obtain ⟨hk0, hfl⟩ := flight_cases hi hk
      subst hk0
      simp only [step, stepFlightDone, hk]
      split <;> simp [setPhase, work, hfl, wPhase]
    · obtain ⟨hk0, hfl⟩ := flight_cases hi hk
      subst hk0
      simp only [step, stepFlightDone, hk]
      split <;> simp [setPhase, work, hfl, wPhase]
  | flightRun k =>
    obtain ⟨c, hk | hk | ⟨i, hk⟩⟩ := h
    · obtain ⟨hk0, hfl⟩ := flight_cases hi hk
      subst hk0
      simp only [step, stepFlightRun, hk]
      refine Nat.lt_of_le_of_lt (work_loss _) ?_
      simp [work, hfl, wPhase]; omega
    · obtain ⟨hk0, hfl⟩ := flight_cases hi hk
      subst hk0
      simp only [step, stepFlightRun, hk]
      simp [work, hfl, wPhase]; omega
    · obtain ⟨hk0, hfl⟩ := flight_cases hi hk
      subst hk0
      simp only [step, stepFlightRun, hk]
      refine Nat.lt_of_le_of_lt (work_next _ (by simp [hfl])) ?_
      simp [work, hfl, wPhase]; omega
  | closeRun => exact h.elim
  | lossRun =>
    simp only [step, stepLossRun]
    cases hn : st.losing with
    | zero => simp [Enabled, hn] at h
    | succ m =>
      refine Nat.lt_of_le_of_lt (work_loss _) ?_
      simp only [work, hn]; omega
  | peekDone ok =>
    simp only [step, stepPeek]
    cases hn : st.peeks with
    | zero => simp [Enabled, hn] at h
    | succ m =>
      simp only
      split
      · simp only [work, hn]; omega
      · refine Nat.lt_of_le_of_lt (work_loss _) ?_
        simp only [work, hn]; omega

/-- A sequence of runtime steps, each enabled when it is taken. -/
def RuntimeRun : State → List Step → Prop
  | _, [] => True
  | st, a :: l => Enabled st a ∧ RuntimeRun (step st a) l

/-- The bound on the number of runtime steps. -/
theorem C92_bounded (n : Nat) (steps more : List Step)
    (h : RuntimeRun (run (init n) steps) more) : more.length ≤ work (run (init n) steps) := by
  induction more generalizing steps with
  | nil => simp
  | cons a l ih =>
    obtain ⟨h1, h2⟩ := h
    have hdec := C92_work_decreases n steps a h1
    have hrun : run (init n) (steps ++ [a]) = step (run (init n) steps) a := by
      simp [run, List.foldl_append]
    have := ih (steps ++ [a]) (by rw [hrun]; exact h2)
    rw [hrun] at this
    simp only [List.length_cons]
    omega

/-- Calls made after `stop` are refused and never answered. -/
theorem C92_refused_after_stop (st : State) (c : Nat) (h : st.stopped = true) :
    step st (.call c) = st := by
  simp [step, stepCall, h]

/-- `stop` is final. -/
theorem C92_stop_final (st : State) (steps : List Step) (h : st.stopped = true) :
    (run st steps).stopped = true ∧ (run st steps).accepted = st.accepted := by
  have loss_st : ∀ s : State, (loss s).stopped = s.stopped ∧ (loss s).accepted = s.accepted := by
    intro s; unfold loss; simp only; split <;> exact ⟨rfl, rfl⟩
  have next_st : ∀ s : State, (sendNextOrPeek s).stopped = s.stopped ∧
      (sendNextOrPeek s).accepted = s.accepted := by
    intro s; unfold sendNextOrPeek; cases s.queue <;> exact ⟨rfl, rfl⟩
  have host_st : ∀ (s : State) i, (nextHost s i).stopped = s.stopped ∧
      (nextHost s i).accepted = s.accepted := by
    intro s i; unfold nextHost; split
    · exact ⟨rfl, rfl⟩
    · exact loss_st _
  induction steps generalizing st with
  | nil => exact ⟨h, rfl⟩
  | cons a l ih =>
    have key : (step st a).stopped = true ∧ (step st a).accepted = st.accepted := by
      cases a with
      | call c => rw [C92_refused_after_stop st c h]; exact ⟨h, rfl⟩
      | stop => exact ⟨rfl, rfl⟩
      | setupDone ok =>
        rw [← h]
        simp only [step, stepSetup]
        split
        · exact ⟨rfl, rfl⟩
        · split
          · exact ⟨rfl, rfl⟩
          · exact host_st _ _
        · split
          · exact next_st _
          · exact host_st _ _
      | runCall =>
        rw [← h]
        simp only [step, stepRunCall]
        split
        · exact ⟨rfl, rfl⟩
        · split
          · exact ⟨rfl, rfl⟩
          · split <;> exact ⟨rfl, rfl⟩
      | runFlush =>
        rw [← h]
        simp only [step, stepRunFlush]
        split
        · exact ⟨rfl, rfl⟩
        · split <;> exact ⟨rfl, rfl⟩
      | flightDone k ok =>
        rw [← h]
        simp only [step, stepFlightDone, setPhase]
        split
        · split <;> exact ⟨rfl, rfl⟩
        · split <;> exact ⟨rfl, rfl⟩
        · exact ⟨rfl, rfl⟩
      | flightRun k =>
        rw [← h]
        simp only [step, stepFlightRun]
        split
        · exact ⟨rfl, rfl⟩
        · exact loss_st _
        · exact next_st _
        · exact ⟨rfl, rfl⟩
      | closeRun =>
        rw [← h]
        simp only [step, stepCloseRun]
        split <;> exact ⟨rfl, rfl⟩
      | lossRun =>
        rw [← h]
        simp only [step, stepLossRun]
        split
        · exact ⟨rfl, rfl⟩
        · exact loss_st _
      | peekDone ok =>
        rw [← h]
        simp only [step, stepPeek]
        split
        · exact ⟨rfl, rfl⟩
        · split
          · exact ⟨rfl, rfl⟩
          · exact loss_st _
    have := ih (step st a) key.1
    exact ⟨this.1, this.2.trans key.2⟩

/-- **C92 (matching).**  The response with index `i` on the connection is given to the call whose
request was the `i`-th one written to it. -/
theorem C92_matched (n : Nat) (steps : List Step) (c i : Nat)
    (h : (c, Answer.ok i) ∈ (run (init n) steps).answers) :
    (run (init n) steps).sent[i]? = some c :=
  (inv_reach n steps).okA c i h

/-- **C92 (each response is used once, in order).**  The indices of the delivered responses are
strictly increasing. -/
theorem C92_in_order (n : Nat) (steps : List Step) :
    ((run (init n) steps).answers.filterMap
      (fun p => match p.2 with | .ok i => some i | .error => none)).Pairwise (· < ·) := by
  have hs := (inv_reach n steps).sorted
  have heq : ∀ l : List (Nat × Answer), l.filterMap
      (fun p => match p.2 with | .ok i => some i | .error => none) = okIdx l := by
    intro l
    induction l with
    | nil => rfl
    | cons p l ih =>
      obtain ⟨c, a⟩ := p
      cases a <;> simp [okIdx, ih]
  rw [heq]
  exact (List.pairwise_append.1 hs).1

/-- **C92 (order of requests).**  Requests are written in the order in which the calls were
accepted, without gaps. -/
theorem C92_sent_in_call_order (n : Nat) (steps : List Step) :
    (run (init n) steps).sent <+: (run (init n) steps).accepted :=
  (inv_reach n steps).pre

/-- At most one call is on the wire at any time. -/
theorem C92_one_in_flight (n : Nat) (steps : List Step) :
    (run (init n) steps).flight.length ≤ 1 := (inv_reach n steps).one

/-- **C92 (notifications of one session alternate).**  A session reports nothing, `connected`, or
`connected` followed by `disconnected`. -/
theorem C92_events (n : Nat) (steps : List Step) :
    (run (init n) steps).events = [] ∨ (run (init n) steps).events = [.connected] ∨
      (run (init n) steps).events = [.connected, .disconnected] := by
  have h := inv_reach n steps
  by_cases h1 : (run (init n) steps).net = .connected
  · exact Or.inr (Or.inl (h.ev.1 h1))
  · by_cases h2 : (run (init n) steps).net = .failed
    · rcases h.ev.2.1 h2 with h3 | h3
      · exact Or.inl h3
      · exact Or.inr (Or.inr h3)
    · exact Or.inl (h.ev.2.2 h1 h2)

/-- A run with two calls queued during set-up, both answered, a third one failing while it is written;
a fourth call is queued between the callback of the third one and the end of its handler, and is
answered with an error. -/
def sampleRun : List Step :=
  [.call 10, .call 11, .runCall, .setupDone true, .runCall, .setupDone true,
   .flightDone 0 true, .flightDone 0 true, .flightRun 0,
   .flightDone 0 true, .flightDone 0 true, .flightRun 0, .call 12, .runCall,
   .flightDone 0 false, .flightRun 0, .call 13, .runCall, .closeRun, .lossRun, .runFlush,
   .peekDone false]

example : (run (init 1) sampleRun).answers = [(10, .ok 0), (11, .ok 1), (12, .error), (13, .error)]
    ∧ (run (init 1) sampleRun).sent = [10, 11]
    ∧ (run (init 1) sampleRun).events = [.connected, .disconnected] := by decide

example : AtRest (run (init 1) sampleRun) := by
  have h1 : (run (init 1) sampleRun).flight = [] := by decide
  have h2 : (run (init 1) sampleRun).posted = [] := by decide
  have h3 : (run (init 1) sampleRun).setup = none := by decide
  have h4 : (run (init 1) sampleRun).flushes = 0 := by decide
  have h5 : (run (init 1) sampleRun).losing = 0 := by decide
  intro a h
  cases a with
  | call c => exact h.elim
  | stop => exact h.elim
  | setupDone o => exact absurd h3 h
  | runCall => exact absurd h2 h
  | runFlush => simp [Enabled, h4] at h
  | flightDone k o => simp [Enabled, h1] at h
  | flightRun k => simp [Enabled, h1] at h
  | closeRun => exact h.elim
  | lossRun => simp [Enabled, h5] at h
  | peekDone ok => exact ⟨ok, rfl⟩

end Ecal.Service.ClientV0
