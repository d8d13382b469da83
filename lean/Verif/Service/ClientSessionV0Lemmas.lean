import Verif.Service.ClientSessionV0

/-! # Invariant of the client session (protocol version 0) -/

namespace Ecal.Service.ClientV0

/-- Indices of the responses delivered so far. -/
def okIdx : List (Nat × Answer) → List Nat
  | [] => []
  | (_, .ok i) :: l => i :: okIdx l
  | (_, .error) :: l => okIdx l

theorem okIdx_append (l m : List (Nat × Answer)) : okIdx (l ++ m) = okIdx l ++ okIdx m := by
  induction l with
  | nil => rfl
  | cons p l ih =>
    obtain ⟨c, a⟩ := p
    cases a <;> simp [okIdx, ih]

/-- Indices of the responses waiting for their handler. -/
def okIdxF : List (Nat × Phase) → List Nat
  | [] => []
  | (_, .doneOk i) :: l => i :: okIdxF l
  | (_, .sending) :: l => okIdxF l
  | (_, .receiving) :: l => okIdxF l
  | (_, .doneError) :: l => okIdxF l
  | (_, .sendFailed) :: l => okIdxF l

/-- Relation between the requests written, the messages read and the call in flight. -/
def Aligned (sent : List Nat) (nread : Nat) (started : List Nat) : List (Nat × Phase) → Prop
  | [] => nread = sent.length ∧ started = sent
  | [(c, .sending)] => nread = sent.length ∧ started = sent ++ [c]
  | [(c, .receiving)] => sent.length = nread + 1 ∧ sent[nread]? = some c ∧ started = sent
  | [(_, .doneOk _)] => nread = sent.length ∧ started = sent
  | [(_, .doneError)] => True
  | [(_, .sendFailed)] => True
  | _ :: _ :: _ => False

/-- The parts of the invariant that survive a connection loss. -/
structure Base (st : State) : Prop where
  bal : ∀ c, st.accepted.count c = st.posted.count c + st.queue.count c +
    (st.flight.map Prod.fst).count c + (st.answers.map Prod.fst).count c
  one : st.flight.length ≤ 1
  okA : ∀ c i, (c, Answer.ok i) ∈ st.answers → st.sent[i]? = some c
  okF : ∀ c i, (c, Phase.doneOk i) ∈ st.flight → st.sent[i]? = some c
  sorted : (okIdx st.answers ++ okIdxF st.flight).Pairwise (· < ·)
  bound : ∀ i ∈ okIdx st.answers ++ okIdxF st.flight, i < st.nread
  pre : st.sent <+: st.accepted
  failedQ : st.net = .failed → st.queue = [] ∨ 0 < st.flushes
  lose : 0 < st.losing → st.flight = []
  ev : (st.net = .connected → st.events = [.connected]) ∧
    (st.net = .failed → st.events = [] ∨ st.events = [.connected, .disconnected]) ∧
    (st.net ≠ .connected → st.net ≠ .failed → st.events = [])

structure Inv (st : State) : Prop extends Base st where
  setupN : st.setup = none → st.net = .connected ∨ st.net = .failed
  setupS : st.setup ≠ none → st.flight = [] ∧ st.peeks = 0 ∧ st.inProgress = false ∧
    st.sent = [] ∧ st.nread = 0 ∧ st.net = .notConnected ∧ st.losing = 0
  failedO : st.net = .failed → st.isOpen = false
  conn : st.net = .connected → (st.flight = [] → st.inProgress = false ∨ 0 < st.losing) ∧
    (st.inProgress = false → st.flight = [] ∧ st.queue = []) ∧
    (0 < st.losing → st.inProgress = true)
  fifo : st.net ≠ .failed → ∃ started, st.accepted = started ++ st.queue ++ st.posted ∧
    st.sent <+: started ∧ (st.isOpen = true → st.losing = 0 → Aligned st.sent st.nread started st.flight) ∧
    (st.setup ≠ none → started = [])

theorem inv_init (n : Nat) : Inv (init n) where
  bal := by intro c; rfl
  one := by simp [init]
  okA := by simp [init]
  okF := by simp [init]
  sorted := by simp [init, okIdx, okIdxF]
  bound := by simp [init, okIdx, okIdxF]
  lose := by simp [init]
  pre := by simp [init]
  failedQ := by simp [init]
  ev := by simp [init]
  setupN := by simp [init]
  setupS := by simp [init]
  failedO := by simp [init]
  conn := by simp [init]
  fifo := fun _ => ⟨[], by simp [init, Aligned]⟩

theorem inv_loss {st : State} (h : Base st) (hs : st.setup = none)
    (hev : st.net ≠ .failed) : Inv (loss st) := by
  have key : ∃ fl, loss st = { st with
      isOpen := false, net := .failed,
      events := if st.net = .connected then st.events ++ [.disconnected] else st.events,
      flushes := fl } ∧ (st.queue = [] ∨ 0 < fl) := by
    refine ⟨if st.queue = [] then st.flushes else st.flushes + 1, ?_, ?_⟩
    · simp only [loss, hev, if_false]
    · by_cases hq : st.queue = []
      · exact Or.inl hq
      · right; rw [if_neg hq]; omega
  obtain ⟨fl, heq, hq⟩ := key
  rw [heq]
  exact {
    bal := h.bal, one := h.one, okA := h.okA, okF := h.okF, sorted := h.sorted, bound := h.bound, lose := h.lose
    pre := h.pre
    failedQ := fun _ => hq
    ev := by
      refine ⟨by simp, fun _ => ?_, by simp⟩
      by_cases hc : st.net = .connected
      · right; simp [hc, h.ev.1 hc]
      · left; simp only [if_neg hc]; exact h.ev.2.2 hc hev
    setupN := by simp
    setupS := by simp [hs]
    failedO := by simp
    conn := by simp
    fifo := by simp }

theorem inv_loss' {st : State} (h : Base st) (hs : st.setup = none) : Inv (loss st) := by
  by_cases hf : st.net = .failed
  · have heq : loss st = { st with isOpen := false } := by simp [loss, hf]
    rw [heq]
    exact {
      bal := h.bal, one := h.one, okA := h.okA, okF := h.okF, sorted := h.sorted, bound := h.bound, lose := h.lose
      pre := h.pre, failedQ := h.failedQ, ev := h.ev
      setupN := by simp [hf]
      setupS := by simp [hs]
      failedO := by simp
      conn := by simp [hf]
      fifo := by simp [hf] }
  · exact inv_loss h hs hf

/-- Starting the next call: nothing is in flight. -/
theorem inv_next {st : State} (h : Base st) (hs : st.setup = none) (hf : st.flight = [])
    (hl : st.losing = 0)
    (hn : st.net = .connected ∨ st.net = .failed) (ho : st.net = .failed → st.isOpen = false)
    (hfifo : st.net ≠ .failed → ∃ started, st.accepted = started ++ st.queue ++ st.posted ∧
      st.sent <+: started ∧ (st.isOpen = true → Aligned st.sent st.nread started [])) :
    Inv (sendNextOrPeek st) := by
  unfold sendNextOrPeek
  cases hq : st.queue with
  | nil =>
    exact {
      bal := by intro c; have := h.bal c; simpa [hq] using this
      one := h.one, okA := h.okA, okF := h.okF, sorted := h.sorted, bound := h.bound, lose := h.lose
      pre := h.pre, failedQ := fun _ => Or.inl rfl, ev := h.ev
      setupN := fun _ => hn
      setupS := by simp [hs]
      failedO := ho
      conn := fun _ => ⟨fun _ => Or.inl rfl, fun _ => ⟨hf, rfl⟩, fun hp => absurd hp (by simp [hl])⟩
      fifo := by
        intro hnf
        obtain ⟨started, h1, h2, h3⟩ := hfifo hnf
        exact ⟨started, by simpa [hq] using h1, h2, by simpa [hf, hl] using h3, by simp [hs]⟩ }
  | cons c q =>
    exact {
      bal := by
        intro d; have := h.bal d
        simp only [startSend, hf, hq, List.map_nil, List.count_nil, List.nil_append, List.map_cons,
          List.count_cons] at this ⊢
        omega
      one := by simp [startSend, hf]
      okA := h.okA
      okF := by simp [startSend, hf]
      sorted := by simpa [startSend, hf, okIdxF] using h.sorted
      bound := by simpa [startSend, hf, okIdxF] using h.bound
      lose := by simp [startSend, hl]
      pre := h.pre
      failedQ := by
        intro hfl
        rcases h.failedQ hfl with hq' | hfl
        · rw [hq] at hq'; cases hq'
        · exact Or.inr hfl
      ev := h.ev
      setupN := fun _ => hn
      setupS := by simp [startSend, hs]
      failedO := ho
      conn := fun _ => ⟨by simp [startSend], by simp [startSend], by simp [startSend]⟩
      fifo := by
        intro hnf
        obtain ⟨started, h1, h2, h3⟩ := hfifo hnf
        refine ⟨started ++ [c], by simp [startSend, h1, hq], ?_, ?_, by simp [startSend, hs]⟩
        · exact h2.trans (List.prefix_append _ _)
        · intro hopen _
          obtain ⟨h4, h5⟩ := h3 hopen
          simp only [startSend, hf, List.nil_append, Aligned]
          exact ⟨h4, by rw [h5]⟩ }

theorem inv_call {st : State} (h : Inv st) (c : Nat) : Inv (stepCall st c) := by
  unfold stepCall
  split
  · exact h
  · exact {
      bal := by
        intro d; have := h.bal d
        simp only [List.count_append]
        omega
      one := h.one, okA := h.okA, okF := h.okF, sorted := h.sorted, bound := h.bound, lose := h.lose
      pre := h.pre.trans (List.prefix_append _ _)
      failedQ := h.failedQ, ev := h.ev, setupN := h.setupN, setupS := h.setupS
      failedO := h.failedO, conn := h.conn
      fifo := by
        intro hnf
        obtain ⟨started, h1, h2, h3, h4⟩ := h.fifo hnf
        exact ⟨started, by simp [h1], h2, h3, h4⟩ }

theorem inv_stop {st : State} (h : Inv st) : Inv (stepStop st) where
  bal := h.bal
  one := h.one
  okA := h.okA
  okF := h.okF
  sorted := h.sorted
  bound := h.bound
  lose := h.lose
  pre := h.pre
  failedQ := h.failedQ
  ev := h.ev
  setupN := h.setupN
  setupS := h.setupS
  failedO := fun _ => rfl
  conn := h.conn
  fifo := by
    intro hnf
    obtain ⟨started, h1, h2, _, h4⟩ := h.fifo hnf
    exact ⟨started, h1, h2, by simp [stepStop], h4⟩

theorem base_noSetup {st : State} (h : Inv st) : Base { st with setup := none } where
  bal := h.bal
  one := h.one
  okA := h.okA
  okF := h.okF
  sorted := h.sorted
  bound := h.bound
  lose := h.lose
  pre := h.pre
  failedQ := h.failedQ
  ev := h.ev

theorem inv_setSetup {st : State} (h : Inv st) (hs : st.setup ≠ none) (x : Setup) :
    Inv { st with setup := some x } where
  bal := h.bal
  one := h.one
  okA := h.okA
  okF := h.okF
  sorted := h.sorted
  bound := h.bound
  lose := h.lose
  pre := h.pre
  failedQ := h.failedQ
  ev := h.ev
  setupN := by simp
  setupS := fun _ => h.setupS hs
  failedO := h.failedO
  conn := h.conn
  fifo := by
    intro hnf
    obtain ⟨started, h1, h2, h3, h4⟩ := h.fifo hnf
    exact ⟨started, h1, h2, h3, fun _ => h4 hs⟩

theorem inv_nextHost {st : State} (h : Inv st) (hs : st.setup ≠ none) (i : Nat) :
    Inv (nextHost st i) := by
  unfold nextHost
  split
  · exact inv_setSetup h hs _
  · exact inv_loss' (base_noSetup h) rfl

theorem inv_setup {st : State} (h : Inv st) (ok : Bool) : Inv (stepSetup st ok) := by
  unfold stepSetup
  cases hs : st.setup with
  | none => exact h
  | some x =>
    have hne : st.setup ≠ none := by simp [hs]
    obtain ⟨hfl, hpk, hip, hsent, hnr, hnet, hlo⟩ := h.setupS hne
    have hncon : st.net ≠ .connected := by simp [hnet]
    have hnfail : st.net ≠ .failed := by simp [hnet]
    cases x with
    | resolving i =>
      simp only
      split
      · exact inv_setSetup h hne _
      · exact inv_nextHost h hne i
    | connecting i =>
      simp only
      split
      · refine inv_next ?_ rfl hfl hlo (Or.inl rfl) (by simp) ?_
        · exact {
            bal := h.bal, one := h.one, okA := h.okA, okF := h.okF, sorted := h.sorted
            bound := h.bound, lose := h.lose, pre := h.pre
            failedQ := by simp
            ev := ⟨fun _ => by simp [h.ev.2.2 hncon hnfail], by simp, by simp⟩ }
        · intro _
          obtain ⟨started, h1, h2, h3, h4⟩ := h.fifo hnfail
          have := h4 hne
          subst this
          exact ⟨[], h1, h2, fun _ => by simp [hsent, hnr, Aligned]⟩
      · exact inv_nextHost h hne i

theorem inv_runCall {st : State} (h : Inv st) : Inv (stepRunCall st) := by
  unfold stepRunCall
  cases hp : st.posted with
  | nil => exact h
  | cons c rest =>
    simp only
    split
    · rename_i hf
      exact {
        bal := by
          intro d; have := h.bal d
          simp only [hp, List.count_cons, List.map_append, List.map_cons, List.map_nil,
            List.count_append, List.count_nil] at this ⊢
          omega
        one := h.one
        okA := by
          intro d i hm
          rcases List.mem_append.1 hm with hm | hm
          · exact h.okA d i hm
          · simp at hm
        okF := h.okF
        sorted := by simpa [okIdx_append, okIdx] using h.sorted
        bound := by simpa [okIdx_append, okIdx] using h.bound
        lose := h.lose
        pre := h.pre, failedQ := h.failedQ, ev := h.ev, setupN := h.setupN, setupS := h.setupS
        failedO := h.failedO, conn := h.conn
        fifo := fun hnf => absurd hf hnf }
    · rename_i hnf
      split
      · rename_i hcond
        simp only [Bool.and_eq_true, Bool.not_eq_true', beq_iff_eq] at hcond
        obtain ⟨hip, hcon⟩ := hcond
        obtain ⟨hfl, hq⟩ := (h.conn hcon).2.1 hip
        have hs : st.setup = none := by
          cases hs : st.setup with
          | none => rfl
          | some x =>
            have h' := (h.setupS (by simp [hs])).2.2.2.2.2.1
            simp [hcon] at h'
        have hlo : st.losing = 0 := by
          rcases Nat.eq_zero_or_pos st.losing with h' | h'
          · exact h'
          · have := (h.conn hcon).2.2 h'
            simp [hip] at this
        exact {
          bal := by
            intro d; have := h.bal d
            simp only [hp, hfl, startSend, List.nil_append, List.count_cons, List.map_cons,
              List.map_nil, List.count_nil] at this ⊢
            omega
          one := by simp [startSend, hfl]
          okA := h.okA
          okF := by simp [startSend, hfl]
          sorted := by simpa [startSend, hfl, okIdxF] using h.sorted
          bound := by simpa [startSend, hfl, okIdxF] using h.bound
          lose := by simp [startSend, hlo]
          pre := h.pre, failedQ := h.failedQ, ev := h.ev, setupN := h.setupN
          setupS := by simp [startSend, hs]
          failedO := h.failedO
          conn := fun _ => ⟨by simp [startSend], by simp [startSend], by simp [startSend]⟩
          fifo := by
            intro _
            obtain ⟨started, h1, h2, h3, h4⟩ := h.fifo hnf
            refine ⟨started ++ [c], by simp [startSend, h1, hp, hq], ?_, ?_, by simp [startSend, hs]⟩
            · exact h2.trans (List.prefix_append _ _)
            · intro hopen _
              have := h3 hopen hlo
              rw [hfl] at this
              simp only [startSend, hfl, List.nil_append, Aligned] at this ⊢
              exact ⟨this.1, by rw [this.2]⟩ }
      · rename_i hcond
        have hcond' : st.net = .connected → st.inProgress = true := by
          intro hc
          cases hip : st.inProgress with
          | true => rfl
          | false => simp [hip, hc] at hcond
        exact {
          bal := by
            intro d; have := h.bal d
            simp only [hp, List.count_append, List.count_cons, List.count_nil] at this ⊢
            omega
          one := h.one, okA := h.okA, okF := h.okF, sorted := h.sorted
          bound := h.bound, lose := h.lose, pre := h.pre
          failedQ := fun hf => absurd hf hnf
          ev := h.ev, setupN := h.setupN, setupS := h.setupS
          failedO := h.failedO
          conn := by
            intro hc
            have hip := hcond' hc
            refine ⟨(h.conn hc).1, fun hip' => ?_, (h.conn hc).2.2⟩
            have hip'' : st.inProgress = false := hip'
            rw [hip] at hip''; cases hip''
          fifo := by
            intro _
            obtain ⟨started, h1, h2, h3, h4⟩ := h.fifo hnf
            exact ⟨started, by simp [h1, hp], h2, h3, h4⟩ }

theorem inv_runFlush {st : State} (h : Inv st) (hfl : 0 < st.flushes → st.net = .failed) :
    Inv (stepRunFlush st) := by
  unfold stepRunFlush
  cases hn : st.flushes with
  | zero => exact h
  | succ n =>
    have hf : st.net = .failed := hfl (by omega)
    simp only
    cases hq : st.queue with
    | nil =>
      exact {
        bal := by intro d; simpa [hq] using h.bal d
        one := h.one, okA := h.okA, okF := h.okF, sorted := h.sorted
        bound := h.bound, lose := h.lose, pre := h.pre, failedQ := fun _ => Or.inl rfl, ev := h.ev
        setupN := h.setupN, setupS := h.setupS, failedO := h.failedO
        conn := by intro hc; exact absurd (hf.symm.trans hc) (by simp)
        fifo := fun hnf => absurd hf hnf }
    | cons c q =>
      exact {
        bal := by
          intro d; have := h.bal d
          simp only [hq, List.count_cons, List.map_append, List.map_cons, List.map_nil,
            List.count_append, List.count_nil] at this ⊢
          omega
        one := h.one
        okA := by
          intro d i hm
          rcases List.mem_append.1 hm with hm | hm
          · exact h.okA d i hm
          · simp at hm
        okF := h.okF
        sorted := by simpa [okIdx_append, okIdx] using h.sorted
        bound := by simpa [okIdx_append, okIdx] using h.bound
        lose := h.lose
        pre := h.pre
        failedQ := by
          intro _
          by_cases hq' : q = []
          · exact Or.inl hq'
          · right; simp [hq']
        ev := h.ev, setupN := h.setupN, setupS := h.setupS
        failedO := h.failedO
        conn := by intro hc; exact absurd (hf.symm.trans hc) (by simp)
        fifo := fun hnf => absurd hf hnf }

theorem flight_cases {st : State} (h : Inv st) {k : Nat} {x : Nat × Phase}
    (hk : st.flight[k]? = some x) : k = 0 ∧ st.flight = [x] := by
  have hone := h.one
  match hfl : st.flight with
  | [] => simp [hfl] at hk
  | [y] =>
    cases k with
    | zero => simp [hfl] at hk; exact ⟨rfl, by rw [hk]⟩
    | succ k => simp [hfl] at hk
  | _ :: _ :: _ => simp [hfl] at hone

theorem flight_noSetup {st : State} (h : Inv st) {x : Nat × Phase} (hfl : st.flight = [x]) :
    st.setup = none := by
  cases hs : st.setup with
  | none => rfl
  | some y =>
    have := (h.setupS (by simp [hs])).1
    rw [hfl] at this; cases this

theorem flight_noLoss {st : State} (h : Inv st) {x : Nat × Phase} (hfl : st.flight = [x]) :
    st.losing = 0 := by
  rcases Nat.eq_zero_or_pos st.losing with h' | h'
  · exact h'
  · have := h.lose h'
    rw [hfl] at this; cases this

theorem conn_flight {st : State} (h : Inv st) {x : Nat × Phase} (hfl : st.flight = [x])
    (hc : st.net = .connected) : st.inProgress = true := by
  cases hip : st.inProgress with
  | true => rfl
  | false =>
    have := ((h.conn hc).2.1 hip).1
    rw [hfl] at this; cases this

/-- Changing the phase of the call in flight to a failed one. -/
theorem inv_phase_fail {st : State} (h : Inv st) {c : Nat} {p q : Phase} {n : Nat}
    (hfl : st.flight = [(c, p)]) (hq : q = .doneError ∨ q = .sendFailed) (hn : st.nread ≤ n) 
    (hp : okIdxF [(c, p)] = []) :
    Inv { st with flight := [(c, q)], nread := n } := by
  have hs := flight_noSetup h hfl
  have hlo := flight_noLoss h hfl
  have hb := h.bal
  have hsorted := h.sorted
  have hbound := h.bound
  rw [hfl] at hb hsorted hbound
  rw [hp] at hsorted hbound
  have hqI : okIdxF [(c, q)] = [] := by rcases hq with rfl | rfl <;> rfl
  exact {
    bal := by intro d; simpa using hb d
    one := by simp
    okA := h.okA
    okF := by
      intro d i hm
      rcases hq with rfl | rfl <;> simp at hm
    sorted := by
      show (okIdx st.answers ++ okIdxF [(c, q)]).Pairwise (· < ·)
      rw [hqI]; exact hsorted
    bound := by
      show ∀ i ∈ okIdx st.answers ++ okIdxF [(c, q)], i < n
      rw [hqI]
      intro i hi
      exact Nat.lt_of_lt_of_le (hbound i hi) hn
    lose := by simp [hlo]
    pre := h.pre, failedQ := h.failedQ, ev := h.ev, setupN := h.setupN
    setupS := by simp [hs]
    failedO := h.failedO
    conn := by
      intro hc
      have := conn_flight h hfl hc
      exact ⟨by simp, fun hip => (by rw [show st.inProgress = false from hip] at this; cases this),
        by simp [hlo]⟩
    fifo := by
      intro hnf
      obtain ⟨started, h1, h2, h3, h4⟩ := h.fifo hnf
      refine ⟨started, h1, h2, fun _ _ => ?_, by simp [hs]⟩
      rcases hq with rfl | rfl <;> exact trivial }

theorem inv_flightDone {st : State} (h : Inv st) (k : Nat) (ok : Bool) :
    Inv (stepFlightDone st k ok) := by
  unfold stepFlightDone
  cases hk : st.flight[k]? with
  | none => exact h
  | some x =>
    obtain ⟨hk0, hfl⟩ := flight_cases h hk
    subst hk0
    obtain ⟨c, p⟩ := x
    have hs := flight_noSetup h hfl
    have hb := h.bal
    have hsorted := h.sorted
    have hbound := h.bound
    have hokF := h.okF
    rw [hfl] at hb hsorted hbound hokF
    have hlo := flight_noLoss h hfl
    have hset : ∀ q, st.flight.set 0 (c, q) = [(c, q)] := by intro q; rw [hfl]; rfl
    have hopenNF : st.isOpen = true → st.net ≠ .failed := by
      intro ho hf; rw [h.failedO hf] at ho; cases ho
    cases p with
    | sending =>
      simp only
      split
      · rename_i hcond
        simp only [Bool.and_eq_true] at hcond
        have hnf := hopenNF hcond.2
        obtain ⟨started, h1, h2, h3, h4⟩ := h.fifo hnf
        have hal := h3 hcond.2 hlo
        rw [hfl] at hal
        obtain ⟨ha1, ha2⟩ := hal
        simp only [setPhase, hset]
        exact {
          bal := by intro d; simpa using hb d
          one := by simp
          okA := by
            intro d i hm
            have := h.okA d i hm
            show (st.sent ++ [c])[i]? = some d
            rw [List.getElem?_append_left]
            · exact this
            · exact (List.getElem?_eq_some_iff.1 this).1
          okF := by simp
          sorted := by simpa [okIdxF] using hsorted
          bound := by simpa [okIdxF] using hbound
          lose := by simp [hlo]
          pre := by
            show st.sent ++ [c] <+: st.accepted
            rw [h1, ha2, List.append_assoc]
            exact List.prefix_append _ _
          failedQ := h.failedQ, ev := h.ev, setupN := h.setupN
          setupS := by simp [hs]
          failedO := h.failedO
          conn := by
            intro hc
            have := conn_flight h hfl hc
            exact ⟨by simp, fun hip => (by rw [show st.inProgress = false from hip] at this; cases this),
        by simp [hlo]⟩
          fifo := by
            intro _
            refine ⟨started, h1, ?_, fun _ _ => ?_, by simp [hs]⟩
            · show st.sent ++ [c] <+: started
              rw [ha2]; exact List.prefix_refl _
            · show Aligned (st.sent ++ [c]) st.nread started [(c, .receiving)]
              refine ⟨by simp [ha1], ?_, ha2⟩
              rw [ha1]; simp }
      · simp only [setPhase, hset]
        exact inv_phase_fail (n := st.nread) h hfl (Or.inr rfl) (Nat.le_refl _) rfl
    | receiving =>
      simp only
      split
      · rename_i hcond
        simp only [Bool.and_eq_true] at hcond
        have hnf := hopenNF hcond.2
        obtain ⟨started, h1, h2, h3, h4⟩ := h.fifo hnf
        have hal := h3 hcond.2 hlo
        rw [hfl] at hal
        obtain ⟨ha1, ha2, ha3⟩ := hal
        · simp only [setPhase, hset]
          exact {
            bal := by intro d; simpa using hb d
            one := by simp
            okA := h.okA
            okF := by
              intro d i hm
              simp only [List.mem_singleton, Prod.mk.injEq, Phase.doneOk.injEq] at hm
              rw [hm.1, hm.2]; exact ha2
            sorted := by
              show (okIdx st.answers ++ [st.nread]).Pairwise (· < ·)
              simp only [okIdxF, List.append_nil] at hsorted hbound
              rw [List.pairwise_append]
              exact ⟨hsorted, by simp, by
                intro a ha b hb'
                simp only [List.mem_singleton] at hb'
                rw [hb']; exact hbound a ha⟩
            bound := by
              show ∀ i ∈ okIdx st.answers ++ [st.nread], i < st.nread + 1
              simp only [okIdxF, List.append_nil] at hbound
              intro i hi
              rcases List.mem_append.1 hi with hi | hi
              · exact Nat.lt_succ_of_lt (hbound i hi)
              · simp only [List.mem_singleton] at hi; omega
            lose := by simp [hlo]
            pre := h.pre, failedQ := h.failedQ, ev := h.ev, setupN := h.setupN
            setupS := by simp [hs]
            failedO := h.failedO
            conn := by
              intro hc
              have := conn_flight h hfl hc
              exact ⟨by simp,
                fun hip => (by rw [show st.inProgress = false from hip] at this; cases this),
                by simp [hlo]⟩
            fifo := by
              intro _
              exact ⟨started, h1, h2, fun _ _ => ⟨ha1.symm, ha3⟩, by simp [hs]⟩ }
      · simp only [setPhase, hset]
        exact inv_phase_fail (n := st.nread) h hfl (Or.inl rfl) (Nat.le_refl _) rfl
    | doneError => exact h
    | sendFailed => exact h
    | doneOk i => exact h

/-- Removing the call in flight with an error answer. -/
theorem base_answer {st : State} (h : Inv st) {c : Nat} {p : Phase} (hfl : st.flight = [(c, p)])
    (hp : okIdxF [(c, p)] = []) :
    Base { st with flight := [], answers := st.answers ++ [(c, .error)] } := by
  have hb := h.bal
  have hsorted := h.sorted
  have hbound := h.bound
  rw [hfl] at hb hsorted hbound
  rw [hp] at hsorted hbound
  exact {
    bal := by
      intro d; have := hb d
      simp only [List.map_cons, List.map_nil, List.count_cons, List.count_nil, List.map_append,
        List.count_append] at this ⊢
      omega
    one := by simp
    okA := by
      intro d i hm
      rcases List.mem_append.1 hm with hm | hm
      · exact h.okA d i hm
      · simp at hm
    okF := by simp
    sorted := by simpa [okIdx_append, okIdx, okIdxF] using hsorted
    bound := by simpa [okIdx_append, okIdx, okIdxF] using hbound
    lose := fun _ => rfl
    pre := h.pre, failedQ := h.failedQ, ev := h.ev }

theorem inv_flightRun {st : State} (h : Inv st) (k : Nat) : Inv (stepFlightRun st k) := by
  unfold stepFlightRun
  cases hk : st.flight[k]? with
  | none => exact h
  | some x =>
    obtain ⟨hk0, hfl⟩ := flight_cases h hk
    subst hk0
    obtain ⟨c, p⟩ := x
    have hs := flight_noSetup h hfl
    have her : st.flight.eraseIdx 0 = [] := by rw [hfl]; rfl
    cases p with
    | sending => exact h
    | receiving => exact h
    | doneError =>
      simp only [her]
      exact inv_loss' (base_answer h hfl rfl) hs
    | sendFailed =>
      simp only [her]
      have hb := base_answer h hfl rfl
      exact {
        bal := hb.bal, one := hb.one, okA := hb.okA, okF := hb.okF, sorted := hb.sorted
        bound := hb.bound, lose := fun _ => rfl, pre := h.pre, failedQ := h.failedQ, ev := h.ev
        setupN := h.setupN
        setupS := by simp [hs]
        failedO := h.failedO
        conn := by
          intro hc
          have := conn_flight h hfl hc
          exact ⟨fun _ => Or.inr (Nat.succ_pos _),
            fun hip => (by rw [show st.inProgress = false from hip] at this; cases this),
            fun _ => this⟩
        fifo := by
          intro hnf
          obtain ⟨started, h1, h2, h3, h4⟩ := h.fifo hnf
          exact ⟨started, h1, h2, fun _ hl => absurd hl (Nat.succ_ne_zero _), by simp [hs]⟩ }
    | doneOk i =>
      simp only [her]
      have hb := h.bal
      have hsorted := h.sorted
      have hbound := h.bound
      have hokF := h.okF
      rw [hfl] at hb hsorted hbound hokF
      have hlo := flight_noLoss h hfl
      refine inv_next ?_ hs rfl hlo (h.setupN hs) h.failedO ?_
      · exact {
          bal := by
            intro d; have := hb d
            simp only [List.map_cons, List.map_nil, List.count_cons, List.count_nil,
              List.map_append, List.count_append] at this ⊢
            omega
          one := by simp
          okA := by
            intro d j hm
            rcases List.mem_append.1 hm with hm | hm
            · exact h.okA d j hm
            · simp only [List.mem_singleton, Prod.mk.injEq, Answer.ok.injEq] at hm
              rw [hm.1, hm.2]; exact hokF c i (by simp)
          okF := by simp
          sorted := by simpa [okIdx_append, okIdx, okIdxF] using hsorted
          bound := by simpa [okIdx_append, okIdx, okIdxF] using hbound
          lose := fun _ => rfl
          pre := h.pre, failedQ := h.failedQ, ev := h.ev }
      · intro hnf
        obtain ⟨started, h1, h2, h3, h4⟩ := h.fifo hnf
        refine ⟨started, h1, h2, fun ho => ?_⟩
        have := h3 ho (flight_noLoss h hfl)
        rw [hfl] at this
        exact this

theorem inv_closeRun {st : State} (h : Inv st) : Inv (stepCloseRun st) := by
  unfold stepCloseRun
  split
  · exact h
  · exact {
      bal := h.bal, one := h.one, okA := h.okA, okF := h.okF, sorted := h.sorted
      bound := h.bound, lose := h.lose, pre := h.pre, failedQ := h.failedQ, ev := h.ev
      setupN := h.setupN, setupS := h.setupS, failedO := fun _ => rfl, conn := h.conn
      fifo := by
        intro hnf
        obtain ⟨started, h1, h2, _, h4⟩ := h.fifo hnf
        exact ⟨started, h1, h2, by simp, h4⟩ }

theorem inv_lossRun {st : State} (h : Inv st) : Inv (stepLossRun st) := by
  unfold stepLossRun
  cases hl : st.losing with
  | zero => exact h
  | succ n =>
    have hs : st.setup = none := by
      cases hs : st.setup with
      | none => rfl
      | some y =>
        have := (h.setupS (by simp [hs])).2.2.2.2.2.2
        omega
    exact inv_loss' {
      bal := h.bal, one := h.one, okA := h.okA, okF := h.okF, sorted := h.sorted
      bound := h.bound, lose := fun _ => h.lose (by omega), pre := h.pre, failedQ := h.failedQ
      ev := h.ev } hs

theorem inv_peek {st : State} (h : Inv st) (ok : Bool) : Inv (stepPeek st ok) := by
  unfold stepPeek
  cases hp : st.peeks with
  | zero => exact h
  | succ n =>
    have hs : st.setup = none := by
      cases hs : st.setup with
      | none => rfl
      | some y =>
        have := (h.setupS (by simp [hs])).2.1
        omega
    simp only
    split
    · exact {
        bal := h.bal, one := h.one, okA := h.okA, okF := h.okF, sorted := h.sorted
        bound := h.bound, lose := h.lose, pre := h.pre, failedQ := h.failedQ, ev := h.ev
        setupN := h.setupN, setupS := by simp [hs], failedO := h.failedO, conn := h.conn
        fifo := h.fifo }
    · exact inv_loss' {
        bal := h.bal, one := h.one, okA := h.okA, okF := h.okF, sorted := h.sorted
        bound := h.bound, lose := h.lose, pre := h.pre, failedQ := h.failedQ, ev := h.ev } hs

/-- Flush tasks exist only after the session has failed. -/
def FlushInv (st : State) : Prop := 0 < st.flushes → st.net = .failed

theorem flush_loss (st : State) : FlushInv (loss st) := by
  intro _
  by_cases hf : st.net = .failed <;> simp [loss, hf]

theorem flush_next {st : State} (h : FlushInv st) : FlushInv (sendNextOrPeek st) := by
  unfold sendNextOrPeek
  cases st.queue <;> exact h

theorem flush_step {st : State} (hi : Inv st) (h : FlushInv st) (a : Step) :
    FlushInv (step st a) := by
  cases a with
  | call c => simp only [step, stepCall]; split <;> exact h
  | stop => exact h
  | setupDone ok =>
    simp only [step, stepSetup]
    cases hs : st.setup with
    | none => exact h
    | some x =>
      have hnet := (hi.setupS (by simp [hs])).2.2.2.2.2.1
      have h0 : st.flushes = 0 := by
        rcases Nat.eq_zero_or_pos st.flushes with h' | h'
        · exact h'
        · have := h h'; simp [hnet] at this
      have hnext : ∀ i, FlushInv (nextHost st i) := by
        intro i; unfold nextHost
        split
        · exact h
        · exact flush_loss _
      cases x with
      | resolving i => 
        simp only; split
        · exact h
        · exact hnext i
      | connecting i =>
        simp only; split
        · exact flush_next (by intro hp; exact absurd hp (by simp [h0]))
        · exact hnext i
  | runCall =>
    simp only [step, stepRunCall]
    cases st.posted with
    | nil => exact h
    | cons c r =>
      simp only
      split
      · exact h
      · split <;> exact h
  | runFlush =>
    simp only [step, stepRunFlush]
    cases hn : st.flushes with
    | zero => exact h
    | succ n =>
      have hf : st.net = .failed := h (by omega)
      cases st.queue with
      | nil => exact fun _ => hf
      | cons c q => exact fun _ => hf
  | flightDone k ok =>
    simp only [step, stepFlightDone, setPhase]
    split
    · split <;> exact h
    · split <;> exact h
    · exact h
  | flightRun k =>
    simp only [step, stepFlightRun]
    split
    · exact h
    · exact flush_loss _
    · exact flush_next h
    · exact h
  | closeRun =>
    simp only [step, stepCloseRun]
    split <;> exact h
  | lossRun =>
    simp only [step, stepLossRun]
    cases st.losing with
    | zero => exact h
    | succ n => exact flush_loss _
  | peekDone ok =>
    simp only [step, stepPeek]
    cases st.peeks with
    | zero => exact h
    | succ n =>
      simp only
      split
      · exact h
      · exact flush_loss _

theorem inv_step {st : State} (h : Inv st) (hf : FlushInv st) (a : Step) : Inv (step st a) := by
  cases a with
  | call c => exact inv_call h c
  | stop => exact inv_stop h
  | setupDone ok => exact inv_setup h ok
  | runCall => exact inv_runCall h
  | runFlush => exact inv_runFlush h hf
  | flightDone k ok => exact inv_flightDone h k ok
  | closeRun => exact inv_closeRun h
  | lossRun => exact inv_lossRun h
  | flightRun k => exact inv_flightRun h k
  | peekDone ok => exact inv_peek h ok

theorem inv_run {st : State} (h : Inv st) (hf : FlushInv st) (steps : List Step) :
    Inv (run st steps) ∧ FlushInv (run st steps) := by
  induction steps generalizing st with
  | nil => exact ⟨h, hf⟩
  | cons a l ih => exact ih (inv_step h hf a) (flush_step h hf a)

theorem inv_reach (n : Nat) (steps : List Step) : Inv (run (init n) steps) :=
  (inv_run (inv_init n) (by intro h; exact absurd h (by simp [init])) steps).1

theorem flush_reach (n : Nat) (steps : List Step) : FlushInv (run (init n) steps) :=
  (inv_run (inv_init n) (by intro h; exact absurd h (by simp [init])) steps).2

end Ecal.Service.ClientV0
