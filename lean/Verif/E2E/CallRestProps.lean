import Verif.E2E.CallProps

/-!
# C107: every call is answered unless the connection fails

Nothing in the two sessions and the framing can get stuck: a connection that has not failed and has
nothing left to do has answered all calls.
-/

namespace Ecal.Service

/-- All bytes read: all messages are handed on. -/
theorem Inv.all {ms : List Msg} {s : Rx} (hw : ∀ m ∈ ms, m.WF) (h : Inv ms s (stream ms))
    (hs : s.sock = []) : s.out = expected ms := by
  obtain ⟨done, todo, part, h1, h2, h3, h4⟩ := h.split
  have hpart : part = stream todo := by
    rw [hs, List.append_nil, h1, stream_append] at h4
    exact List.append_cancel_left h4
  have : todo = [] := by
    cases todo with
    | nil => rfl
    | cons m t =>
      exfalso
      have hl : part.length = (stream (m :: t)).length := by rw [hpart]
      have hm := hw m (by rw [h1]; simp)
      have h8 : m.header.length = 8 + m.ext.length := by
        rw [header_eq, List.length_append, first8_length]
      rw [stream_cons] at hl
      simp only [List.length_append] at hl
      generalize s.phase = ph at h3
      cases h3 with
      | idle => simp at hl; omega
      | start got rest hlt => have := hm.1; omega
      | rest m got ms hlt => rw [List.length_append, first8_length] at hl; omega
      | payload m got ms hlt => rw [List.length_append] at hl; omega
  rw [h1, this, List.append_nil, h2]

/-- A running receive operation wants bytes. -/
theorem Inv.wants {ms : List Msg} {s : Rx} {t : Bytes} (h : Inv ms s t) (hp : s.phase ≠ .idle) :
    0 < wanted s.phase := by
  obtain ⟨done, todo, part, _, _, h3, _⟩ := h.split
  cases hph : s.phase with
  | idle => exact absurd hph hp
  | start got => rw [hph] at h3; cases h3; simp only [wanted]; omega
  | rest f n got => rw [hph] at h3; cases h3; simp only [wanted]; omega
  | payload f n got => rw [hph] at h3; cases h3; simp only [wanted]; omega

/-- A receive operation that cannot read on has emptied the socket. -/
theorem sock_empty {s : Rx} (hw : 0 < wanted s.phase) (h : step s (.readSome 1) = s) : s.sock = [] := by
  have h1 : (step s (.readSome 1)).sock = s.sock := by rw [h]
  simp only [step] at h1
  have hmin : min 1 (wanted s.phase) = 1 := by omega
  rw [hmin] at h1
  cases hs : s.sock with
  | nil => rfl
  | cons b l => rw [hs] at h1; simp at h1

end Ecal.Service

namespace Ecal.E2E.Call

variable {sv : Server} {ask : Nat → Ask}

/-- What happens by itself as long as nothing fails. -/
def Runtime : Step → Prop
  | .client (.setupDone true true) => True
  | .client .runCall => True
  | .client .runFlush => True
  | .client (.flightDone _ true _) => True
  | .client (.flightRun _) => True
  | .server (.hsReceived true) => True
  | .server (.hsSent true) => True
  | .server (.sent true) => True
  | .take => True
  | .handle _ _ => True
  | .netUp _ => True
  | .netDown _ => True
  | .svReceive => True
  | .svRead _ => True
  | .clReceive => True
  | .clRead _ => True
  | _ => False

/-- Nothing is left to do. -/
def AtRest (sv : Server) (ask : Nat → Ask) (s : Sys) : Prop := ∀ a, Runtime a → step sv ask s a = s

/-- Errors are reported only after the session has failed. -/
def ErrInv (st : Service.Client.State) : Prop :=
  st.net ≠ .failed → ∀ c, (c, Service.Client.Answer.error) ∉ st.answers

theorem err_step {st : Service.Client.State} (hi : Service.Client.Inv st)
    (hf : Service.Client.FlushInv st) (h : ErrInv st)
    (a : Service.Client.Step) : ErrInv (Service.Client.step st a) := by
  have hloss : ∀ s, ErrInv (Service.Client.loss s) := by
    intro s hn; exact absurd (loss_fields s).2.2.2.1 hn
  have hnext : ∀ s, ErrInv s → ErrInv (Service.Client.sendNextOrPeek s) := by
    intro s hs; unfold Service.Client.sendNextOrPeek; cases s.queue <;> exact hs
  have hhost : ∀ s i, ErrInv s → ErrInv (Service.Client.nextHost s i) := by
    intro s i hs; unfold Service.Client.nextHost; split
    · exact hs
    · exact hloss _
  cases a with
  | call c => simp only [Service.Client.step, Service.Client.stepCall]; split <;> exact h
  | stop => exact h
  | setupDone ok accept =>
    simp only [Service.Client.step, Service.Client.stepSetup]
    cases hs : st.setup with
    | none => exact h
    | some x =>
      have hnf : st.net ≠ .failed := by
        rcases (hi.setupS (by simp [hs])).2.2.2.2.2 with h | h <;> rw [h] <;> simp
      cases x with
      | resolving i =>
        simp only
        split
        · exact h
        · exact hhost _ _ h
      | connecting i =>
        simp only
        split
        · exact fun _ => h hnf
        · exact hhost _ _ h
      | hsSending =>
        simp only
        split
        · exact h
        · exact hloss _
      | hsReceiving =>
        simp only
        split
        · exact hnext _ (fun _ => h hnf)
        · exact hloss _
  | runCall =>
    simp only [Service.Client.step, Service.Client.stepRunCall]
    cases st.posted with
    | nil => exact h
    | cons c rest =>
      simp only
      split
      · next hfail => exact fun hn => absurd hfail hn
      · split <;> exact h
  | runFlush =>
    simp only [Service.Client.step, Service.Client.stepRunFlush]
    cases hn : st.flushes with
    | zero => exact h
    | succ n =>
      have hfail := hf (by omega)
      simp only
      cases st.queue <;> exact fun hn => absurd hfail hn
  | flightDone k ok rt =>
    simp only [Service.Client.step, Service.Client.stepFlightDone]
    split <;> (try split) <;> (try split) <;> exact h
  | flightRun k =>
    simp only [Service.Client.step, Service.Client.stepFlightRun]
    split
    · exact hloss _
    · exact hloss _
    · refine hnext _ (fun hn c hc => ?_)
      rcases List.mem_append.1 hc with h1 | h1
      · exact h hn c h1
      · simp at h1
    · exact h
  | peekDone ok =>
    simp only [Service.Client.step, Service.Client.stepPeek]
    cases st.peeks with
    | zero => exact h
    | succ n =>
      simp only
      split
      · exact h
      · exact hloss _

/-- The client session takes at most one step at a time. -/
theorem cl_step (s : Sys) (a : Step) : (step sv ask s a).cl = s.cl ∨
    ∃ b, (step sv ask s a).cl = Service.Client.step s.cl b := by
  cases a with
  | client a =>
    simp only [step, stepClient]
    split
    · next k rt =>
      split
      · split
        · exact Or.inl rfl
        · next h _ _ => exact Or.inr ⟨.flightDone k true (Service.messageType h == 4), rfl⟩
      · exact Or.inr ⟨.flightDone k true rt, rfl⟩
    · exact Or.inr ⟨a, rfl⟩
  | server a =>
    left
    simp only [step, stepServer]
    split
    · rfl
    · rfl
    · rfl
    · split <;> rfl
  | take =>
    left
    simp only [step, stepTake]
    split
    · rfl
    · split <;> rfl
  | handle ret out =>
    left
    simp only [step, stepHandle]
    split
    · rfl
    · split
      · split <;> rfl
      · rfl
  | methods m => exact Or.inl rfl
  | netUp n => exact Or.inl rfl
  | netDown n => exact Or.inl rfl
  | svReceive => left; simp only [step]; split <;> rfl
  | svRead n => exact Or.inl rfl
  | clReceive => left; simp only [step]; split <;> rfl
  | clRead n => exact Or.inl rfl

theorem err_run (n : Nat) (l : List Step) : ErrInv (run sv ask (init n) l).cl := by
  have key : ∀ (l : List Step) (s : Sys), Service.Client.Inv s.cl → Service.Client.FlushInv s.cl →
      ErrInv s.cl → ErrInv (run sv ask s l).cl := by
    intro l
    induction l with
    | nil => intro s _ _ h; exact h
    | cons a l ih =>
      intro s hi hf h
      rcases cl_step (sv := sv) (ask := ask) s a with he | ⟨b, he⟩
      · exact ih _ (he ▸ hi) (he ▸ hf) (he ▸ h)
      · exact ih _ (he ▸ Service.Client.inv_step hi hf b) (he ▸ Service.Client.flush_step hi hf b)
          (he ▸ err_step hi hf h b)
  exact key l _ (Service.Client.inv_init n) (by intro h; exact absurd h (by simp [init, Service.Client.init]))
    (by intro _ c hc; simp [init, Service.Client.init] at hc)

/-- A server at rest on a good connection waits for the next request, having taken all that came. -/
theorem server_waits {s : Sys} (g : Good sv ask s) (hq : ∀ c, (payload (ask c)).length < 2 ^ 32)
    (hr : AtRest sv ask s) (ho : s.sv.isOpen = true) (hf : s.sv.phase ≠ .failed)
    (hc : s.crashed = false) : s.sv.calls.length = s.wrote.length := by
  have hph : s.sv.phase = .receive := by
    cases hp : s.sv.phase with
    | receive => rfl
    | failed => exact absurd hp hf
    | hsReceive =>
      have := congrArg (fun s => s.sv.phase) (hr (.server (.hsReceived true)) trivial)
      simp [step, stepServer, hc, Service.Server.V1.step, hp, ho] at this
    | hsSend =>
      have := congrArg (fun s => s.sv.phase) (hr (.server (.hsSent true)) trivial)
      simp [step, stepServer, hc, Service.Server.V1.step, hp, ho] at this
    | badType =>
      have := congrArg (fun s => s.sv.phase) (hr (.handle 0 []) trivial)
      simp [step, stepHandle, hc, Service.Server.V1.step, hp, Service.Server.V1.fail] at this
    | send r a =>
      have := congrArg (fun s => s.sv.phase) (hr (.server (.sent true)) trivial)
      simp [step, stepServer, hc, Service.Server.V1.step, hp, ho] at this
    | dispatch r =>
      have h0 := hr (.handle 0 []) trivial
      simp only [step, stepHandle, hc, hp] at h0
      cases hs : serve sv s.methods s.sv.calls.length 0 [] r with
      | crash =>
        rw [hs] at h0
        have := congrArg (·.crashed) h0
        simp [hc] at this
      | reply x =>
        rw [hs] at h0
        have := congrArg (fun s => s.sv.phase) h0
        simp [Service.Server.V1.step, hp] at this
      | executed e x =>
        rw [hs] at h0
        have := congrArg (fun s => s.sv.phase) h0
        simp [Service.Server.V1.step, hp] at this
  have hsi := g.si
  unfold Service.Server.V1.Inv at hsi
  rw [hph] at hsi
  have hlen : s.sv.calls.length = s.sv.received.length := by
    rw [← hsi.1, List.length_map]
  -- everything handed on was taken
  have hout : s.up.out.length = s.sv.received.length := by
    have h1 : s.sv.received.length ≤ s.up.out.length := by
      cases hn : s.sv.received.length with
      | zero => exact Nat.zero_le _
      | succ k =>
        obtain ⟨h, hk⟩ := g.rcv k _ (List.getElem?_eq_getElem (by omega))
        exact (List.getElem?_eq_some_iff.1 hk).1
    by_cases h2 : s.sv.received.length < s.up.out.length
    · exfalso
      obtain ⟨x, hx⟩ : ∃ x, s.up.out[s.sv.received.length]? = some x := ⟨_, List.getElem?_eq_getElem h2⟩
      have h0 := congrArg (fun s => s.sv.phase) (hr .take trivial)
      simp only [step, stepTake, hc, hx] at h0
      by_cases ht : (Service.messageType x.1 == 3) = true
      · simp [ht, Service.Server.V1.step, hph, ho] at h0
      · simp [ht, Service.Server.V1.step, hph, ho] at h0
    · omega
  -- the receive operation runs and has read everything
  have hph2 : s.up.phase ≠ .idle := by
    intro hidle
    have h0 := congrArg (fun s => s.up.phase) (hr .svReceive trivial)
    simp [step, svReading, hph, hout, Service.step, hidle] at h0
  have hsock : s.up.sock = [] := by
    refine Service.sock_empty (g.up.wants hph2) ?_
    exact congrArg (·.up) (hr (.svRead 1) trivial)
  have hgone : s.upGone = (upBytes ask s).length := by
    have h0 : (step sv ask s (.netUp 1)).upGone = s.upGone := by rw [hr (.netUp 1) trivial]
    simp only [step] at h0
    have := g.upLe
    omega
  have hall : s.up.out = Service.expected (upMsgs ask s) := by
    refine Service.Inv.all ?_ ?_ hsock
    · intro m hm
      obtain ⟨c, _, rfl⟩ := List.mem_map.1 hm
      exact wf_msg _ _ _ (hq c)
    · have := g.up
      rw [hgone, List.take_length] at this
      exact this
  rw [hlen, ← hout, hall]
  simp [Service.expected, upMsgs]

/-- No call is left in flight. -/
theorem client_waits {s : Sys} (g : Good sv ask s) (hq : ∀ c, (payload (ask c)).length < 2 ^ 32)
    (hs : Small s) (hr : AtRest sv ask s) (hn : s.cl.net = .connected) (hco : s.cl.isOpen = true)
    (ho : s.sv.isOpen = true) (hf : s.sv.phase ≠ .failed) (hc : s.crashed = false) :
    s.cl.flight = [] := by
  have hone := g.ci.one
  match hfl : s.cl.flight with
  | [] => rfl
  | _ :: _ :: _ => rw [hfl] at hone; simp at hone
  | [(c, .sending)] =>
    exfalso
    have h0 := congrArg (fun s => s.cl.flight) (hr (.client (.flightDone 0 true true)) trivial)
    simp [step, stepClient, reading, hfl, clientTo, Service.Client.step, Service.Client.stepFlightDone,
      hco, Service.Client.setPhase] at h0
  | [(c, .doneError)] =>
    exfalso
    have h0 := congrArg (fun s => s.cl.flight) (hr (.client (.flightRun 0)) trivial)
    simp [step, stepClient, hfl, clientTo, Service.Client.step, Service.Client.stepFlightRun,
      (loss_fields _).1] at h0
  | [(c, .doneBad)] =>
    exfalso
    have h0 := congrArg (fun s => s.cl.flight) (hr (.client (.flightRun 0)) trivial)
    simp [step, stepClient, hfl, clientTo, Service.Client.step, Service.Client.stepFlightRun,
      (loss_fields _).1] at h0
  | [(c, .doneOk i)] =>
    exfalso
    have h0 := congrArg (fun s => s.cl.flight) (hr (.client (.flightRun 0)) trivial)
    simp only [step, stepClient, hfl, clientTo, Service.Client.step, Service.Client.stepFlightRun,
      List.getElem?_cons_zero, Service.Client.sendNextOrPeek] at h0
    cases hqq : s.cl.queue with
    | nil => simp [hqq] at h0
    | cons d q => simp [hqq, Service.Client.startSend] at h0
  | [(c, .receiving)] =>
    exfalso
    have hnf : s.cl.net ≠ .failed := by rw [hn]; simp
    obtain ⟨started, _, _, h3, _⟩ := g.ci.fifo hnf
    have hal := h3 hco
    rw [hfl] at hal
    have hsh := g.w.shape
    unfold WShape at hsh
    rw [hfl] at hsh
    have hcalls := server_waits g hq hr ho hf hc
    rw [hsh, hal.1] at hcalls
    have hnone : s.down.out[s.cl.nread]? = none := by
      cases hx : s.down.out[s.cl.nread]? with
      | none => rfl
      | some x =>
        exfalso
        have h0 := congrArg (fun s => s.cl.nread) (hr (.client (.flightDone 0 true true)) trivial)
        simp only [step, stepClient, reading, hfl, hx, clientTo, Service.Client.step,
          Service.Client.stepFlightDone, hco, List.getElem?_cons_zero, Bool.and_self, if_true] at h0
        by_cases ht : (Service.messageType x.1 == 4) = true <;> simp [ht, Service.Client.setPhase] at h0
    have hlen : s.down.out.length = s.cl.nread := by
      have := List.getElem?_eq_none_iff.1 hnone
      have := g.nr
      omega
    have hph2 : s.down.phase ≠ .idle := by
      intro hidle
      have h0 := congrArg (fun s => s.down.phase) (hr .clReceive trivial)
      simp [step, clReading, hfl, hlen, Service.step, hidle] at h0
    have hsock : s.down.sock = [] := by
      refine Service.sock_empty (g.dn.wants hph2) ?_
      exact congrArg (·.down) (hr (.clRead 1) trivial)
    have hgone : s.downGone = (downBytes s).length := by
      have h0 : (step sv ask s (.netDown 1)).downGone = s.downGone := by rw [hr (.netDown 1) trivial]
      simp only [step] at h0
      have := g.dnLe
      omega
    have hall : s.down.out = Service.expected (downMsgs s) := by
      refine Service.Inv.all ?_ ?_ hsock
      · intro m hm
        obtain ⟨p, hp, rfl⟩ := List.mem_map.1 hm
        exact wf_msg _ _ _ (hs p hp)
      · have := g.dn
        rw [hgone, List.take_length] at this
        exact this
    have : s.down.out.length = s.sv.calls.length := by
      rw [hall]; simp [Service.expected, downMsgs]
    omega

/-- **C107 (every call is answered).**  If the connection stands, the server has not terminated, and
nothing is left to do, then every accepted call has been answered by the server — exactly once. -/
theorem C107_all_answered (n : Nat) (l : List Step) (hq : ∀ c, (payload (ask c)).length < 2 ^ 32)
    (s : Sys) (hrun : s = run sv ask (init n) l) (hs : Small s) (hr : AtRest sv ask s)
    (hn : s.cl.net = .connected) (hco : s.cl.isOpen = true) (ho : s.sv.isOpen = true)
    (hf : s.sv.phase ≠ .failed) (hc : s.crashed = false) :
    (∀ c, (s.cl.answers.map Prod.fst).count c = s.cl.accepted.count c) ∧
    ∀ c a, (c, a) ∈ s.cl.answers → ∃ i, a = .ok i := by
  have g : Good sv ask s := by rw [hrun]; exact good_run (good_init n) hq l (hrun ▸ hs)
  have hfl := client_waits g hq hs hr hn hco ho hf hc
  have hqe : s.cl.queue = [] := ((g.ci.conn hn).2 ((g.ci.conn hn).1 hfl)).2
  have hpo : s.cl.posted = [] := by
    cases hp : s.cl.posted with
    | nil => rfl
    | cons c rest =>
      exfalso
      have h0 := congrArg (fun s => s.cl.posted.length) (hr (.client .runCall) trivial)
      simp only [step, stepClient, clientTo, Service.Client.step, Service.Client.stepRunCall, hp, hn] at h0
      revert h0
      split
      · simp
      · split <;> simp [Service.Client.startSend]
  constructor
  · intro c
    have := g.ci.bal c
    rw [hfl, hqe, hpo] at this
    simp at this
    exact this.symm
  · intro c a ha
    cases a with
    | ok i => exact ⟨i, rfl⟩
    | error =>
      have he : ErrInv s.cl := by rw [hrun]; exact err_run n l
      exact absurd ha (he (by rw [hn]; simp) c)

/-! ### Examples -/

theorem rx_start {r : Service.Rx} {n : Nat} (h : r.phase = .start []) (hs : r.sock = []) :
    Service.step r (.readSome n) = r := by
  obtain ⟨so, ph, ou⟩ := r
  subst h hs
  simp [Service.step, Service.gain, Service.complete]

theorem rx_idle {r : Service.Rx} {n : Nat} (h : r.phase = .idle) :
    Service.step r (.readSome n) = r := by
  obtain ⟨so, ph, ou⟩ := r
  subst h
  simp [Service.step, Service.gain, Service.complete, Service.wanted]

/-- A connection at rest after its calls. -/
theorem rest_of {s : Sys} (h1 : s.cl.flight = []) (h2 : s.cl.posted = []) (h3 : s.cl.flushes = 0)
    (h4 : s.cl.setup = none) (h5 : s.sv.phase = .receive) (h6 : s.up.phase = .start [])
    (h7 : s.up.sock = []) (h8 : s.up.out[s.sv.received.length]? = none)
    (h9 : s.upGone = (upBytes ask s).length) (h10 : s.down.phase = .idle)
    (h11 : s.downGone = (downBytes s).length) : AtRest sv ask s := by
  have hsame : clientTo s s.cl = s := by
    simp [clientTo, begun_same rfl]
  intro a ha
  cases a with
  | client a =>
    cases a with
    | call c => exact ha.elim
    | stop => exact ha.elim
    | peekDone ok => exact ha.elim
    | setupDone ok accept =>
      simp [step, stepClient, Service.Client.step, Service.Client.stepSetup, h4, hsame]
    | runCall => simp [step, stepClient, Service.Client.step, Service.Client.stepRunCall, h2, hsame]
    | runFlush => simp [step, stepClient, Service.Client.step, Service.Client.stepRunFlush, h3, hsame]
    | flightDone k ok rt =>
      cases ok with
      | false => exact ha.elim
      | true =>
        simp [step, stepClient, reading, Service.Client.step, Service.Client.stepFlightDone, h1, hsame]
    | flightRun k => simp [step, stepClient, Service.Client.step, Service.Client.stepFlightRun, h1, hsame]
  | server a =>
    cases a <;> simp [step, stepServer, Service.Server.V1.step, h5] <;> exact ha.elim
  | take => simp [step, stepTake, h8]
  | handle ret out => simp [step, stepHandle, h5, Service.Server.V1.step]
  | methods m => exact ha.elim
  | netUp n => simp [step, h9, Service.step]; rw [← h9]
  | netDown n => simp [step, h11, Service.step]; rw [← h11]
  | svReceive => simp [step, Service.step, h6]
  | svRead n =>
    simp only [step, rx_start h6 h7]
  | clReceive => simp [step, clReading, h1]
  | clRead n =>
    simp only [step, rx_idle h10]

/-- A server with a method `m` and two calls, one for it and one for a method that does not exist. -/
def sv0 : Server := { host := [104], name := [115], id := [49] }
def ask0 : Nat → Ask := fun c => if c = 7 then { method := [109], request := [1, 2, 3] } else { method := [120], request := [] }

def setup0 : List Step :=
  [.methods [([109], { reqType := [], respType := [], callable := true })],
   .client (.call 7), .client (.setupDone true true), .client (.setupDone true true),
   .server (.hsReceived true), .client (.call 8), .client .runCall, .client (.setupDone true true),
   .server (.hsSent true), .client (.setupDone true true), .client .runCall]

/-- One call: the request in two pieces, the response in three. -/
def call0 : List Step :=
  [.svReceive, .netUp 5, .svRead 100, .client (.flightDone 0 true true), .netUp 1000, .svRead 100, .svRead 100,
   .svRead 100, .take, .handle (-3) [9, 9], .clReceive, .netDown 9, .clRead 100, .clRead 100, .netDown 1000,
   .server (.sent true), .clRead 3, .clRead 100, .clRead 100, .client (.flightDone 0 true true), .client (.flightRun 0)]

def end0 : Sys := run sv0 ask0 (init 1) (setup0 ++ call0 ++ call0 ++ [.svReceive])

example : end0.cl.answers = [(7, .ok 0), (8, .ok 1)] ∧
    end0.execs = [⟨0, [109], [], [], [1, 2, 3], -3, [9, 9]⟩] ∧
    (outcome end0 {} [] (.ok 0)) = ⟨[104], [115], [49], [109], [], -3, .executed, [9, 9]⟩ ∧
    (outcome end0 {} [] (.ok 1)).state = .failed ∧ Small end0 := by
  refine ⟨?_, ?_, ?_, ?_, ?_⟩ <;> (try unfold Small) <;> decide +kernel

example : (∀ c, (payload (ask0 c)).length < 2 ^ 32) := by
  intro c
  by_cases h : c = 7
  · subst h; decide +kernel
  · simp only [ask0, if_neg h]; decide +kernel

example : AtRest sv0 ask0 end0 ∧ end0.cl.net = .connected ∧ end0.cl.isOpen = true ∧
    end0.sv.isOpen = true ∧ end0.sv.phase ≠ .failed ∧ end0.crashed = false := by
  refine ⟨rest_of ?_ ?_ ?_ ?_ ?_ ?_ ?_ ?_ ?_ ?_ ?_, ?_⟩ <;> decide +kernel

/-- **C107 (what a reported failure means).**  A call reported as failed because the connection broke
may have been executed: here the connection is lost after the method ran. -/
theorem C107_failure_may_be_late : ∃ l : List Step,
    (run sv0 ask0 (init 1) l).cl.answers = [(7, .error)] ∧
    (run sv0 ask0 (init 1) l).execs.map (·.request) = [[1, 2, 3]] :=
  ⟨setup0 ++ call0.take 10 ++ [.client (.flightDone 0 false true), .client (.flightRun 0)],
    by decide +kernel, by decide +kernel⟩

/-- **C107 (a described method without a function).**  A request for it terminates the server process
instead of being answered (see C39): the caller gets an error at best. -/
theorem C107_violated_described_only (s : Sys) (a : Ask) (h : (payload a).length < 2 ^ 32)
    (hp : s.sv.phase = .dispatch (payload a)) (hc : s.crashed = false) (m : Method)
    (hm : s.methods.find a.method = some m) (hcb : m.callable = false) (ret : BitVec 32) (out : Bytes) :
    (step sv ask s (.handle ret out)).crashed = true := by
  simp only [step, stepHandle, hc, hp]
  rw [serve_payload a h, hm]
  simp [hcb]

example : ((run sv0 ask0 (init 1) (setup0 ++
    [.methods [([109], { reqType := [], respType := [], callable := false })]] ++ call0)).crashed,
    (run sv0 ask0 (init 1) (setup0 ++
    [.methods [([109], { reqType := [], respType := [], callable := false })]] ++ call0)).cl.answers) =
    (true, []) := by decide +kernel

end Ecal.E2E.Call
