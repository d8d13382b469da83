import Verif.E2E.CallRestProps

/-!
# C107: without faults every call is answered

If no operation of the operating system fails and nobody stops a session, neither session fails —
in particular no message is ever taken for one of another type — and a connection that has nothing
left to do has answered all calls.
-/

namespace Ecal.E2E.Call

variable {sv : Server} {ask : Nat → Ask}

/-- Steps of the runtime without a failed operation, new calls, and changes of the methods. -/
def FaultFree : Step → Prop
  | .client (.call _) => True
  | .client (.peekDone true) => True
  | .methods _ => True
  | a => Runtime a

/-- A client session without failure. -/
structure ClOk (st : Service.Client.State) : Prop where
  net    : st.net ≠ .failed
  setupO : st.setup = none ∨ st.setup = some .hsSending ∨ st.setup = some .hsReceiving → st.isOpen = true
  flight : ∀ c, (c, Service.Client.Phase.doneError) ∉ st.flight ∧ (c, Service.Client.Phase.doneBad) ∉ st.flight

/-- A server session without failure. -/
structure SvOk (st : Service.Server.V1.State Bytes Bytes) : Prop where
  isOpen : st.isOpen = true
  phase  : st.phase ≠ .failed ∧ st.phase ≠ .badType

theorem messageType_mk (v t : UInt8) (p : Bytes) :
    Service.messageType (Service.mkMsg v t p).header = t := by
  simp [Service.messageType, Service.Msg.header, Service.mkMsg, Service.be32]

theorem clok_next {st : Service.Client.State} (h : ClOk st) (hs : st.flight = []) :
    ClOk (Service.Client.sendNextOrPeek st) := by
  unfold Service.Client.sendNextOrPeek
  cases st.queue with
  | nil => exact ⟨h.net, h.setupO, h.flight⟩
  | cons c q =>
    refine ⟨h.net, h.setupO, ?_⟩
    intro d
    simp [Service.Client.startSend, hs]

theorem clok_step {st : Service.Client.State} (hi : Service.Client.Inv st) (h : ClOk st) :
    (∀ c, ClOk (Service.Client.step st (.call c))) ∧ ClOk (Service.Client.step st (.peekDone true)) ∧
    ClOk (Service.Client.step st (.setupDone true true)) ∧ ClOk (Service.Client.step st .runCall) ∧
    ClOk (Service.Client.step st .runFlush) ∧
    (∀ k rt, (reading st k = true → rt = true) → ClOk (Service.Client.step st (.flightDone k true rt))) ∧
    (∀ k, ClOk (Service.Client.step st (.flightRun k))) := by
  refine ⟨?_, ?_, ?_, ?_, ?_, ?_, ?_⟩
  · intro c
    simp only [Service.Client.step, Service.Client.stepCall]
    split
    · exact h
    · exact ⟨h.net, h.setupO, h.flight⟩
  · simp only [Service.Client.step, Service.Client.stepPeek]
    cases st.peeks with
    | zero => exact h
    | succ n => exact ⟨h.net, h.setupO, h.flight⟩
  · simp only [Service.Client.step, Service.Client.stepSetup]
    cases hs : st.setup with
    | none => exact h
    | some x =>
      have hfl := (hi.setupS (by simp [hs])).1
      cases x with
      | resolving i => exact ⟨h.net, by simp, h.flight⟩
      | connecting i => exact ⟨by simp, by simp, h.flight⟩
      | hsSending =>
        have ho := h.setupO (Or.inr (Or.inl hs))
        simp only [ho, Bool.and_self, if_true]
        exact ⟨h.net, fun _ => rfl, h.flight⟩
      | hsReceiving =>
        have ho := h.setupO (Or.inr (Or.inr hs))
        simp only [ho, Bool.and_self, if_true]
        exact clok_next ⟨by simp, fun _ => rfl, h.flight⟩ hfl
  · simp only [Service.Client.step, Service.Client.stepRunCall]
    cases st.posted with
    | nil => exact h
    | cons c rest =>
      simp only [if_neg h.net]
      split
      · refine ⟨h.net, h.setupO, ?_⟩
        intro d
        have := h.flight d
        simp [Service.Client.startSend, this]
      · exact ⟨h.net, h.setupO, h.flight⟩
  · simp only [Service.Client.step, Service.Client.stepRunFlush]
    cases st.flushes with
    | zero => exact h
    | succ n => cases st.queue <;> exact ⟨h.net, h.setupO, h.flight⟩
  · intro k rt hrt
    simp only [Service.Client.step, Service.Client.stepFlightDone]
    cases hk : st.flight[k]? with
    | none => exact h
    | some x =>
      obtain ⟨hk0, hfl⟩ := Service.Client.flight_cases hi hk
      subst hk0
      obtain ⟨c, p⟩ := x
      have ho := h.setupO (Or.inl (Service.Client.flight_noSetup hi hfl))
      cases p with
      | sending =>
        simp only [ho, Bool.and_self, if_true]
        refine ⟨h.net, fun _ => ho, ?_⟩
        intro d
        simp [Service.Client.setPhase, hfl]
      | receiving =>
        have : rt = true := hrt (by simp [reading, hk])
        subst this
        simp only [ho, Bool.and_self, if_true]
        refine ⟨h.net, fun _ => ho, ?_⟩
        intro d
        simp [Service.Client.setPhase, hfl]
      | doneError => exact h
      | doneBad => exact h
      | doneOk i => exact h
  · intro k
    simp only [Service.Client.step, Service.Client.stepFlightRun]
    cases hk : st.flight[k]? with
    | none => exact h
    | some x =>
      obtain ⟨hk0, hfl⟩ := Service.Client.flight_cases hi hk
      subst hk0
      obtain ⟨c, p⟩ := x
      cases p with
      | sending => exact h
      | receiving => exact h
      | doneError => exact absurd (by rw [hfl]; simp) (h.flight c).1
      | doneBad => exact absurd (by rw [hfl]; simp) (h.flight c).2
      | doneOk i =>
        refine clok_next ⟨h.net, h.setupO, ?_⟩ (by rw [hfl]; rfl)
        intro d
        simp [hfl]

theorem ok_step {s : Sys} (g : Good sv ask s) (hc : ClOk s.cl) (hv : SvOk s.sv) (a : Step)
    (ha : FaultFree a) : ClOk (step sv ask s a).cl ∧ SvOk (step sv ask s a).sv := by
  obtain ⟨k1, k2, k3, k4, k5, k6, k7⟩ := clok_step g.ci hc
  cases a with
  | client a =>
    cases a with
    | call c => exact ⟨k1 c, hv⟩
    | stop => exact ha.elim
    | setupDone ok accept =>
      cases ok <;> cases accept <;> first | exact ha.elim | exact ⟨k3, hv⟩
    | runCall => exact ⟨k4, hv⟩
    | runFlush => exact ⟨k5, hv⟩
    | flightRun k => exact ⟨k7 k, hv⟩
    | peekDone ok => cases ok <;> first | exact ha.elim | exact ⟨k2, hv⟩
    | flightDone k ok rt =>
      cases ok with
      | false => exact ha.elim
      | true =>
        simp only [step, stepClient]
        split
        · next hr =>
          split
          · exact ⟨hc, hv⟩
          · next h p hout =>
            refine ⟨k6 k _ (fun _ => ?_), hv⟩
            obtain ⟨m, hm, hx⟩ := g.dn.out_get hout
            obtain ⟨q, _, rfl⟩ := List.mem_map.1 (List.mem_of_getElem? hm)
            cases hx
            rw [responseMsg, messageType_mk]
            rfl
        · next hr => exact ⟨k6 k rt (fun h => absurd h hr), hv⟩
  | server a =>
    obtain ⟨ho, hp1, hp2⟩ := hv
    refine ⟨?_, ?_⟩
    · have : (step sv ask s (.server a)).cl = s.cl := by
        simp only [step, stepServer]
        split
        · rfl
        · rfl
        · rfl
        · split <;> rfl
      rw [this]; exact hc
    · simp only [step]
      cases a with
      | request r => exact ha.elim
      | wrongType => exact ha.elim
      | receiveError => exact ha.elim
      | runHandler r => exact ha.elim
      | stop => exact ha.elim
      | hsReceived ok =>
        cases ok with
        | false => exact ha.elim
        | true =>
          simp only [stepServer]
          split
          · exact ⟨ho, hp1, hp2⟩
          · simp only [Service.Server.V1.step]
            split
            · simp only [ho, Bool.and_self, if_true]; exact ⟨rfl, by simp, by simp⟩
            · exact ⟨ho, hp1, hp2⟩
      | hsSent ok =>
        cases ok with
        | false => exact ha.elim
        | true =>
          simp only [stepServer]
          split
          · exact ⟨ho, hp1, hp2⟩
          · simp only [Service.Server.V1.step]
            split
            · simp only [ho, Bool.and_self, if_true]; exact ⟨rfl, by simp, by simp⟩
            · exact ⟨ho, hp1, hp2⟩
      | sent ok =>
        cases ok with
        | false => exact ha.elim
        | true =>
          simp only [stepServer]
          split
          · exact ⟨ho, hp1, hp2⟩
          · simp only [Service.Server.V1.step]
            split
            · simp only [ho, Bool.and_self, if_true]; exact ⟨rfl, by simp, by simp⟩
            · exact ⟨ho, hp1, hp2⟩
  | take =>
    simp only [step, stepTake]
    split
    · exact ⟨hc, hv⟩
    · split
      · exact ⟨hc, hv⟩
      · next h p hout =>
        refine ⟨hc, ?_⟩
        obtain ⟨m, hm, hx⟩ := g.up.out_get hout
        obtain ⟨q, _, rfl⟩ := List.mem_map.1 (List.mem_of_getElem? hm)
        cases hx
        have ht : (Service.messageType (requestMsg (ask q)).header == 3) = true := by
          rw [requestMsg, messageType_mk]; rfl
        simp only [ht, if_true, Service.Server.V1.step]
        split
        · simp only [hv.isOpen, if_true]; exact ⟨rfl, by simp, by simp⟩
        · exact hv
  | handle ret out =>
    simp only [step, stepHandle]
    split
    · exact ⟨hc, hv⟩
    · split
      · next bs hp =>
        split
        · exact ⟨hc, hv⟩
        · exact ⟨hc, by simp only [Service.Server.V1.step, hp]; exact ⟨hv.isOpen, by simp, by simp⟩⟩
        · exact ⟨hc, by simp only [Service.Server.V1.step, hp]; exact ⟨hv.isOpen, by simp, by simp⟩⟩
      · next hp =>
        refine ⟨hc, ?_⟩
        simp only [Service.Server.V1.step]
        split
        · next r h => exact absurd h (hp r)
        · next h => exact absurd h hv.phase.2
        · exact hv
  | methods m => exact ⟨hc, hv⟩
  | netUp n => exact ⟨hc, hv⟩
  | netDown n => exact ⟨hc, hv⟩
  | svReceive => simp only [step]; split <;> exact ⟨hc, hv⟩
  | svRead n => exact ⟨hc, hv⟩
  | clReceive => simp only [step]; split <;> exact ⟨hc, hv⟩
  | clRead n => exact ⟨hc, hv⟩

theorem ok_run {s : Sys} (g : Good sv ask s) (hq : ∀ c, (payload (ask c)).length < 2 ^ 32)
    (hc : ClOk s.cl) (hv : SvOk s.sv) (l : List Step) (hl : ∀ a ∈ l, FaultFree a)
    (hs : Small (run sv ask s l)) : ClOk (run sv ask s l).cl ∧ SvOk (run sv ask s l).sv := by
  induction l generalizing s with
  | nil => exact ⟨hc, hv⟩
  | cons a l ih =>
    have hs0 : Small s := fun p hp => hs p ((calls_mono_run s (a :: l)).subset hp)
    obtain ⟨h1, h2⟩ := ok_step g hc hv a (hl a (by simp))
    exact ih (good_step g hq hs0 a) h1 h2 (fun b hb => hl b (by simp [hb])) hs

/-- **C107 (nothing fails by itself).**  If no operation fails and nobody stops a session, no session
fails and no call is answered with an error. -/
theorem C107_no_failure (n : Nat) (l : List Step) (hq : ∀ c, (payload (ask c)).length < 2 ^ 32)
    (hl : ∀ a ∈ l, FaultFree a) (s : Sys) (hrun : s = run sv ask (init n) l) (hs : Small s) :
    s.cl.net ≠ .failed ∧ s.sv.phase ≠ .failed ∧ ∀ c, (c, Service.Client.Answer.error) ∉ s.cl.answers := by
  have h := ok_run (good_init n) hq (sv := sv) (ask := ask) ⟨by simp [init, Service.Client.init], by
    simp [init, Service.Client.init], by simp [init, Service.Client.init]⟩ ⟨rfl, by simp [init], by simp [init]⟩
    l hl (hrun ▸ hs)
  rw [← hrun] at h
  have he : ErrInv s.cl := by rw [hrun]; exact err_run n l
  exact ⟨h.1.net, h.2.phase.1, he h.1.net⟩

/-- **C107 (every call is answered without faults).**  If no operation fails and nobody stops a
session, then as soon as nothing is left to do — and the server has not been terminated by a request
for a method without a function — every accepted call has been answered by the server, exactly
once. -/
theorem C107_fault_free_all_answered (n : Nat) (l : List Step)
    (hq : ∀ c, (payload (ask c)).length < 2 ^ 32) (hl : ∀ a ∈ l, FaultFree a) (s : Sys)
    (hrun : s = run sv ask (init n) l) (hs : Small s) (hr : AtRest sv ask s)
    (hcr : s.crashed = false) :
    (∀ c, (s.cl.answers.map Prod.fst).count c = s.cl.accepted.count c) ∧
    ∀ c a, (c, a) ∈ s.cl.answers → ∃ i, a = .ok i := by
  have h := ok_run (good_init n) hq (sv := sv) (ask := ask) ⟨by simp [init, Service.Client.init], by
    simp [init, Service.Client.init], by simp [init, Service.Client.init]⟩ ⟨rfl, by simp [init], by simp [init]⟩
    l hl (hrun ▸ hs)
  rw [← hrun] at h
  have g : Good sv ask s := by rw [hrun]; exact good_run (good_init n) hq l (hrun ▸ hs)
  have hset : s.cl.setup = none := by
    cases hs : s.cl.setup with
    | none => rfl
    | some x =>
      exfalso
      have h0 := congrArg (fun s => s.cl.setup) (hr (.client (.setupDone true true)) trivial)
      simp only [step, stepClient, clientTo, Service.Client.step, Service.Client.stepSetup, hs] at h0
      cases x with
      | resolving i => simp at h0
      | connecting i => simp at h0
      | hsSending =>
        have ho := h.1.setupO (Or.inr (Or.inl hs))
        simp [ho] at h0
      | hsReceiving =>
        have ho := h.1.setupO (Or.inr (Or.inr hs))
        simp only [ho, Bool.and_self, if_true, Service.Client.sendNextOrPeek] at h0
        revert h0
        cases s.cl.queue <;> simp [Service.Client.startSend]
  have hn : s.cl.net = .connected := by
    rcases g.ci.setupN hset with h1 | h1
    · exact h1
    · exact absurd h1 h.1.net
  exact C107_all_answered n l hq s hrun hs hr hn (h.1.setupO (Or.inl hset)) h.2.isOpen h.2.phase.1 hcr

instance : DecidablePred Runtime := by
  intro a
  unfold Runtime
  split <;> infer_instance

instance : DecidablePred FaultFree := by
  intro a
  unfold FaultFree
  split <;> infer_instance

example : (∀ a ∈ setup0 ++ call0 ++ call0 ++ [Step.svReceive], FaultFree a) := by decide +kernel

end Ecal.E2E.Call
