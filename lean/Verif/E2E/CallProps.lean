import Verif.E2E.CallLemmas
import Verif.Wire.MessageProps

/-!
# C107: a service call from the caller to the method and back

In every run of a connection — any number of calls at any times, any segmentation of both byte
streams, any failures, any changes of the methods of the server, any behaviour of the methods — the
result a caller gets is the result of the execution of its own request, and no request is executed
twice.
-/

namespace Ecal.E2E.Call

variable {sv : Server} {ask : Nat → Ask}

/-- `int` to `int64_t` and back. -/
theorem ret_roundtrip (x : BitVec 32) : (x.signExtend 64).truncate 32 = x := by
  apply BitVec.eq_of_getLsbD_eq
  intro i hi
  simp [BitVec.getLsbD_setWidth, BitVec.getLsbD_signExtend, hi]
  intro h; omega

/-- What the handler of the server makes of a request of a client. -/
theorem serve_payload (a : Ask) (h : (payload a).length < 2 ^ 32) (m : AMap Bytes Method) (i : Nat)
    (ret : BitVec 32) (out : Bytes) :
    serve sv m i ret out (payload a) =
      match m.find a.method with
      | none => .reply { header := { hname := sv.host, sname := sv.name, sid := sv.id, mname := a.method,
                                     state := 2,
                                     error := lit "Service '" ++ sv.name ++ lit "' has no method named '" ++
                                       a.method ++ lit "'" } }
      | some me =>
        if me.callable then
          .executed ⟨i, a.method, me.reqType, me.respType, a.request, ret, out⟩
            { header := { hname := sv.host, sname := sv.name, sid := sv.id, mname := a.method, state := 1 },
              response := out, retState := ret.signExtend 64 }
        else .crash := by
  unfold serve
  have hd : Wire.deserializeRequest {} (payload a) =
      some { header := { mname := a.method }, request := a.request } :=
    Wire.C29_request_roundtrip _ h
  rw [hd]
  simp only
  cases m.find a.method <;> rfl

/-- The request with number `i` on the connection is that of the call whose write was begun as the
`i`-th one. -/
theorem received_get {s : Sys} (g : Good sv ask s) {i : Nat} {r : Bytes}
    (h : s.sv.received[i]? = some r) : ∃ c, s.wrote[i]? = some c ∧ r = payload (ask c) := by
  obtain ⟨hh, h1⟩ := g.rcv i r h
  obtain ⟨m, h2, h3⟩ := g.up.out_get h1
  rw [upMsgs, List.getElem?_map] at h2
  cases hc : s.wrote[i]? with
  | none => rw [hc] at h2; cases h2
  | some c =>
    rw [hc] at h2
    cases h2
    exact ⟨c, rfl, by cases h3; rfl⟩

theorem calls_received {s : Sys} (g : Good sv ask s) {i : Nat} {r a : Bytes}
    (h : s.sv.calls[i]? = some (r, a)) : s.sv.received[i]? = some r := by
  have hm : (s.sv.calls.map Prod.fst)[i]? = some r := by rw [List.getElem?_map, h]; rfl
  have hsi := g.si
  unfold Service.Server.V1.Inv at hsi
  have hlt := (List.getElem?_eq_some_iff.1 hm).1
  split at hsi
  · rw [hsi.2.1] at h; simp at h
  · rw [hsi.2.1] at h; simp at h
  · rw [← hsi.1]; exact hm
  · rw [← hsi.1]; exact hm
  · rw [← hsi.1, List.getElem?_append_left hlt]; exact hm
  · rw [← hsi.1]; exact hm
  · rw [← hsi.1]; exact hm

theorem sent_wrote {s : Sys} (g : Good sv ask s) {i c : Nat} (h : s.cl.sent[i]? = some c) :
    s.wrote[i]? = some c := by
  obtain ⟨t, ht⟩ := g.w.pre
  rw [← ht, List.getElem?_append_left (List.getElem?_eq_some_iff.1 h).1]
  exact h

/-- **C107 (the answer belongs to the call).**  Whenever a call is answered by the server, its
result structure — whatever it held before — tells the truth: either exactly this call's method was
executed with exactly this call's request, and the return value and response handed to the caller are
those of that execution; or the call is reported as failed, because the server had no such method,
and was not executed. -/
theorem C107_answer_is_true (n : Nat) (l : List Step) (hq : ∀ c, (payload (ask c)).length < 2 ^ 32)
    (s : Sys) (hrun : s = run sv ask (init n) l) (hs : Small s) (c i : Nat)
    (h : (c, Service.Client.Answer.ok i) ∈ s.cl.answers) (e : SResp) (msg : Bytes) :
    (∃ x ∈ s.execs, x.idx = i ∧ x.method = (ask c).method ∧ x.request = (ask c).request ∧
      outcome s e msg (.ok i) =
        { host := sv.host, service := sv.name, id := sv.id, method := (ask c).method, error := [],
          ret := x.ret, state := .executed, data := x.response }) ∨
    ((∀ x ∈ s.execs, x.idx ≠ i) ∧ ∃ err,
      outcome s e msg (.ok i) =
        { host := sv.host, service := sv.name, id := sv.id, method := (ask c).method, error := err,
          ret := 0, state := .failed, data := [] }) := by
  have g : Good sv ask s := by rw [hrun]; exact good_run (good_init n) hq l (hrun ▸ hs)
  have hsent := g.ci.okA c i h
  have hwr := sent_wrote g hsent
  have hin : i < s.cl.nread := by
    refine g.ci.bound i (List.mem_append_left _ ?_)
    generalize s.cl.answers = as at h
    induction as with
    | nil => cases h
    | cons p as ih =>
      obtain ⟨d, a⟩ := p
      rcases List.mem_cons.1 h with hh | hh
      · cases hh; simp [Service.Client.okIdx]
      · cases a <;> simp [Service.Client.okIdx, ih hh]
  have hlt : i < s.down.out.length := Nat.lt_of_lt_of_le hin g.nr
  obtain ⟨x, hx⟩ : ∃ x, s.down.out[i]? = some x := ⟨_, List.getElem?_eq_getElem hlt⟩
  obtain ⟨m, hm1, hm2⟩ := g.dn.out_get hx
  rw [downMsgs, List.getElem?_map] at hm1
  cases hcall : s.sv.calls[i]? with
  | none => rw [hcall] at hm1; cases hm1
  | some p =>
    obtain ⟨r, a⟩ := p
    rw [hcall] at hm1
    cases hm1
    have hbytes : bytesOf s i = a := by
      simp only [bytesOf, hx, hm2, Option.map_some, Option.getD_some]
      rfl
    have hsmall : a.length < 2 ^ 32 := hs (r, a) (List.mem_of_getElem? hcall)
    obtain ⟨c', hc', hr⟩ := received_get g (calls_received g hcall)
    have hcc : c' = c := by rw [hwr] at hc'; exact (Option.some.inj hc').symm
    subst hcc
    subst hr
    have hd := g.hd i _ _ hcall
    simp only [outcome, hbytes, fromSerialized]
    rcases hd with ⟨me, ret, out, resp, h1, h2, h3⟩ | ⟨me, ret, out, ex, resp, h1, h2, h3⟩
    · right
      refine ⟨h3, ?_⟩
      rw [serve_payload _ (hq _)] at h1
      cases hf : me.find (ask c').method with
      | none =>
        rw [hf] at h1
        cases h1
        rw [h2, Wire.C29_response_roundtrip _ (by rw [← h2]; exact hsmall)]
        exact ⟨_, rfl⟩
      | some mm =>
        rw [hf] at h1
        simp only at h1
        split at h1 <;> cases h1
    · left
      rw [serve_payload _ (hq _)] at h1
      cases hf : me.find (ask c').method with
      | none => rw [hf] at h1; cases h1
      | some mm =>
        rw [hf] at h1
        simp only at h1
        split at h1
        · cases h1
          rw [h2, Wire.C29_response_roundtrip _ (by rw [← h2]; exact hsmall)]
          refine ⟨_, h3, rfl, rfl, rfl, ?_⟩
          simp only [fromStruct, ret_roundtrip]
          rfl
        · cases h1

/-- **C107 (no execution without a call).**  Every execution on the connection is that of a request
whose writing the client has begun, with its method name and its request bytes. -/
theorem C107_execution_has_call (n : Nat) (l : List Step)
    (hq : ∀ c, (payload (ask c)).length < 2 ^ 32) (s : Sys) (hrun : s = run sv ask (init n) l)
    (hs : Small s) (x : Exec) (hx : x ∈ s.execs) :
    ∃ c, s.wrote[x.idx]? = some c ∧ x.method = (ask c).method ∧ x.request = (ask c).request := by
  have g : Good sv ask s := by rw [hrun]; exact good_run (good_init n) hq l (hrun ▸ hs)
  obtain ⟨r, m, ret, out, resp, h1, h2⟩ := g.ex3 x hx
  obtain ⟨c, hc, hr⟩ := received_get g (calls_received g h1)
  subst hr
  refine ⟨c, hc, ?_⟩
  rw [serve_payload _ (hq _)] at h2
  split at h2
  · cases h2
  · split at h2
    · have h3 := (Served.executed.inj h2).1
      exact ⟨(congrArg Exec.method h3).symm, (congrArg Exec.request h3).symm⟩
    · cases h2

/-- Calls are accepted once and for all. -/
theorem accepted_step (st : Service.Client.State) (a : Service.Client.Step) :
    st.accepted <+: (Service.Client.step st a).accepted := by
  have hloss : ∀ s : Service.Client.State, (Service.Client.loss s).accepted = s.accepted := by
    intro s; unfold Service.Client.loss; simp only; split <;> rfl
  have hnext : ∀ s : Service.Client.State, (Service.Client.sendNextOrPeek s).accepted = s.accepted := by
    intro s; unfold Service.Client.sendNextOrPeek; cases s.queue <;> rfl
  have hhost : ∀ (s : Service.Client.State) i, (Service.Client.nextHost s i).accepted = s.accepted := by
    intro s i; unfold Service.Client.nextHost; split
    · rfl
    · exact hloss _
  have hsame : ∀ b : Service.Client.State, b.accepted = st.accepted → st.accepted <+: b.accepted :=
    fun b h => h ▸ List.prefix_refl _
  cases a with
  | call c =>
    simp only [Service.Client.step, Service.Client.stepCall]; split
    · exact List.prefix_refl _
    · exact List.prefix_append _ _
  | stop => exact List.prefix_refl _
  | setupDone ok accept =>
    apply hsame
    simp only [Service.Client.step, Service.Client.stepSetup]
    cases st.setup with
    | none => rfl
    | some x =>
      cases x <;> simp only <;> split <;>
        first
          | rfl
          | exact hhost _ _
          | exact hnext _
          | exact hloss _
  | runCall =>
    apply hsame
    simp only [Service.Client.step, Service.Client.stepRunCall]
    cases st.posted with
    | nil => rfl
    | cons c rest => simp only; split; · rfl
                     split <;> rfl
  | runFlush =>
    apply hsame
    simp only [Service.Client.step, Service.Client.stepRunFlush]
    cases st.flushes with
    | zero => rfl
    | succ n => cases st.queue <;> rfl
  | flightDone k ok rt =>
    apply hsame
    simp only [Service.Client.step, Service.Client.stepFlightDone]
    split <;> (try split) <;> (try split) <;> rfl
  | flightRun k =>
    apply hsame
    simp only [Service.Client.step, Service.Client.stepFlightRun]
    split
    · exact hloss _
    · exact hloss _
    · exact hnext _
    · rfl
  | peekDone ok =>
    apply hsame
    simp only [Service.Client.step, Service.Client.stepPeek]
    cases st.peeks with
    | zero => rfl
    | succ n => simp only; split; · rfl
                exact hloss _

/-- Writes are begun in the order of the calls, without gaps. -/
theorem wrote_client {st : Service.Client.State} {w : List Nat} (hi : Service.Client.Inv st)
    (hf : Service.Client.FlushInv st) (hw : WInv st w) (hp : w <+: st.accepted)
    (a : Service.Client.Step) :
    w ++ begun st (Service.Client.step st a) <+: (Service.Client.step st a).accepted := by
  have hw' := winv_step hi a hw
  have hi' := Service.Client.inv_step hi hf a
  have hacc := accepted_step st a
  revert hw' hi' hacc
  generalize Service.Client.step st a = b
  intro hw' hi' hacc
  by_cases hb : begun st b = []
  · rw [hb, List.append_nil]; exact hp.trans hacc
  · have ho : b.isOpen = true ∧ ∃ c, sending b.flight = some c := by
      unfold begun at hb
      split at hb
      · next h =>
        refine ⟨h.1, ?_⟩
        cases hs : sending b.flight with
        | none => rw [hs] at hb; exact absurd rfl hb
        | some c => exact ⟨c, rfl⟩
      · exact absurd rfl hb
    obtain ⟨ho, c, hc⟩ := ho
    have hfl : b.flight = [(c, .sending)] := by
      have hone := hi'.one
      match hfl : b.flight with
      | [] => rw [hfl] at hc; cases hc
      | [(d, .sending)] => rw [hfl] at hc; cases hc; rfl
      | [(d, .receiving)] => rw [hfl] at hc; cases hc
      | [(d, .doneOk i)] => rw [hfl] at hc; cases hc
      | [(d, .doneError)] => rw [hfl] at hc; cases hc
      | [(d, .doneBad)] => rw [hfl] at hc; cases hc
      | _ :: _ :: _ => rw [hfl] at hone; simp at hone
    have hsh := hw'.shape
    unfold WShape at hsh
    rw [hfl] at hsh
    rw [hsh ho]
    have hnf : b.net ≠ .failed := by
      intro hf; rw [hi'.failedO hf] at ho; cases ho
    obtain ⟨started, h1, _, h3, _⟩ := hi'.fifo hnf
    have hal := h3 ho
    rw [hfl] at hal
    rw [h1, hal.2]
    simp only [List.append_assoc]
    rw [← List.append_assoc b.sent [c]]
    exact List.prefix_append _ _

theorem wrote_step {s : Sys} (g : Good sv ask s) (hp : s.wrote <+: s.cl.accepted) (a : Step) :
    (step sv ask s a).wrote <+: (step sv ask s a).cl.accepted := by
  cases a with
  | client a =>
    simp only [step, stepClient]
    split
    · split
      · split
        · exact hp
        · exact wrote_client g.ci g.cf g.w hp _
      · exact wrote_client g.ci g.cf g.w hp _
    · exact wrote_client g.ci g.cf g.w hp _
  | server a =>
    simp only [step, stepServer]
    split
    · exact hp
    · exact hp
    · exact hp
    · split <;> exact hp
  | take =>
    simp only [step, stepTake]
    split
    · exact hp
    · split <;> exact hp
  | handle ret out =>
    simp only [step, stepHandle]
    split
    · exact hp
    · split
      · split <;> exact hp
      · exact hp
  | methods m => exact hp
  | netUp n => exact hp
  | netDown n => exact hp
  | svReceive => simp only [step]; split <;> exact hp
  | svRead n => exact hp
  | clReceive => simp only [step]; split <;> exact hp
  | clRead n => exact hp

theorem wrote_run {s : Sys} (g : Good sv ask s) (hq : ∀ c, (payload (ask c)).length < 2 ^ 32)
    (hp : s.wrote <+: s.cl.accepted) (l : List Step) (hs : Small (run sv ask s l)) :
    (run sv ask s l).wrote <+: (run sv ask s l).cl.accepted := by
  induction l generalizing s with
  | nil => exact hp
  | cons a l ih =>
    have hs0 : Small s := fun p hp => hs p ((calls_mono_run s (a :: l)).subset hp)
    exact ih (good_step g hq hs0 a) (wrote_step g hp a) hs

/-- **C107 (at most once, in the order of the calls).**  The executions on the connection belong to
different requests, in the order in which the calls were accepted: the calls executed form a
subsequence of the calls accepted.  A call that was accepted once is executed at most once. -/
theorem C107_at_most_once (n : Nat) (l : List Step) (hq : ∀ c, (payload (ask c)).length < 2 ^ 32)
    (s : Sys) (hrun : s = run sv ask (init n) l) (hs : Small s) :
    (s.execs.map (·.idx)).Pairwise (· < ·) ∧
    ∀ x ∈ s.execs, ∃ c, s.cl.accepted[x.idx]? = some c ∧ x.method = (ask c).method ∧
      x.request = (ask c).request := by
  have g : Good sv ask s := by rw [hrun]; exact good_run (good_init n) hq l (hrun ▸ hs)
  refine ⟨g.ex1, ?_⟩
  intro x hx
  obtain ⟨c, h1, h2⟩ := C107_execution_has_call n l hq s hrun hs x hx
  refine ⟨c, ?_, h2⟩
  have hp : s.wrote <+: s.cl.accepted := by
    rw [hrun]
    exact wrote_run (good_init n) hq (by simp [init]) l (hrun ▸ hs)
  obtain ⟨t, ht⟩ := hp
  rw [← ht, List.getElem?_append_left (List.getElem?_eq_some_iff.1 h1).1]
  exact h1

/-- **C107 (a reported failure of the connection).**  A call that is answered with an error of the
connection is reported as failed with return value 0. -/
theorem C107_error_is_failed (s : Sys) (e : SResp) (msg : Bytes) :
    (outcome s e msg .error).state = .failed ∧ (outcome s e msg .error).ret = 0 ∧
      (outcome s e msg .error).error = msg := ⟨rfl, rfl, rfl⟩

end Ecal.E2E.Call
