import Verif.E2E.SvcCallLemmas

/-!
# C122: from finding a server to the result of a call

In every history of any number of processes, servers and clients: what a caller is told was done by a server of its
service, with its request, unless another server got the address of a server that is gone.
-/

namespace Ecal.E2E.SvcCall

open Ecal.Service
open Ecal.Wire (RService)
open Ecal.E2E.Disc (Fits)
open Ecal.E2E.Svc (HadServer ConnectsTo Complete Hears serverKey PlainNames DistinctIds Mono ServerDatagram QuietUntil)

variable {P : Nat → Svc.Proc} {ask : Nat → Call.Ask} {peer : Nat → String → Peer}

theorem used_of_answer {h : List In} {q : Nat} {k : String} (hs : Setting P ask peer h q k) {c i : Nat}
    (ha : (c, Client.Answer.ok i) ∈ ((run P ask peer (init P) h).conn q k).cl.answers) :
    Used ((run P ask peer (init P) h).conn q k) ∧
      ((run P ask peer (init P) h).conn q k).cl.accepted[i]? = some c := by
  have hr := run_conn (P := P) (ask := ask) (peer := peer) q k h (init P)
  have g : Call.Good (server P (peer q k)) ask ((run P ask peer (init P) h).conn q k) := by
    rw [hr]; exact Call.good_run (Call.good_init 2) hs.small _ (hr ▸ hs.resp)
  have hw := Call.sent_wrote g (g.ci.okA c i ha)
  refine ⟨.inr (by intro e; rw [e] at hw; simp at hw), ?_⟩
  have hp : ((run P ask peer (init P) h).conn q k).wrote <+: ((run P ask peer (init P) h).conn q k).cl.accepted := by
    rw [hr]
    exact Call.wrote_run (Call.good_init 2) hs.small (by simp [Call.init]) _ (hr ▸ hs.resp)
  obtain ⟨t, ht⟩ := hp
  rw [← ht, List.getElem?_append_left (List.getElem?_eq_some_iff.1 hw).1]
  exact hw

/-- **C122 (an answer names its server and belongs to a call).**  Whatever happened: an answer of a session belongs to
a call of this client; it comes from a server that existed, and the result names the host, the service and the id of
that server; it reports the execution of exactly this call's method with exactly this call's request there, or that
there is no such method. -/
theorem C122_answer_names_server (h : List In) (q : Nat) (k : String) (hs : Setting P ask peer h q k) (s : Call.Sys)
    (hrun : s = (run P ask peer (init P) h).conn q k) (c i : Nat) (ha : (c, Client.Answer.ok i) ∈ s.cl.answers)
    (e : Call.SResp) (msg : Call.Bytes) :
    c ∈ callsOf q h ∧
    ∃ B j name, peer q k = ⟨B, j, name⟩ ∧ HadServer P (svcHist P ask peer (init P) h) B j name ∧
      ((∃ x ∈ s.execs, x.idx = i ∧ x.method = (ask c).method ∧ x.request = (ask c).request ∧
        Call.outcome s e msg (.ok i) =
          { host := (P B).host, service := name, id := (P B).sid j, method := (ask c).method, error := [],
            ret := x.ret, state := .executed, data := x.response }) ∨
       ((∀ x ∈ s.execs, x.idx ≠ i) ∧ ∃ err,
        Call.outcome s e msg (.ok i) =
          { host := (P B).host, service := name, id := (P B).sid j, method := (ask c).method, error := err,
            ret := 0, state := .failed, data := [] })) := by
  subst hrun
  obtain ⟨hu, hacc⟩ := used_of_answer hs ha
  have hr := run_conn (P := P) (ask := ask) (peer := peer) q k h (init P)
  have ht := Call.C107_answer_is_true (sv := server P (peer q k)) 2 _ hs.small _ hr hs.resp c i ha e msg
  refine ⟨(accepted_calls h q k).subset (List.mem_of_getElem? hacc), _, _, _, rfl,
    (linked_servers hs (linked h q k hu)).1, ht⟩

/-- **C122 (an execution has a call).**  Every execution by a request of a session is that of a call of its client: with
its method name and its request bytes; later executions belong to later calls. -/
theorem C122_execution_has_call (h : List In) (q : Nat) (k : String) (hs : Setting P ask peer h q k) (s : Call.Sys)
    (hrun : s = (run P ask peer (init P) h).conn q k) :
    (s.execs.map (·.idx)).Pairwise (· < ·) ∧ s.cl.accepted.Sublist (callsOf q h) ∧
    ∀ x ∈ s.execs, ∃ c, s.cl.accepted[x.idx]? = some c ∧ x.method = (ask c).method ∧ x.request = (ask c).request := by
  subst hrun
  have hr := run_conn (P := P) (ask := ask) (peer := peer) q k h (init P)
  obtain ⟨h1, h2⟩ := Call.C107_at_most_once (sv := server P (peer q k)) 2 _ hs.small _ hr hs.resp
  exact ⟨h1, accepted_calls h q k, h2⟩

/-- **C122 (the answer comes from the service that was called).**  If no server of another service ever had the address
of a server, every answer and every execution is that of a server of the client's service.  Missing for the full
property: ports that are used again, see the violation below. -/
theorem C122_own_service_partial (h : List In) (q : Nat) (k : String) (hs : Setting P ask peer h q k)
    (hre : NoReuseByOthers P (svcHist P ask peer (init P) h)) :
    ((∃ c i, (c, Client.Answer.ok i) ∈ ((run P ask peer (init P) h).conn q k).cl.answers) ∨
      ((run P ask peer (init P) h).conn q k).execs ≠ []) →
    (peer q k).name = (P q).client ∧
      HadServer P (svcHist P ask peer (init P) h) (peer q k).proc (peer q k).num (P q).client := by
  intro hx
  have hu : Used ((run P ask peer (init P) h).conn q k) := by
    rcases hx with ⟨c, i, ha⟩ | hx
    · exact (used_of_answer hs ha).1
    · obtain ⟨x, hx⟩ := List.exists_mem_of_ne_nil _ hx
      have hr := run_conn (P := P) (ask := ask) (peer := peer) q k h (init P)
      obtain ⟨c, hw, _⟩ := Call.C107_execution_has_call (sv := server P (peer q k)) 2 _ hs.small _ hr hs.resp x hx
      exact .inr (by intro e; rw [e] at hw; simp at hw)
  obtain ⟨h1, B, j, h2, _, _, h3⟩ := linked_servers hs (linked h q k hu)
  have e := hre _ _ _ _ _ _ h2 h1 h3
  exact ⟨e.symm, e ▸ h1⟩

/-- With addresses that are not used again, a session is connected to the server it was opened for. -/
theorem own_server {h : List In} {q : Nat} {k : String} (hs : Setting P ask peer h q k)
    (hre : NoReuse P (svcHist P ask peer (init P) h)) (hu : Used ((run P ask peer (init P) h).conn q k)) :
    (peer q k).name = (P q).client ∧ k = serverKey (P (peer q k).proc) (peer q k).num (P q).client := by
  obtain ⟨h1, B, j, h2, _, hk, h3⟩ := linked_servers hs (linked h q k hu)
  obtain ⟨e1, e2, e3⟩ := hre _ _ _ _ _ _ h2 h1 h3
  exact ⟨e3.symm, by rw [← e1, ← e2]; exact hk⟩

/-- **C122 (a server executes a call at most once).**  If no two servers ever had the same address, two executions that
belong to the same call of a client, by the same server, are one: they are on the same session with the same number, if
the call was made once.  Missing for the full property: ports that are used again. -/
theorem C122_at_most_once_per_server_partial (h : List In) (q : Nat) (k k' : String) (hs : Setting P ask peer h q k)
    (hs' : Setting P ask peer h q k') (hre : NoReuse P (svcHist P ask peer (init P) h)) (s s' : Call.Sys)
    (hrun : s = (run P ask peer (init P) h).conn q k) (hrun' : s' = (run P ask peer (init P) h).conn q k')
    (hp : peer q k = peer q k') (c : Nat) (hc : (callsOf q h).count c = 1)
    (x x' : Call.Exec) (hx : x ∈ s.execs) (hx' : x' ∈ s'.execs) (ha : s.cl.accepted[x.idx]? = some c)
    (ha' : s'.cl.accepted[x'.idx]? = some c) : k = k' ∧ x = x' := by
  subst hrun hrun'
  have used : ∀ k, Setting P ask peer h q k → ∀ x ∈ ((run P ask peer (init P) h).conn q k).execs,
      Used ((run P ask peer (init P) h).conn q k) := by
    intro k hs x hx
    have hr := run_conn (P := P) (ask := ask) (peer := peer) q k h (init P)
    obtain ⟨c, hw, _⟩ := Call.C107_execution_has_call (sv := server P (peer q k)) 2 _ hs.small _ hr hs.resp x hx
    exact .inr (by intro e; rw [e] at hw; simp at hw)
  have hk : k = k' := by
    rw [(own_server hs hre (used k hs x hx)).2, (own_server hs' hre (used k' hs' x' hx')).2, hp]
  subst hk
  refine ⟨rfl, ?_⟩
  have hcnt : ((run P ask peer (init P) h).conn q k).cl.accepted.count c ≤ 1 := by
    rw [← hc]; exact (accepted_calls h q k).count_le c
  have hidx : x.idx = x'.idx := by
    generalize ((run P ask peer (init P) h).conn q k).cl.accepted = l at ha ha' hcnt
    have aux : ∀ (i j : Nat), i < j → l[i]? = some c → l[j]? = some c → False := by
      intro i j hij hi hj
      have hl : l = l.take j ++ l.drop j := (List.take_append_drop j l).symm
      have h1 : c ∈ l.take j := List.mem_of_getElem? (by rw [List.getElem?_take, if_pos hij]; exact hi)
      have h2 : c ∈ l.drop j := List.mem_of_getElem? (i := 0) (by rw [List.getElem?_drop]; exact hj)
      rw [hl, List.count_append] at hcnt
      have := List.count_pos_iff.2 h1
      have := List.count_pos_iff.2 h2
      omega
    rcases Nat.lt_trichotomy x.idx x'.idx with hlt | heq | hgt
    · exact (aux _ _ hlt ha ha').elim
    · exact heq
    · exact (aux _ _ hgt ha' ha).elim
  have hpw := (C122_execution_has_call h q k hs _ rfl).1
  generalize ((run P ask peer (init P) h).conn q k).execs = l at hx hx' hpw
  induction l with
  | nil => cases hx
  | cons y l ih =>
    simp only [List.map_cons, List.pairwise_cons, List.mem_map, forall_exists_index, and_imp,
      forall_apply_eq_imp_iff₂] at hpw
    rcases List.mem_cons.1 hx with e | h1 <;> rcases List.mem_cons.1 hx' with e' | h2
    · rw [e, e']
    · have := hpw.1 _ h2; rw [← e] at this; omega
    · have := hpw.1 _ h1; rw [← e'] at this; omega
    · exact ih h1 h2 hpw.2

/-! ## Every found server answers -/

theorem stopped_client (st : Client.State) (a : Client.Step) (ha : a ≠ .stop) :
    (Client.step st a).stopped = st.stopped := by
  have hloss : ∀ s : Client.State, (Client.loss s).stopped = s.stopped := by
    intro s; unfold Client.loss; simp only; split <;> rfl
  have hnext : ∀ s : Client.State, (Client.sendNextOrPeek s).stopped = s.stopped := by
    intro s; unfold Client.sendNextOrPeek; cases s.queue <;> rfl
  have hhost : ∀ (s : Client.State) i, (Client.nextHost s i).stopped = s.stopped := by
    intro s i; unfold Client.nextHost; split
    · rfl
    · exact hloss _
  cases a with
  | call c => simp only [Client.step, Client.stepCall]; split <;> rfl
  | stop => exact absurd rfl ha
  | setupDone ok accept =>
    simp only [Client.step, Client.stepSetup]
    cases st.setup with
    | none => rfl
    | some x =>
      cases x <;> simp only <;> split <;> first | rfl | exact hhost _ _ | exact hnext _ | exact hloss _
  | runCall =>
    simp only [Client.step, Client.stepRunCall]
    cases st.posted with
    | nil => rfl
    | cons c rest => simp only; split; · rfl
                     split <;> rfl
  | runFlush =>
    simp only [Client.step, Client.stepRunFlush]
    cases st.flushes with
    | zero => rfl
    | succ n => cases st.queue <;> rfl
  | flightDone j ok rt =>
    simp only [Client.step, Client.stepFlightDone]
    split <;> (try split) <;> (try split) <;> rfl
  | flightRun j =>
    simp only [Client.step, Client.stepFlightRun]
    split
    · exact hloss _
    · exact hloss _
    · exact hnext _
    · rfl
  | peekDone ok =>
    simp only [Client.step, Client.stepPeek]
    cases st.peeks with
    | zero => rfl
    | succ n => simp only; split; · rfl
                exact hloss _

theorem stopped_run (sv : Call.Server) (l : List Call.Step) (s : Call.Sys) (hl : ∀ a ∈ l, Call.FaultFree a)
    (hs : s.cl.stopped = false) : (Call.run sv ask s l).cl.stopped = false := by
  induction l generalizing s with
  | nil => exact hs
  | cons a l ih =>
    refine ih _ (fun b hb => hl b (by simp [hb])) ?_
    have ha := hl a (by simp)
    cases a with
    | client a =>
      have hne : a ≠ .stop := by rintro rfl; exact ha
      simp only [Call.step, Call.stepClient]
      split
      · split
        · split
          · exact hs
          · simp only [Call.clientTo]; rw [stopped_client _ _ (by simp)]; exact hs
        · simp only [Call.clientTo]; rw [stopped_client _ _ (by simp)]; exact hs
      · simp only [Call.clientTo]; rw [stopped_client _ _ hne]; exact hs
    | server a => simp only [Call.step, Call.stepServer]; split <;> (try split) <;> exact hs
    | take => simp only [Call.step, Call.stepTake]; split <;> (try split) <;> exact hs
    | handle ret out =>
      simp only [Call.step, Call.stepHandle]; split <;> (try split) <;> (try split) <;> exact hs
    | methods m => exact hs
    | netUp n => exact hs
    | netDown n => exact hs
    | svReceive => simp only [Call.step]; split <;> exact hs
    | svRead n => exact hs
    | clReceive => simp only [Call.step]; split <;> exact hs
    | clRead n => exact hs

theorem accepted_mono (sv : Call.Server) (l : List Call.Step) (s : Call.Sys) {c : Nat} (h : c ∈ s.cl.accepted) :
    c ∈ (Call.run sv ask s l).cl.accepted := by
  induction l generalizing s with
  | nil => exact h
  | cons a l ih =>
    refine ih _ ?_
    rcases accepted_call (ask := ask) sv s a with e | ⟨c', _, e⟩
    · rw [e]; exact h
    · rw [e]; simp [h]

/-- **C122 (a call that is handed to a session is answered).**  If nothing fails on the connection of a session, a call
that is handed to it has been answered by the server, once nothing is left to do. -/
theorem C122_called_answered (h h3 : List In) (q c : Nat) (k : String)
    (hs : Setting P ask peer (h ++ .call q c :: h3) q k) (hk : k ∈ called ask (run P ask peer (init P) h) q c)
    (hff : ∀ a ∈ connHist P ask peer q k (init P) (h ++ .call q c :: h3), Call.FaultFree a) (s : Call.Sys)
    (hrun : s = (run P ask peer (init P) (h ++ .call q c :: h3)).conn q k)
    (hrest : Call.AtRest (server P (peer q k)) ask s) (hcr : s.crashed = false) :
    ∃ i, (c, Client.Answer.ok i) ∈ s.cl.answers := by
  have hr := run_conn (P := P) (ask := ask) (peer := peer) q k (h ++ .call q c :: h3) (init P)
  have hsmall : Call.Small s := hrun ▸ hs.resp
  obtain ⟨hcount, hok⟩ := Call.C107_fault_free_all_answered 2 _ hs.small hff s (hrun.trans hr) hsmall hrest hcr
  have hacc : c ∈ s.cl.accepted := by
    rw [hrun, run_append, run_conn]
    rw [connHist]
    simp only [connOps, hk, and_self, if_true]
    rw [crun_append]
    apply accepted_mono
    have hst : ((run P ask peer (init P) h).conn q k).cl.stopped = false := by
      rw [run_conn]
      refine stopped_run _ _ _ (fun a ha => hff a ?_) rfl
      rw [connHist_append]
      exact List.mem_append_left _ ha
    simp [Call.run, Call.step, Call.stepClient, Call.clientTo, Client.step, Client.stepCall, hst]
  have hpos : 0 < (s.cl.answers.map Prod.fst).count c := by
    rw [hcount]; exact List.count_pos_iff.2 hacc
  obtain ⟨⟨c', a⟩, hm, rfl⟩ := List.mem_map.1 (List.count_pos_iff.1 hpos)
  obtain ⟨i, rfl⟩ := hok _ _ hm
  exact ⟨i, hm⟩

/-- **C122 (from discovery to the result).**  A registration of a server arrives at a process that listens to it; no
registration of any server arrives more than 5000 ms later until a client of the service, which accepts the host, makes
a call.  If nothing fails on the connection and no two servers ever have the same address, then, once nothing is left to
do, the call has been answered by exactly this server: with the result of executing this request there, or — if the
server has no such method — with a failure.  Missing for the full property: the configured timeout instead of 5000 ms,
and ports that are used again. -/
theorem C122_discovery_to_result_partial (h h3 : List In) (q c B j kd : Nat) (now : Int) (a b : List Svc.In)
    (hsv : svcHist P ask peer (init P) h = a ++ .arrive q kd now :: b)
    (hd : ServerDatagram P (Svc.run P (Svc.init P) a) kd B j (P q).client) (hc : Complete (P B) j)
    (hh : Hears (P q) (P B)) (hid : DistinctIds P) (hm : str (ask c).method ≠ "")
    (hq : QuietUntil P q (a ++ [.arrive q kd now]) b (now + 5000))
    (hhost : ∀ x, Svc.In.setHost q x ∈ a ++ .arrive q kd now :: b → x = "" ∨ x = "*" ∨ x = str (P B).host)
    (hs : Setting P ask peer (h ++ .call q c :: h3) q (serverKey (P B) j (P q).client))
    (hre : NoReuse P (svcHist P ask peer (init P) (h ++ .call q c :: h3)))
    (hff : ∀ a ∈ connHist P ask peer q (serverKey (P B) j (P q).client) (init P) (h ++ .call q c :: h3), Call.FaultFree a)
    (s : Call.Sys) (hrun : s = (run P ask peer (init P) (h ++ .call q c :: h3)).conn q (serverKey (P B) j (P q).client))
    (hrest : Call.AtRest (server P (peer q (serverKey (P B) j (P q).client))) ask s) (hcr : s.crashed = false) :
    peer q (serverKey (P B) j (P q).client) = ⟨B, j, (P q).client⟩ ∧
    ∃ i, (c, Client.Answer.ok i) ∈ s.cl.answers ∧ ∀ e msg,
      ((∃ x ∈ s.execs, x.idx = i ∧ x.method = (ask c).method ∧ x.request = (ask c).request ∧
        Call.outcome s e msg (.ok i) =
          { host := (P B).host, service := (P q).client, id := (P B).sid j, method := (ask c).method, error := [],
            ret := x.ret, state := .executed, data := x.response }) ∨
       ((∀ x ∈ s.execs, x.idx ≠ i) ∧ ∃ err,
        Call.outcome s e msg (.ok i) =
          { host := (P B).host, service := (P q).client, id := (P B).sid j, method := (ask c).method, error := err,
            ret := 0, state := .failed, data := [] })) := by
  have hsvc := run_svc (P := P) (ask := ask) (peer := peer) h (init P)
  have hpre : svcHist P ask peer (init P) (h ++ .call q c :: h3) =
      (a ++ .arrive q kd now :: b) ++ svcHist P ask peer (run P ask peer (init P) h) (.call q c :: h3) := by
    rw [svcHist_append, hsv]
  have hf1 : ∀ m ∈ (Svc.run P (Svc.init P) (a ++ .arrive q kd now :: b)).net, Fits m := by
    have := hs.fits
    rw [run_svc, hpre] at this
    exact Svc.fits_prefix this
  have hm1 : Mono q (a ++ .arrive q kd now :: b) := by
    have := hs.mono
    rw [hpre] at this
    exact mono_prefix this
  obtain ⟨st, ts, st', h1, h2, x, hx, _⟩ := Svc.C109_announced_server_called_partial P q B j kd now a b hd hc hh hf1 hm1
    hs.plain hid hs.named hq hhost (str (ask c).method) (accepts (run P ask peer (init P) h) q)
  have hk : serverKey (P B) j (P q).client ∈ called ask (run P ask peer (init P) h) q c := by
    unfold called
    rw [hsvc, hsv]
    have h1' : ((Svc.run P (init P).svc (a ++ Svc.In.arrive q kd now :: b)).st q).client = some st := h1
    rw [h1']
    simp only
    have hname : st.name ≠ "" := by
      have hrun := Svc.run_client P q (a ++ .arrive q kd now :: b) (Svc.init P)
      have hi : ((Svc.init P).st q).client = some (Targets.start (str (P q).client) (P q).methods) := rfl
      rw [hi, Option.bind_some, h1] at hrun
      obtain ⟨s0, _, h0, _, hn⟩ := Targets.inv_hist (str (P q).client) (P q).methods _
        (Svc.ordered P q _ (Svc.init P) hm1)
      rw [h0] at hrun
      cases hrun
      rw [hn]
      intro e
      exact hs.named (Disc.str_ne_empty.1 e)
    rw [if_neg (fun e => e.elim hm hname), h2]
    exact List.mem_map.2 ⟨_, hx, rfl⟩
  obtain ⟨i, hi⟩ := C122_called_answered h h3 q c _ hs hk hff s hrun hrest hcr
  have hu := (used_of_answer hs (c := c) (i := i) (hrun ▸ hi)).1
  obtain ⟨e1, e2⟩ := own_server hs hre hu
  obtain ⟨e3, e4, _⟩ := Svc.key_server hs.plain hid e2
  have hp : peer q (serverKey (P B) j (P q).client) = ⟨B, j, (P q).client⟩ := by
    cases hpp : peer q (serverKey (P B) j (P q).client) with
    | mk p n m =>
      rw [hpp] at e1 e3 e4
      simp only at e1 e3 e4
      rw [e1, e3, e4]
  refine ⟨hp, i, hi, ?_⟩
  intro e msg
  obtain ⟨_, B', j', name', hp', _, hres⟩ := C122_answer_names_server _ _ _ hs s hrun c i hi e msg
  rw [hp] at hp'
  cases hp'
  exact hres

/-- **C122 (counting calls).**  A call adds, to the calls of its method that the client reports, the number of sessions
it was handed to that took it; it changes no connection besides these, and no other method's number. -/
theorem C122_calls_counted (h : List In) (q c : Nat) (ho : Mono q (svcHist P ask peer (init P) h))
    (hm : str (ask c).method ≠ "") (hn : (P q).client ≠ []) :
    ∃ s s', ((run P ask peer (init P) h).svc.st q).client = some s ∧
      ((run P ask peer (init P) (h ++ [.call q c])).svc.st q).client = some s' ∧
      (∀ x, Targets.reported s' x = Targets.reported s x + if x = str (ask c).method then
        ((called ask (run P ask peer (init P) h) q c).filter (fun k =>
          ((run P ask peer (init P) (h ++ [.call q c])).conn q k).cl.accepted ==
            ((run P ask peer (init P) h).conn q k).cl.accepted ++ [c])).length else 0) ∧
      (∀ q' k, (q' = q → k ∉ called ask (run P ask peer (init P) h) q c) →
        (run P ask peer (init P) (h ++ [.call q c])).conn q' k = (run P ask peer (init P) h).conn q' k) := by
  have hrun := Svc.run_client P q (svcHist P ask peer (init P) h) (Svc.init P)
  have hi : ((Svc.init P).st q).client = some (Targets.start (str (P q).client) (P q).methods) := rfl
  rw [hi, Option.bind_some] at hrun
  obtain ⟨s, last, h0, hinv, hnm⟩ := Targets.inv_hist (str (P q).client) (P q).methods _
    (Svc.ordered P q _ (Svc.init P) ho)
  rw [h0] at hrun
  have hw : ((run P ask peer (init P) h).svc.st q).client = some s := by rw [run_svc]; exact hrun
  have hname : s.name ≠ "" := by
    rw [hnm]; intro e; exact hn (Disc.str_ne_empty.1 e)
  obtain ⟨s', hc, _, _, _, hcnt⟩ :=
    Targets.call_some hinv (str (ask c).method) (accepts (run P ask peer (init P) h) q)
  have hcond : ¬ (str (ask c).method = "" ∨ s.name = "") := fun e => e.elim hm hname
  have hcalled : called ask (run P ask peer (init P) h) q c = (Targets.targets (Targets.check s)).map Prod.fst := by
    unfold called
    rw [hw]
    simp only
    rw [if_neg hcond, hc]
  refine ⟨s, s', hw, ?_, ?_, ?_⟩
  · rw [run_snoc]
    have hone := Svc.run_client P q [.call q (str (ask c).method) (accepts (run P ask peer (init P) h) q)]
      (run P ask peer (init P) h).svc
    rw [hw, Option.bind_some] at hone
    refine Eq.trans hone ?_
    simp [Svc.clientHist, Svc.clientOps, Targets.run, Targets.step, hm, hname, hc]
  · intro x
    refine Eq.trans (hcnt x) ?_
    rw [hcalled, List.filter_map, List.length_map]
    unfold Targets.reported
    by_cases hx : x = str (ask c).method
    · rw [if_pos hx, if_pos hx]
      congr 2
      apply List.filter_congr
      intro t ht
      have hk : t.1 ∈ called ask (run P ask peer (init P) h) q c := by rw [hcalled]; exact List.mem_map.2 ⟨t, ht, rfl⟩
      simp only [Function.comp]
      rw [run_snoc]
      simp only [step, connOps, hk, and_self, if_true, accepts]
      cases hst : ((run P ask peer (init P) h).conn q t.1).cl.stopped <;>
        simp [Call.run, Call.step, Call.stepClient, Call.clientTo, Client.step, Client.stepCall, hst]
    · rw [if_neg hx, if_neg hx]
  · intro q' k hk
    rw [run_snoc]
    simp only [step, connOps]
    rw [if_neg (fun e => by obtain ⟨rfl, e⟩ := e; exact hk rfl e)]
    rfl

/-! ## A concrete network -/

/-- Process 0 has a client of the service "x"; all processes are on the host "h", and the servers of processes 1 and 2
get the same port, one after the other. -/
def exP (p : Nat) : Svc.Proc := { Svc.exP p with host := [104], group := [104], port1 := fun _ => 5000 }

/-- The session that process 0 opens for the server of process 1. -/
def exK : String := "x:12@101@h"

/-- A server of process 1 is announced. -/
def announce : List In :=
  [.svc (.newServer 1 0 [120]), .svc (.collect 1 (fun _ => {})), .svc (.flush 1), .svc (.arrive 0 0 1000)]

/-- The client calls method "m"; its session connects and the call is answered. -/
def converse : List In :=
  .call 0 7 ::
  (([.methods [([109], { reqType := [], respType := [], callable := true })],
    .client (.setupDone true true), .client (.setupDone true true), .server (.hsReceived true),
    .client (.setupDone true true), .server (.hsSent true), .client (.setupDone true true), .client .runCall] ++
    Call.call0 ++ [.svReceive] : List Call.Step)).map (fun a => In.conn 0 exK a)

/-- The server of process 1 is gone; then a server of the service "y" is created in process 2, with the same port. -/
def replaced : List In := [.svc (.delServer 1 0 {}), .svc (.newServer 2 0 [121])]

def exEnd (p : Peer) (h : List In) : Call.Sys := (run exP Call.ask0 (fun _ _ => p) (init exP) h).conn 0 exK

example : (exEnd ⟨1, 0, [120]⟩ (announce ++ converse)).cl.answers = [(7, .ok 0)] ∧
    Call.outcome (exEnd ⟨1, 0, [120]⟩ (announce ++ converse)) {} [] (.ok 0) =
      ⟨[104], [120], [49, 50], [109], [], -3, .executed, [9, 9]⟩ := by
  decide +kernel

/-- A server was created. -/
theorem had_created {h : List Svc.In} {B j : Nat} {n : Bytes} (hh : HadServer P h B j n) :
    Svc.In.newServer B j n ∈ h := by
  obtain ⟨h1, h2, rfl, hm⟩ := hh
  refine List.mem_append_left _ ?_
  clear h2
  generalize hl : h1.length = l
  induction l generalizing h1 with
  | zero =>
    have : h1 = [] := List.length_eq_zero_iff.1 hl
    subst this
    cases hm
  | succ l ih =>
    obtain ⟨h, x, rfl⟩ : ∃ l x, h1 = l ++ [x] := by
      rcases List.eq_nil_or_concat h1 with e | ⟨l, x, e⟩
      · subst e; simp at hl
      · exact ⟨l, x, e.trans (by simp)⟩
    rw [Svc.run_snoc] at hm
    have ih := fun hm => List.mem_append_left [x] (ih h hm (by simpa using hl))
    simp only [Svc.step] at hm
    cases x with
    | newServer p j' n' =>
      simp only [Svc.servers'] at hm
      split at hm
      · rename_i hc
        rcases List.mem_append.1 hm with hm | hm
        · exact ih hm
        · simp only [List.mem_singleton, Prod.mk.injEq] at hm
          rw [hm.1, hm.2, hc.1]
          simp
      · exact ih hm
    | delServer p j' i =>
      simp only [Svc.servers'] at hm
      split at hm
      · exact ih (List.mem_filter.1 hm).1
      · exact ih hm
    | _ => exact ih hm

/-- The hypotheses of `C122_discovery_to_result_partial` hold in it. -/
theorem ex_setting : Setting exP Call.ask0 (fun _ _ => ⟨1, 0, [120]⟩) (announce ++ converse) 0 exK where
  fits := by
    intro m hm
    have e : (run exP Call.ask0 (fun _ _ => ⟨1, 0, [120]⟩) (init exP) (announce ++ converse)).svc.net =
        [Svc.regSample (exP 1) {} 0 [120]] := by decide +kernel
    rw [e] at hm
    have := List.mem_singleton.1 hm
    subst this
    exact ⟨by unfold Wire.IsMap; decide +kernel, by decide +kernel⟩
  mono := by unfold Mono; decide +kernel
  plain := ⟨Svc.ex_plain.1, fun B => by show '@' ∉ (str [104]).toList; decide +kernel⟩
  named := by decide
  small := by
    intro c
    by_cases h : c = 7
    · subst h; decide +kernel
    · simp only [Call.ask0, if_neg h]; decide +kernel
  resp := by unfold Call.Small; decide +kernel

theorem ex_no_reuse : NoReuse exP (svcHist exP Call.ask0 (fun _ _ => ⟨1, 0, [120]⟩) (init exP) (announce ++ converse)) := by
  intro A i n B j m hA hB _
  have h1 : ∀ A i n, HadServer exP (svcHist exP Call.ask0 (fun _ _ => ⟨1, 0, [120]⟩) (init exP) (announce ++ converse)) A i n →
      A = 1 ∧ i = 0 ∧ n = [120] := by
    intro A i n h
    have := had_created h
    simpa [svcHist, svcOps, isCall, announce, converse, Call.call0] using this
  obtain ⟨rfl, rfl, rfl⟩ := h1 _ _ _ hA
  obtain ⟨rfl, rfl, rfl⟩ := h1 _ _ _ hB
  exact ⟨rfl, rfl, rfl⟩

example : Svc.DistinctIds exP ∧ Complete (exP 1) 0 ∧ Hears (exP 0) (exP 1) ∧
    serverKey (exP 1) 0 (exP 0).client = exK ∧
    svcHist exP Call.ask0 (fun _ _ => ⟨1, 0, [120]⟩) (init exP) announce =
      [.newServer 1 0 [120], .collect 1 (fun _ => {}), .flush 1] ++ .arrive 0 0 1000 :: [] ∧
    ServerDatagram exP (Svc.run exP (Svc.init exP) [.newServer 1 0 [120], .collect 1 (fun _ => {}), .flush 1]) 0 1 0 [120] ∧
    Call.AtRest (server exP ⟨1, 0, [120]⟩) Call.ask0 (exEnd ⟨1, 0, [120]⟩ (announce ++ converse)) ∧
    (exEnd ⟨1, 0, [120]⟩ (announce ++ converse)).crashed = false := by
  refine ⟨fun _ _ _ _ h _ _ => Svc.ex_sid h, ⟨by decide, by decide⟩, Or.inl (by decide), by decide +kernel, rfl,
    ⟨{}, by decide +kernel⟩, ?_, by decide +kernel⟩
  refine Call.rest_of ?_ ?_ ?_ ?_ ?_ ?_ ?_ ?_ ?_ ?_ ?_ <;> decide +kernel

example : ∀ a ∈ connHist exP Call.ask0 (fun _ _ => ⟨1, 0, [120]⟩) 0 exK (init exP) (announce ++ converse),
    Call.FaultFree a := by
  have e : connHist exP Call.ask0 (fun _ _ => ⟨1, 0, [120]⟩) 0 exK (init exP) (announce ++ converse) =
      .client (.call 7) :: .methods [([109], { reqType := [], respType := [], callable := true })] ::
      .client (.setupDone true true) :: .client (.setupDone true true) :: .server (.hsReceived true) ::
      .client (.setupDone true true) :: .server (.hsSent true) :: .client (.setupDone true true) :: .client .runCall ::
      (Call.call0 ++ [Call.Step.svReceive]) := by decide +kernel
  rw [e]
  simp [Call.call0, Call.FaultFree, Call.Runtime]

/-- Violated: **a call is executed by a server of another service.**  The server of "x" is gone, a server of "y" listens
at its port.  The client of "x", which knows only the server that is gone, calls its method "m"; the server of "y"
executes its own method "m" with this request, and the caller is told that the call was executed. -/
theorem C122_violated_port_used_again :
    (exP 0).client = [120] ∧
    (exEnd ⟨2, 0, [121]⟩ (announce ++ replaced ++ converse)).execs = [⟨0, [109], [], [], [1, 2, 3], -3, [9, 9]⟩] ∧
    Call.outcome (exEnd ⟨2, 0, [121]⟩ (announce ++ replaced ++ converse)) {} [] (.ok 0) =
      ⟨[104], [121], [49, 49, 50], [109], [], -3, .executed, [9, 9]⟩ ∧
    (exEnd ⟨2, 0, [121]⟩ (announce ++ replaced ++ converse)).cl.answers = [(7, .ok 0)] := by
  refine ⟨rfl, ?_, ?_, ?_⟩ <;> decide +kernel

end Ecal.E2E.SvcCall
