import Verif.E2E.SvcCall
import Verif.E2E.SvcProps
import Verif.E2E.CallFaultFreeProps

/-! # From finding a server to the result of a call: specification and lemmas for C122 -/

namespace Ecal.E2E.SvcCall

open Ecal.Service
open Ecal.Wire (RegSample)
open Ecal.E2E.Disc (Fits)
open Ecal.E2E.Svc (HadServer ConnectsTo Complete serverKey PlainNames DistinctIds Mono)

variable {P : Nat → Svc.Proc} {ask : Nat → Call.Ask} {peer : Nat → String → Peer}

/-! ## The parts of a run -/

/-- The steps of a history in `Svc`. -/
def svcHist (P : Nat → Svc.Proc) (ask : Nat → Call.Ask) (peer : Nat → String → Peer) : World → List In → List Svc.In
  | _, [] => []
  | w, x :: h => svcOps ask w x ++ svcHist P ask peer (step P ask peer w x) h

/-- The steps of a history on the connection of the session `k` of `q`. -/
def connHist (P : Nat → Svc.Proc) (ask : Nat → Call.Ask) (peer : Nat → String → Peer) (q : Nat) (k : String) :
    World → List In → List Call.Step
  | _, [] => []
  | w, x :: h => connOps P ask peer w q k x ++ connHist P ask peer q k (step P ask peer w x) h

theorem run_snoc (w : World) (h : List In) (x : In) :
    run P ask peer w (h ++ [x]) = step P ask peer (run P ask peer w h) x := by simp [run]

theorem run_append (w : World) (a b : List In) :
    run P ask peer w (a ++ b) = run P ask peer (run P ask peer w a) b := by simp [run]

theorem svcHist_append (w : World) (a b : List In) :
    svcHist P ask peer w (a ++ b) = svcHist P ask peer w a ++ svcHist P ask peer (run P ask peer w a) b := by
  induction a generalizing w with
  | nil => rfl
  | cons x a ih => simp [svcHist, ih, run]

theorem connHist_append (q : Nat) (k : String) (w : World) (a b : List In) :
    connHist P ask peer q k w (a ++ b) =
      connHist P ask peer q k w a ++ connHist P ask peer q k (run P ask peer w a) b := by
  induction a generalizing w with
  | nil => rfl
  | cons x a ih => simp [connHist, ih, run]

theorem run_svc (h : List In) (w : World) :
    (run P ask peer w h).svc = Svc.run P w.svc (svcHist P ask peer w h) := by
  induction h generalizing w with
  | nil => rfl
  | cons x h ih =>
    rw [svcHist, Svc.run_append]
    exact ih (step P ask peer w x)

theorem crun_append (sv : Call.Server) (s : Call.Sys) (a b : List Call.Step) :
    Call.run sv ask s (a ++ b) = Call.run sv ask (Call.run sv ask s a) b := by simp [Call.run]

theorem run_conn (q : Nat) (k : String) (h : List In) (w : World) :
    (run P ask peer w h).conn q k =
      Call.run (server P (peer q k)) ask (w.conn q k) (connHist P ask peer q k w h) := by
  induction h generalizing w with
  | nil => rfl
  | cons x h ih =>
    rw [connHist, crun_append]
    exact ih (step P ask peer w x)

/-! ## Specification -/

/-- Sessions that look for one server find the port and a host name of the other. -/
def SameAddress (A : Svc.Proc) (i : Nat) (B : Svc.Proc) (j : Nat) : Prop :=
  A.port1 i = B.port1 j ∧
  (A.host = B.host ∨ str A.host = str B.host ++ ".local" ∨ str B.host = str A.host ++ ".local")

/-- No two servers of different services ever had the same address. -/
def NoReuseByOthers (P : Nat → Svc.Proc) (h : List Svc.In) : Prop :=
  ∀ A i n B j m, HadServer P h A i n → HadServer P h B j m → SameAddress (P A) i (P B) j → n = m

/-- No two servers ever had the same address. -/
def NoReuse (P : Nat → Svc.Proc) (h : List Svc.In) : Prop :=
  ∀ A i n B j m, HadServer P h A i n → HadServer P h B j m → SameAddress (P A) i (P B) j → A = B ∧ i = j ∧ n = m

/-- What is assumed of a history: registrations fit into datagrams, clocks do not go back, names are plain, the client
has a service name, and requests and responses are below 4 GiB. -/
structure Setting (P : Nat → Svc.Proc) (ask : Nat → Call.Ask) (peer : Nat → String → Peer) (h : List In) (q : Nat)
    (k : String) : Prop where
  fits  : ∀ m ∈ (run P ask peer (init P) h).svc.net, Fits m
  mono  : Mono q (svcHist P ask peer (init P) h)
  plain : PlainNames P
  named : (P q).client ≠ []
  small : ∀ c, (Call.payload (ask c)).length < 2 ^ 32
  resp  : Call.Small ((run P ask peer (init P) h).conn q k)

/-! ## Connecting -/

/-- The session was connected to its server: at that time the server listened at the address of the session. -/
def Linked (P : Nat → Svc.Proc) (ask : Nat → Call.Ask) (peer : Nat → String → Peer) (h : List In) (q : Nat)
    (k : String) : Prop :=
  ∃ h1 h2 x i, h = h1 ++ h2 ∧ session (run P ask peer (init P) h1) q k = some x ∧
    listens P (run P ask peer (init P) h1) (peer q k) x i = true

theorem Linked.more {h : List In} {q : Nat} {k : String} (hl : Linked P ask peer h q k) (x : List In) :
    Linked P ask peer (h ++ x) q k := by
  obtain ⟨h1, h2, y, i, rfl, a, b⟩ := hl
  exact ⟨h1, h2 ++ x, y, i, by simp, a, b⟩

theorem loss_open (st : Client.State) : (Client.loss st).isOpen = false := by
  unfold Client.loss; simp only; split <;> rfl

theorem nextHost_open (st : Client.State) (i : Nat) (h : (Client.nextHost st i).isOpen = true) : st.isOpen = true := by
  unfold Client.nextHost at h
  split at h
  · exact h
  · rw [loss_open] at h; cases h

theorem sendNext_open (st : Client.State) : (Client.sendNextOrPeek st).isOpen = st.isOpen := by
  unfold Client.sendNextOrPeek; cases st.queue <;> rfl

/-- A socket is opened only by connecting. -/
theorem client_open (st : Client.State) (a : Client.Step) (h : (Client.step st a).isOpen = true) :
    st.isOpen = true ∨ ∃ acc i, a = .setupDone true acc ∧ st.setup = some (.connecting i) := by
  cases a with
  | call c =>
    left; simp only [Client.step, Client.stepCall] at h; split at h <;> exact h
  | stop => simp [Client.step, Client.stepStop] at h
  | setupDone ok acc =>
    simp only [Client.step, Client.stepSetup] at h
    cases hs : st.setup with
    | none => rw [hs] at h; exact .inl h
    | some x =>
      rw [hs] at h
      cases x with
      | resolving i =>
        left; simp only at h; split at h
        · exact h
        · exact nextHost_open _ _ h
      | connecting i =>
        cases ok with
        | true => exact .inr ⟨acc, i, rfl, rfl⟩
        | false => left; simp only [Bool.false_eq_true, if_false] at h; exact nextHost_open _ _ h
      | hsSending =>
        left; simp only at h; split at h
        · exact h
        · rw [loss_open] at h; cases h
      | hsReceiving =>
        left; simp only at h; split at h
        · rw [sendNext_open] at h; exact h
        · rw [loss_open] at h; cases h
  | runCall =>
    left
    simp only [Client.step, Client.stepRunCall] at h
    cases hp : st.posted with
    | nil => rw [hp] at h; exact h
    | cons c r =>
      rw [hp] at h; simp only at h
      split at h
      · exact h
      · split at h <;> exact h
  | runFlush =>
    left
    simp only [Client.step, Client.stepRunFlush] at h
    cases hp : st.flushes with
    | zero => rw [hp] at h; exact h
    | succ n => rw [hp] at h; cases hq : st.queue <;> rw [hq] at h <;> exact h
  | flightDone j ok rt =>
    left
    simp only [Client.step, Client.stepFlightDone] at h
    split at h
    · split at h <;> exact h
    · split at h
      · split at h <;> exact h
      · exact h
    · exact h
  | flightRun j =>
    left
    simp only [Client.step, Client.stepFlightRun] at h
    split at h
    · rw [loss_open] at h; cases h
    · rw [loss_open] at h; cases h
    · rw [sendNext_open] at h; exact h
    · exact h
  | peekDone ok =>
    left
    simp only [Client.step, Client.stepPeek] at h
    cases hp : st.peeks with
    | zero => rw [hp] at h; exact h
    | succ n =>
      rw [hp] at h; simp only at h
      split at h
      · exact h
      · rw [loss_open] at h; cases h

/-- The connection was used, or its socket is open. -/
def Used (s : Call.Sys) : Prop := s.cl.isOpen = true ∨ s.wrote ≠ []

theorem clientTo_used {s : Call.Sys} {b : Client.State} (h : Used (Call.clientTo s b)) : Used s ∨ b.isOpen = true := by
  rcases h with h | h
  · exact .inr h
  · simp only [Call.clientTo] at h
    by_cases hw : s.wrote = []
    · right
      rw [hw, List.nil_append] at h
      unfold Call.begun at h
      split at h
      · rename_i hh; exact hh.1
      · exact absurd rfl h
    · exact .inl (.inr hw)

/-- A connection comes into use only by connecting. -/
theorem conn_used (sv : Call.Server) (s : Call.Sys) (a : Call.Step) (h : Used (Call.step sv ask s a)) :
    Used s ∨ ∃ acc i, a = .client (.setupDone true acc) ∧ s.cl.setup = some (.connecting i) := by
  cases a with
  | client a =>
    have key : ∀ b, Used (Call.clientTo s (Client.step s.cl b)) →
        Used s ∨ ∃ acc i, b = .setupDone true acc ∧ s.cl.setup = some (.connecting i) := by
      intro b hb
      rcases clientTo_used hb with hb | hb
      · exact .inl hb
      · rcases client_open _ _ hb with hb | hb
        · exact .inl (.inl hb)
        · exact .inr hb
    have fin : ∀ b, (Used s ∨ ∃ acc i, b = Client.Step.setupDone true acc ∧ s.cl.setup = some (.connecting i)) →
        Used s ∨ ∃ acc i, Call.Step.client b = .client (.setupDone true acc) ∧ s.cl.setup = some (.connecting i) := by
      intro b hb
      rcases hb with hb | ⟨acc, i, rfl, e⟩
      · exact .inl hb
      · exact .inr ⟨acc, i, rfl, e⟩
    simp only [Call.step, Call.stepClient] at h
    split at h
    · split at h
      · split at h
        · exact .inl h
        · rcases key _ h with hb | ⟨acc, i, e, _⟩
          · exact .inl hb
          · cases e
      · exact fin _ (key _ h)
    · exact fin _ (key _ h)
  | server a =>
    simp only [Call.step, Call.stepServer] at h
    split at h
    · exact .inl h
    · exact .inl h
    · exact .inl h
    · split at h <;> exact .inl h
  | take =>
    simp only [Call.step, Call.stepTake] at h
    split at h
    · exact .inl h
    · split at h <;> exact .inl h
  | handle ret out =>
    simp only [Call.step, Call.stepHandle] at h
    split at h
    · exact .inl h
    · split at h
      · split at h <;> exact .inl h
      · exact .inl h
  | methods m => exact .inl h
  | netUp n => exact .inl h
  | netDown n => exact .inl h
  | svReceive => simp only [Call.step] at h; split at h <;> exact .inl h
  | svRead n => exact .inl h
  | clReceive => simp only [Call.step] at h; split at h <;> exact .inl h
  | clRead n => exact .inl h

theorem not_call {w : World} {q : Nat} {k : String} {c : Nat} :
    allowed P peer w q k (.client (.call c)) = false := by
  unfold allowed; cases session w q k <;> rfl

/-- A connection that is or was used is connected to its server. -/
theorem linked (h : List In) (q : Nat) (k : String) (hu : Used ((run P ask peer (init P) h).conn q k)) :
    Linked P ask peer h q k := by
  generalize hn : h.length = n
  induction n generalizing h with
  | zero =>
    have : h = [] := List.length_eq_zero_iff.1 hn
    subst this
    rcases hu with hu | hu
    · cases hu
    · exact absurd rfl hu
  | succ n ih =>
    obtain ⟨h, x, rfl⟩ : ∃ l x, h = l ++ [x] := by
      rcases List.eq_nil_or_concat h with e | ⟨l, x, e⟩
      · subst e; simp at hn
      · exact ⟨l, x, e.trans (by simp)⟩
    have hlen : h.length = n := by simpa using hn
    rw [run_snoc] at hu
    simp only [step] at hu
    cases x with
    | svc x => exact (ih h hu hlen).more _
    | call q' c =>
      simp only [connOps] at hu
      split at hu
      · rcases conn_used (ask := ask) (server P (peer q k)) _ (.client (.call c)) hu with hu | ⟨acc, i, e, _⟩
        · exact (ih h hu hlen).more _
        · cases e
      · exact (ih h hu hlen).more _
    | conn q' k' a =>
      simp only [connOps] at hu
      split at hu
      · rename_i hc
        rcases conn_used (ask := ask) (server P (peer q k)) _ a hu with hu | ⟨acc, i, rfl, e⟩
        · exact (ih h hu hlen).more _
        · have ha := hc.2.2
          unfold allowed at ha
          cases hs : session (run P ask peer (init P) h) q k with
          | none => rw [hs] at ha; cases ha
          | some y =>
            rw [hs] at ha
            simp only [e] at ha
            exact ⟨h, [_], y, i, rfl, hs, ha⟩
      · exact (ih h hu hlen).more _

/-! ## Who is at the other end -/

theorem had_more {P : Nat → Svc.Proc} {a b : List Svc.In} {B j : Nat} {n : Bytes} (h : HadServer P a B j n) :
    HadServer P (a ++ b) B j n := h.more b

theorem mono_prefix {q : Nat} {a b : List Svc.In} (h : Mono q (a ++ b)) : Mono q a := by
  unfold Mono at h ⊢
  rw [List.filterMap_append] at h
  exact (List.pairwise_append.1 h).1

/-- The session of a client was opened for a server of the client's service. -/
theorem session_server {h : List Svc.In} {q : Nat} {k : String} {x : Targets.Session}
    (hf : ∀ m ∈ (Svc.run P (Svc.init P) h).net, Fits m) (ho : Mono q h) (hne : (P q).client ≠ [])
    (hs : ((Svc.run P (Svc.init P) h).st q).client.bind (fun s => s.sessions.find k) = some x) :
    ∃ B j, HadServer P h B j (P q).client ∧ Complete (P B) j ∧ k = serverKey (P B) j (P q).client ∧
      ConnectsTo (P B) j x := by
  have hor := Svc.ordered P q h (Svc.init P) ho
  have hrun := Svc.run_client P q h (Svc.init P)
  have hi : ((Svc.init P).st q).client = some (Targets.start (str (P q).client) (P q).methods) := rfl
  rw [hi, Option.bind_some] at hrun
  obtain ⟨s, last, h0, hinv, hnm⟩ := Targets.inv_hist (str (P q).client) (P q).methods _ hor
  rw [hrun, h0, Option.bind_some] at hs
  obtain ⟨p, hp, hk, hx, hsn⟩ := hinv.sess k x hs
  rw [hnm] at hsn
  rcases Svc.arrived_all P q h hf p hp with ⟨e, _⟩ | ⟨B, j, name, hs', hcm, _, hpe⟩
  · rw [e] at hsn
    exact absurd (Disc.str_ne_empty.1 hsn.symm) hne
  · have hname : name = (P q).client := by
      apply str_inj
      rw [← hsn, hpe]; rfl
    subst hname
    refine ⟨B, j, hs', hcm, ?_, ?_⟩
    · rw [← hk, hpe]; rfl
    · rw [hx]
      apply Svc.connectsTo hcm <;> rw [hpe] <;> rfl

/-- A connected session: there was a server of the client's service that the session was opened for, and a server at
the other end of the connection, and both had the same address. -/
theorem linked_servers {h : List In} {q : Nat} {k : String} (hs : Setting P ask peer h q k)
    (hl : Linked P ask peer h q k) :
    HadServer P (svcHist P ask peer (init P) h) (peer q k).proc (peer q k).num (peer q k).name ∧
    ∃ B j, HadServer P (svcHist P ask peer (init P) h) B j (P q).client ∧ Complete (P B) j ∧
      k = serverKey (P B) j (P q).client ∧ SameAddress (P B) j (P (peer q k).proc) (peer q k).num := by
  obtain ⟨h1, h2, x, i, rfl, hse, hli⟩ := hl
  have hpre : svcHist P ask peer (init P) (h1 ++ h2) =
      svcHist P ask peer (init P) h1 ++ svcHist P ask peer (run P ask peer (init P) h1) h2 := svcHist_append _ _ _
  have hsv1 := run_svc (P := P) (ask := ask) (peer := peer) h1 (init P)
  have hf1 : ∀ m ∈ (Svc.run P (Svc.init P) (svcHist P ask peer (init P) h1)).net, Fits m := by
    have := hs.fits
    rw [run_svc, hpre] at this
    exact Svc.fits_prefix this
  have hm1 : Mono q (svcHist P ask peer (init P) h1) := by
    have := hs.mono
    rw [hpre] at this
    exact mono_prefix this
  unfold session at hse
  rw [hsv1] at hse
  obtain ⟨B, j, hb, hcm, hk, hct⟩ := session_server hf1 hm1 hs.named hse
  unfold listens at hli
  simp only [Bool.and_eq_true, List.contains_iff_mem, beq_iff_eq, Option.any_eq_true] at hli
  obtain ⟨⟨⟨⟨hmem, hpr⟩, hv1⟩, hport⟩, ho, hoi, hih⟩ := hli
  rw [hsv1] at hmem
  rw [hpre]
  refine ⟨had_more ⟨_, [], by simp, hmem⟩, B, j, had_more hb, hcm, hk, ?_⟩
  obtain ⟨hhosts, hrest⟩ := hct
  have hv : (P B).v1 = true := by
    cases hv : (P B).v1 with
    | true => rfl
    | false =>
      rw [hv] at hrest
      simp only [Bool.false_eq_true, if_false] at hrest
      rw [hrest.1] at hpr
      cases hpr
  rw [if_pos hv] at hrest
  refine ⟨BitVec.eq_of_toNat_eq (by rw [← hrest.2, hport]), ?_⟩
  have hin : ho = str (P B).host ∨ ho = str (P B).host ++ ".local" := by
    have := List.mem_of_getElem? hoi
    rw [hhosts] at this
    simpa using this
  simp only [isHost, Bool.or_eq_true, beq_iff_eq] at hih
  rcases hin with rfl | rfl
  · rcases hih with e | e
    · exact .inl (str_inj e)
    · exact .inr (.inl e)
  · rcases hih with e | e
    · exact .inr (.inr e.symm)
    · left
      apply str_inj
      have e' := congrArg String.toList e
      rw [String.toList_append, String.toList_append] at e'
      exact String.toList_inj.1 (List.append_cancel_right e')

/-! ## Calls -/

theorem crun_snoc (sv : Call.Server) (s : Call.Sys) (l : List Call.Step) (a : Call.Step) :
    Call.run sv ask s (l ++ [a]) = Call.step sv ask (Call.run sv ask s l) a := by simp [Call.run]

theorem accepted_client (st : Client.State) (a : Client.Step) :
    (Client.step st a).accepted = st.accepted ∨
      ∃ c, a = .call c ∧ (Client.step st a).accepted = st.accepted ++ [c] := by
  have hloss : ∀ s : Client.State, (Client.loss s).accepted = s.accepted := by
    intro s; unfold Client.loss; simp only; split <;> rfl
  have hnext : ∀ s : Client.State, (Client.sendNextOrPeek s).accepted = s.accepted := by
    intro s; unfold Client.sendNextOrPeek; cases s.queue <;> rfl
  have hhost : ∀ (s : Client.State) i, (Client.nextHost s i).accepted = s.accepted := by
    intro s i; unfold Client.nextHost; split
    · rfl
    · exact hloss _
  cases a with
  | call c =>
    simp only [Client.step, Client.stepCall]; split
    · exact .inl rfl
    · exact .inr ⟨c, rfl, rfl⟩
  | stop => exact .inl rfl
  | setupDone ok accept =>
    left
    simp only [Client.step, Client.stepSetup]
    cases st.setup with
    | none => rfl
    | some x =>
      cases x <;> simp only <;> split <;> first | rfl | exact hhost _ _ | exact hnext _ | exact hloss _
  | runCall =>
    left
    simp only [Client.step, Client.stepRunCall]
    cases st.posted with
    | nil => rfl
    | cons c rest => simp only; split; · rfl
                     split <;> rfl
  | runFlush =>
    left
    simp only [Client.step, Client.stepRunFlush]
    cases st.flushes with
    | zero => rfl
    | succ n => cases st.queue <;> rfl
  | flightDone j ok rt =>
    left
    simp only [Client.step, Client.stepFlightDone]
    split <;> (try split) <;> (try split) <;> rfl
  | flightRun j =>
    left
    simp only [Client.step, Client.stepFlightRun]
    split
    · exact hloss _
    · exact hloss _
    · exact hnext _
    · rfl
  | peekDone ok =>
    left
    simp only [Client.step, Client.stepPeek]
    cases st.peeks with
    | zero => rfl
    | succ n => simp only; split; · rfl
                exact hloss _

theorem accepted_call (sv : Call.Server) (s : Call.Sys) (a : Call.Step) :
    (Call.step sv ask s a).cl.accepted = s.cl.accepted ∨
      ∃ c, a = .client (.call c) ∧ (Call.step sv ask s a).cl.accepted = s.cl.accepted ++ [c] := by
  cases a with
  | client a =>
    simp only [Call.step, Call.stepClient]
    split
    · split
      · split
        · exact .inl rfl
        · rcases accepted_client s.cl (.flightDone _ true (Service.messageType _ == 4)) with h | ⟨c, e, _⟩
          · exact .inl h
          · cases e
      · rcases accepted_client s.cl (.flightDone _ true _) with h | ⟨c, e, _⟩
        · exact .inl h
        · cases e
    · rcases accepted_client s.cl a with h | ⟨c, e, h⟩
      · exact .inl h
      · exact .inr ⟨c, by rw [e], h⟩
  | server a =>
    left
    simp only [Call.step, Call.stepServer]
    split <;> (try split) <;> rfl
  | take => left; simp only [Call.step, Call.stepTake]; split <;> (try split) <;> rfl
  | handle ret out =>
    left; simp only [Call.step, Call.stepHandle]; split <;> (try split) <;> (try split) <;> rfl
  | methods m => exact .inl rfl
  | netUp n => exact .inl rfl
  | netDown n => exact .inl rfl
  | svReceive => left; simp only [Call.step]; split <;> rfl
  | svRead n => exact .inl rfl
  | clReceive => left; simp only [Call.step]; split <;> rfl
  | clRead n => exact .inl rfl

/-- The calls made by a client, in order. -/
def callsOf (q : Nat) : List In → List Nat
  | [] => []
  | .call q' c :: h => if q' = q then c :: callsOf q h else callsOf q h
  | _ :: h => callsOf q h

theorem callsOf_append (q : Nat) (a b : List In) : callsOf q (a ++ b) = callsOf q a ++ callsOf q b := by
  induction a with
  | nil => rfl
  | cons x a ih =>
    cases x with
    | call q' c => simp only [List.cons_append, callsOf]; split <;> simp [ih]
    | _ => simp [callsOf, ih]

/-- What a session has accepted are calls of its client, in order. -/
theorem accepted_calls (h : List In) (q : Nat) (k : String) :
    ((run P ask peer (init P) h).conn q k).cl.accepted.Sublist (callsOf q h) := by
  generalize hn : h.length = n
  induction n generalizing h with
  | zero =>
    have : h = [] := List.length_eq_zero_iff.1 hn
    subst this
    exact List.Sublist.refl _
  | succ n ih =>
    obtain ⟨h, x, rfl⟩ : ∃ l x, h = l ++ [x] := by
      rcases List.eq_nil_or_concat h with e | ⟨l, x, e⟩
      · subst e; simp at hn
      · exact ⟨l, x, e.trans (by simp)⟩
    have ih := ih h (by simpa using hn)
    rw [run_snoc, callsOf_append]
    have more : ∀ l : List Nat, ((run P ask peer (init P) h).conn q k).cl.accepted.Sublist (callsOf q h ++ l) :=
      fun l => ih.trans (List.sublist_append_left _ _)
    simp only [step]
    cases x with
    | svc x => exact more _
    | call q' c =>
      simp only [connOps]
      split
      · rename_i hc
        rcases accepted_call (server P (peer q k)) ((run P ask peer (init P) h).conn q k) (.client (.call c)) with e | ⟨c', e, e'⟩
        · simp only [Call.run, List.foldl_cons, List.foldl_nil]
          rw [e]; exact more _
        · simp only [Call.run, List.foldl_cons, List.foldl_nil]
          rw [e']
          cases e
          simp only [callsOf, if_pos hc.1]
          exact List.Sublist.append ih (List.Sublist.refl _)
      · exact more _
    | conn q' k' a =>
      simp only [connOps]
      split
      · rename_i hc
        rcases accepted_call (server P (peer q k)) ((run P ask peer (init P) h).conn q k) a with e | ⟨c', rfl, _⟩
        · simp only [Call.run, List.foldl_cons, List.foldl_nil]
          rw [e]; exact more _
        · rw [not_call] at hc
          exact absurd hc.2.2 (by simp)
      · exact more _

end Ecal.E2E.SvcCall
