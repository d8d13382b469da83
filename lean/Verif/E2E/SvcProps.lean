import Verif.E2E.SvcLemmas

/-! # C109: clients find the servers of their service, from one process to another -/

namespace Ecal.E2E.Svc

open Ecal.Wire (RegSample RService IsMap)
open Ecal.Service
open Ecal.E2E.Disc (Fits)

theorem str_no {b : Bytes} (h : b = []) : str b = "" := by subst h; rfl

/-- Equal keys of registrations that arrived, with plain names, come from equal services, ids, processes, hosts. -/
theorem arrived_key {P : Nat → Proc} (hn : PlainNames P) {h : List In} {q : Nat} {r p : Targets.Reg}
    (hr : Arrived P h q r) (hp : Arrived P h q p) (hk : Targets.key r = Targets.key p) :
    r.sname = p.sname ∧ r.sid = p.sid ∧ r.pid = p.pid ∧ r.hname = p.hname := by
  have plain : ∀ x, Arrived P h q x → ':' ∉ x.sid.toList ∧ '@' ∉ x.hname.toList := by
    intro x hx
    rcases hx with ⟨_, h2, h3⟩ | ⟨B, j, name, _, _, _, rfl⟩
    · rw [h2, h3]; exact ⟨by simp, by simp⟩
    · exact ⟨hn.1 B j, hn.2 B⟩
  exact Targets.C95_keys_distinct_partial r p (plain r hr).1 (plain p hp).1 (plain r hr).2 (plain p hp).2 hk

/-- **C109 (calls go only to servers).** In any history of any number of processes, a call of a client goes, once each,
only to servers that existed: the session of each target connects to the host and a port of a server of the client's
service, with the protocol of that port; the server is in a process the client's process listens to and on a host the
client accepts. -/
theorem C109_calls_only_servers (P : Nat → Proc) (h : List In) (q : Nat) (m : String) (accept : String → Bool)
    (hf : ∀ m ∈ (run P (init P) h).net, Fits m) (ho : Mono q h) (hn : PlainNames P) (hne : (P q).client ≠ []) :
    ∃ s ts s', ((run P (init P) h).st q).client = some s ∧ Targets.call s m accept = some (ts, s') ∧
      (ts.map Prod.fst).Nodup ∧
      ∀ t ∈ ts, ∃ B j, HadServer P h B j (P q).client ∧ Complete (P B) j ∧ Hears (P q) (P B) ∧
        (s.host = "" ∨ s.host = str (P B).host) ∧ t.1 = serverKey (P B) j (P q).client ∧
        ConnectsTo (P B) j t.2 := by
  have hor := ordered P q h (init P) ho
  have hrun := run_client P q h (init P)
  have hi : ((init P).st q).client = some (Targets.start (str (P q).client) (P q).methods) := rfl
  rw [hi, Option.bind_some] at hrun
  have hs := Targets.C95_never_throws (str (P q).client) (P q).methods _ hor
  obtain ⟨s, hs⟩ := Option.isSome_iff_exists.1 hs
  obtain ⟨ts, s', hc, hnd, hm⟩ := Targets.C95_call_targets _ _ _ hor m accept s hs
  refine ⟨s, ts, s', by rw [hrun, hs], hc, hnd, ?_⟩
  intro t ht
  have harr := arrived_all P q h hf
  obtain ⟨r, t0, hl, hname, hhost⟩ := (hm t.1).1 (List.mem_map.2 ⟨t, ht, rfl⟩)
  have hrm : (t0, r) ∈ Targets.regsOf (clientHist P q (init P) h) := by
    obtain ⟨pre, post, he, _⟩ := hl
    rw [he]; simp
  have hk : Targets.key r = t.1 := by
    obtain ⟨_, _, _, hk, _⟩ := hl
    exact hk
  obtain ⟨p, hp, hpk, hx, _⟩ := Targets.C95_session_belongs_to_server _ _ _ hor m accept s s' ts hs hc t.1 t.2 ht
  have hra := harr _ hrm
  have hpa := harr _ hp
  obtain ⟨e1, e2, e3, e4⟩ := arrived_key hn hra hpa (by rw [hk, hpk])
  rcases hpa with ⟨h0, _⟩ | ⟨B, j, name, hs', hcm, hh, hpe⟩
  · exfalso
    rw [hname, h0] at e1
    exact hne (Disc.str_ne_empty.1 e1)
  · have hnm : name = (P q).client := by
      apply str_inj
      have : p.2.sname = str name := by rw [hpe]; rfl
      rw [← this, ← e1, hname]
    subst hnm
    refine ⟨B, j, hs', hcm, hh, ?_, ?_, ?_⟩
    · rw [e4, hpe] at hhost; exact hhost
    · rw [← hpk, hpe]; rfl
    · rw [hx]
      apply connectsTo hcm <;> rw [hpe] <;> rfl

/-! ## Announcing -/

theorem out_stable (P : Nat → Proc) (p : Nat) (m : RegSample) (h : List In) (w : World)
    (hw : ∃ l, (w.st p).out = some l ∧ (m ∈ l ∨ m ∈ w.net)) (hn : In.flush p ∉ h) :
    ∃ l, ((run P w h).st p).out = some l ∧ (m ∈ l ∨ m ∈ (run P w h).net) := by
  induction h generalizing w with
  | nil => exact hw
  | cons x h ih =>
    obtain ⟨l, hl, hm⟩ := hw
    have hnet : m ∈ w.net → m ∈ net' w x := by
      intro hx
      obtain ⟨l', hl'⟩ := net_grows P w [x]
      have : net' w x = w.net ++ l' := hl'
      rw [this]; simp [hx]
    apply ih (step P w x)
    · simp only [Svc.step]
      cases x with
      | collect p' info =>
        refine ⟨l, ?_, hm.imp_right hnet⟩
        simp only [out']
        split
        · rename_i hc; rw [hl] at hc; cases hc.2
        · exact hl
      | send p' =>
        by_cases hp : p' = p
        · subst hp
          refine ⟨[], by simp [out', hl], Or.inr ?_⟩
          simp only [net', hl]
          rcases hm with hm | hm <;> simp [hm]
        · exact ⟨l, by simp [out', hp, hl], hm.imp_right hnet⟩
      | flush p' =>
        refine ⟨l, ?_, hm.imp_right hnet⟩
        simp only [out']
        split
        · rename_i hc; subst hc; exact absurd (List.mem_cons_self) hn
        · exact hl
      | _ => exact ⟨l, hl, hm.imp_right hnet⟩
    · intro hx; exact hn (List.mem_cons_of_mem _ hx)

/-- The server was created (and no server with its number was there) and not destroyed. -/
def ServerLives (P : Nat → Proc) (B j : Nat) (name : Bytes) (h : List In) : Prop :=
  ∃ h1 h2, h = h1 ++ .newServer B j name :: h2 ∧ (∀ s ∈ ((run P (init P) h1).st B).servers, s.1 ≠ j) ∧
    ∀ i, In.delServer B j i ∉ h2

theorem server_there (P : Nat → Proc) (B j : Nat) (name : Bytes) (h : List In) (hl : ServerLives P B j name h) :
    (j, name) ∈ ((run P (init P) h).st B).servers := by
  obtain ⟨h1, h2, rfl, hfree, hd⟩ := hl
  have e : h1 ++ In.newServer B j name :: h2 = (h1 ++ [.newServer B j name]) ++ h2 := by simp
  rw [e, run_append]
  have h0 : (j, name) ∈ ((run P (init P) (h1 ++ [.newServer B j name])).st B).servers := by
    rw [run_snoc]
    simp only [Svc.step, servers']
    rw [if_pos]
    · simp
    · refine ⟨trivial, ?_⟩
      rw [List.all_eq_true]
      intro s hs
      simpa using hfree s hs
  generalize run P (init P) (h1 ++ [.newServer B j name]) = w at h0
  clear e hfree
  induction h2 generalizing w with
  | nil => exact h0
  | cons x h2 ih =>
    refine ih (fun i hi => hd i (List.mem_cons_of_mem _ hi)) (step P w x) ?_
    simp only [Svc.step]
    cases x with
    | newServer p j' n' =>
      simp only [servers']
      split
      · exact List.mem_append_left _ h0
      · exact h0
    | delServer p j' i =>
      simp only [servers']
      split
      · rename_i hp
        subst hp
        refine List.mem_filter.2 ⟨h0, ?_⟩
        simp only [ne_eq, decide_eq_true_eq]
        intro hj
        exact hd i (by rw [hj]; exact List.mem_cons_self)
      · exact h0
    | _ => exact h0

/-- **C109 (a server is announced).** A registration cycle of the process of a server, from collecting to sending,
sends a registration of the server. -/
theorem C109_server_announced (P : Nat → Proc) (B j : Nat) (name : Bytes) (h h1 : List In) (info : Nat → RService)
    (hl : ServerLives P B j name h) (hout : ((run P (init P) h).st B).out = none) (hn : In.flush B ∉ h1) :
    ∃ k, ServerDatagram P (run P (init P) (h ++ .collect B info :: h1 ++ [.flush B])) k B j name := by
  have hs := server_there P B j name h hl
  have e : h ++ In.collect B info :: h1 = (h ++ [.collect B info]) ++ h1 := by simp
  have ho : ((run P (init P) (h ++ [.collect B info])).st B).out = some
      (((run P (init P) h).st B).servers.map (fun s => regSample (P B) (info s.1) s.1 s.2)) := by
    rw [run_snoc]
    simp only [Svc.step, out']
    rw [if_pos ⟨trivial, hout⟩]
  obtain ⟨l, ho2, hm2⟩ := out_stable P B (regSample (P B) (info j) j name) h1 _
    ⟨_, ho, Or.inl (List.mem_map.2 ⟨(j, name), hs, rfl⟩)⟩ hn
  rw [← run_append, ← e] at ho2 hm2
  have hmem : regSample (P B) (info j) j name ∈
      (run P (init P) (h ++ .collect B info :: h1 ++ [.flush B])).net := by
    rw [run_snoc]
    simp only [Svc.step, net', ho2]
    rcases hm2 with hm2 | hm2 <;> simp [hm2]
  obtain ⟨k, hk⟩ := List.getElem?_of_mem hmem
  exact ⟨k, info j, hk⟩

/-! ## Finding -/

/-- The last element with a property. -/
theorem split_last_such {α : Type} (q : α → Prop) [DecidablePred q] (l : List α) :
    (∀ x ∈ l, ¬ q x) ∨ ∃ a x b, l = a ++ x :: b ∧ q x ∧ ∀ y ∈ b, ¬ q y := by
  induction l with
  | nil => exact .inl (by simp)
  | cons y l ih =>
    rcases ih with ih | ⟨a, x, b, rfl, hx, hb⟩
    · by_cases hy : q y
      · exact .inr ⟨[], y, l, rfl, hy, ih⟩
      · left
        intro x hx
        rcases List.mem_cons.1 hx with rfl | hx
        · exact hy
        · exact ih x hx
    · exact .inr ⟨y :: a, x, b, rfl, hx, hb⟩

/-- After `a`, the later arrivals of registrations of servers at `q` are at most at `limit`. -/
def QuietUntil (P : Nat → Proc) (q : Nat) (a h2 : List In) (limit : Int) : Prop :=
  ∀ b k t c, h2 = b ++ .arrive q k t :: c →
    (∃ m : RegSample, (run P (init P) (a ++ b)).net[k]? = some m ∧ m.cmd = 5) → t ≤ limit

theorem reg_arrived_from (P : Nat → Proc) (q : Nat) (a h2 : List In)
    (hf : ∀ m ∈ (run P (init P) (a ++ h2)).net, Fits m) (p : Int × Targets.Reg)
    (hp : p ∈ Targets.regsOf (clientHist P q (run P (init P) a) h2)) :
    ∃ b k c, h2 = b ++ .arrive q k p.1 :: c ∧ ∃ m0 : RegSample, (run P (init P) (a ++ b)).net[k]? = some m0 ∧ m0.cmd = 5 ∧
      p.2 = regOf (Wire.transmitted m0) := by
  obtain ⟨b, x, c, rfl, ho⟩ := mem_clientHist P q _ h2 _ (mem_regsOf.1 hp)
  rw [← List.append_assoc] at hf
  have hfa := fits_prefix hf
  rw [← run_append] at ho
  cases x with
  | arrive p' k t =>
    simp only [clientOps] at ho
    split at ho
    · rename_i hq
      subst hq
      cases hd : delivered (run P (init P) (a ++ b)) k with
      | none => rw [hd] at ho; cases ho
      | some m =>
        rw [hd] at ho
        simp only at ho
        obtain ⟨m0, hk, rfl⟩ := delivered_fits hfa hd
        rcases gateOps_cases (P p') t m0 with h0 | ⟨h5, _, h0⟩
        · rw [h0] at ho; cases ho
        · rw [h0] at ho
          simp only [List.mem_singleton, Targets.Step.register.injEq] at ho
          obtain ⟨ht, hr⟩ := ho
          exact ⟨b, k, c, by rw [ht], m0, hk, h5, hr⟩
    · cases ho
  | collect p info => simp only [clientOps] at ho; split at ho <;> simp at ho
  | setHost p s => simp only [clientOps] at ho; split at ho <;> simp at ho
  | call p a b => simp only [clientOps] at ho; split at ho <;> simp at ho
  | newServer p j n => cases ho
  | delServer p j n => cases ho
  | other p m => cases ho
  | send p => cases ho
  | flush p => cases ho

/-- **C109 (an announced server is called).** A registration of a server with its ports arrives at a process that
listens to it.  From then on, as long as no registration of any server arrives more than 5000 ms later, every call of
a client of that service which accepts the host goes to the server, on its host and port and with its protocol.
Missing for the full property: the configured timeout instead of 5000 ms (`C95_violated_slow_registration`). -/
theorem C109_announced_server_called_partial (P : Nat → Proc) (q B j k : Nat) (now : Int) (h0 h2 : List In)
    (hd : ServerDatagram P (run P (init P) h0) k B j (P q).client) (hc : Complete (P B) j) (hh : Hears (P q) (P B))
    (hf : ∀ m ∈ (run P (init P) (h0 ++ .arrive q k now :: h2)).net, Fits m)
    (ho : Mono q (h0 ++ .arrive q k now :: h2)) (hn : PlainNames P) (hid : DistinctIds P) (hne : (P q).client ≠ [])
    (hq : QuietUntil P q (h0 ++ [.arrive q k now]) h2 (now + 5000))
    (hhost : ∀ x, In.setHost q x ∈ h0 ++ .arrive q k now :: h2 → x = "" ∨ x = "*" ∨ x = str (P B).host)
    (m : String) (accept : String → Bool) :
    ∃ s ts s', ((run P (init P) (h0 ++ .arrive q k now :: h2)).st q).client = some s ∧
      Targets.call s m accept = some (ts, s') ∧
      ∃ x, (serverKey (P B) j (P q).client, x) ∈ ts ∧ ConnectsTo (P B) j x := by
  have e : h0 ++ In.arrive q k now :: h2 = (h0 ++ [.arrive q k now]) ++ h2 := by simp
  obtain ⟨s, ts, s', hs, hcall, hnd, hall⟩ := C109_calls_only_servers P _ q m accept hf ho hn hne
  refine ⟨s, ts, s', hs, hcall, ?_⟩
  -- the registrations
  obtain ⟨info, hk⟩ := hd
  have hf0 : ∀ m ∈ (run P (init P) h0).net, Fits m := fits_prefix hf
  have hdel : delivered (run P (init P) h0) k = some (Wire.transmitted (regSample (P B) info j (P q).client)) := by
    unfold delivered
    rw [hk, Option.bind_some, Disc.receive_datagram _ (hf0 _ (List.mem_of_getElem? hk))]
  have hreg := regSample_complete hc info (P q).client
  have hop : clientOps P (run P (init P) h0) q (.arrive q k now) =
      [.register now (regOf (Wire.transmitted (regSample (P B) info j (P q).client)))] := by
    simp only [clientOps, if_true, hdel]
    exact gateOps_service (P q) (P B) now _ (regSample_cmd _ _ _ _) (by rw [hreg]) (by rw [hreg]) hh
  rw [regOf_regSample hc] at hop
  have hregs : Targets.regsOf (clientHist P q (init P) (h0 ++ .arrive q k now :: h2)) =
      Targets.regsOf (clientHist P q (init P) h0) ++
      (now, (entry (P B) j (P q).client)) ::
      Targets.regsOf (clientHist P q (run P (init P) (h0 ++ [.arrive q k now])) h2) := by
    rw [e, clientHist_append, clientHist_snoc, Targets.regsOf_append, Targets.regsOf_append, hop]
    simp [Targets.regsOf]
  have hor := ordered P q _ (init P) ho
  have hrun := run_client P q (h0 ++ .arrive q k now :: h2) (init P)
  have hi : ((init P).st q).client = some (Targets.start (str (P q).client) (P q).methods) := rfl
  rw [hi, Option.bind_some] at hrun
  have hs' : Targets.run (Targets.start (str (P q).client) (P q).methods)
      (clientHist P q (init P) (h0 ++ .arrive q k now :: h2)) = some s := by rw [← hrun, hs]
  obtain ⟨ts', s'', hc', _, hm⟩ := Targets.C95_call_targets _ _ _ hor m accept s hs'
  rw [hcall] at hc'
  obtain ⟨rfl, rfl⟩ := Prod.mk.inj (Option.some.inj hc')
  have harr := arrived_all P q _ hf
  -- the host filter
  have hhs : s.host = "" ∨ s.host = str (P B).host := by
    refine run_host (fun x => x = "" ∨ x = str (P B).host) _ _ _ hs' (Or.inl rfl) ?_
    intro x hx
    rcases hhost x (mem_setHost P q x _ _ hx) with rfl | rfl | rfl
    · exact Or.inl rfl
    · exact Or.inl rfl
    · split
      · exact Or.inl rfl
      · exact Or.inr rfl
  -- times of what came later
  have hlate : ∀ p ∈ Targets.regsOf (clientHist P q (run P (init P) (h0 ++ [.arrive q k now])) h2),
      p.1 ≤ now + 5000 ∧ now ≤ p.1 := by
    intro p hp
    constructor
    · obtain ⟨b, k', c, hb, m0, hk', h5, _⟩ := reg_arrived_from P q (h0 ++ [.arrive q k now]) h2 (by rw [← e]; exact hf) p hp
      exact hq b k' p.1 c hb ⟨m0, hk', h5⟩
    · have hor' := hor
      rw [hregs] at hor'
      have := (List.pairwise_append.1 hor').2.1
      exact (List.pairwise_cons.1 this).1 p hp
  -- the last registration with this key
  have hkey : Targets.key (entry (P B) j (P q).client) =
      serverKey (P B) j (P q).client := rfl
  have hlive : ∃ r t, Targets.LiveAt (Targets.regsOf (clientHist P q (init P) (h0 ++ .arrive q k now :: h2)))
      (serverKey (P B) j (P q).client) r t ∧ r.sname = str (P q).client ∧ (s.host = "" ∨ s.host = r.hname) := by
    rcases split_last_such (fun p : Int × Targets.Reg => Targets.key p.2 = serverKey (P B) j (P q).client)
      (Targets.regsOf (clientHist P q (run P (init P) (h0 ++ [.arrive q k now])) h2)) with hno | ⟨a, x, b, hab, hx, hb⟩
    · exact ⟨_, now, ⟨_, _, hregs, hkey, hno, fun p hp => (hlate p hp).1⟩, rfl, hhs⟩
    · have hxm : x ∈ Targets.regsOf (clientHist P q (init P) (h0 ++ .arrive q k now :: h2)) := by
        rw [hregs, hab]; simp
      have hr0 : Arrived P (h0 ++ .arrive q k now :: h2) q
          (entry (P B) j (P q).client) := by
        refine harr (now, entry (P B) j (P q).client) ?_
        rw [hregs]; simp
      obtain ⟨e1, e2, e3, e4⟩ := arrived_key hn hr0 (harr x hxm) (by rw [hkey, hx])
      refine ⟨x.2, x.1, ⟨Targets.regsOf (clientHist P q (init P) h0) ++ (now, entry (P B) j (P q).client) :: a, b, ?_, hx, hb, ?_⟩, ?_, ?_⟩
      · rw [hregs, hab]; simp
      · intro p hp
        have h1 := (hlate p (by rw [hab]; simp [hp])).1
        have h2 := (hlate x (by rw [hab]; simp)).2
        omega
      · exact e1.symm
      · rw [← e4]; exact hhs
  have hin := (hm (serverKey (P B) j (P q).client)).2 hlive
  obtain ⟨t, ht, hk1⟩ := List.mem_map.1 hin
  obtain ⟨B', j', hs1, hcm, _, _, hkt, hcon⟩ := hall t ht
  refine ⟨t.2, by rw [← hk1]; exact ht, ?_⟩
  -- the same server
  have hsame : B' = B ∧ j' = j := by
    have hr1 : Targets.key (entry (P B') j' (P q).client) = Targets.key
      (entry (P B) j (P q).client) := by
      have h1 : serverKey (P B') j' (P q).client = serverKey (P B) j (P q).client := by rw [← hkt, hk1]
      exact h1
    obtain ⟨_, e2, e3, e4⟩ := Targets.C95_keys_distinct_partial _ _ (hn.1 B' j') (hn.1 B j) (hn.2 B') (hn.2 B) hr1
    exact hid B' j' B j (str_inj e2) (Disc.toInt_inj.1 e3) (str_inj e4)
  obtain ⟨rfl, rfl⟩ := hsame
  exact hcon

/-- Keys of servers with plain names and distinct ids tell servers apart. -/
theorem key_server {P : Nat → Proc} (hn : PlainNames P) (hid : DistinctIds P) {B j B' j' : Nat} {name name' : Bytes}
    (h : serverKey (P B) j name = serverKey (P B') j' name') : B = B' ∧ j = j' ∧ name = name' := by
  have h1 : Targets.key (entry (P B) j name) = Targets.key (entry (P B') j' name') := h
  obtain ⟨e1, e2, e3, e4⟩ := Targets.C95_keys_distinct_partial _ _ (hn.1 B j) (hn.1 B' j') (hn.2 B) (hn.2 B') h1
  obtain ⟨a, b⟩ := hid B j B' j' (str_inj e2) (Disc.toInt_inj.1 e3) (str_inj e4)
  exact ⟨a, b, str_inj e1⟩

/-- **C109 (from creation to the call).** A server with its ports is created and its process completes a registration
cycle; when that registration arrives at a process that listens to it, the next call of a client of the service goes
to the server, on its host and port and with its protocol, whatever else happened before. -/
theorem C109_find (P : Nat → Proc) (q B j : Nat) (h h1 h2 : List In) (info : Nat → RService)
    (hl : ServerLives P B j (P q).client h) (hout : ((run P (init P) h).st B).out = none) (hnf : In.flush B ∉ h1)
    (hc : Complete (P B) j) (hh : Hears (P q) (P B)) (hn : PlainNames P) (hid : DistinctIds P)
    (hne : (P q).client ≠ []) :
    ∃ k, ∀ now m accept,
      (∀ m ∈ (run P (init P) (h ++ .collect B info :: h1 ++ [.flush B] ++ h2 ++ [.arrive q k now])).net, Fits m) →
      Mono q (h ++ .collect B info :: h1 ++ [.flush B] ++ h2 ++ [.arrive q k now]) →
      (∀ x, In.setHost q x ∈ h ++ .collect B info :: h1 ++ [.flush B] ++ h2 → x = "" ∨ x = "*" ∨ x = str (P B).host) →
      ∃ s ts s',
        ((run P (init P) (h ++ .collect B info :: h1 ++ [.flush B] ++ h2 ++ [.arrive q k now])).st q).client = some s ∧
        Targets.call s m accept = some (ts, s') ∧
        ∃ x, (serverKey (P B) j (P q).client, x) ∈ ts ∧ ConnectsTo (P B) j x := by
  obtain ⟨k, i, hk⟩ := C109_server_announced P B j (P q).client h h1 info hl hout hnf
  refine ⟨k, ?_⟩
  intro now m accept hf ho hhost
  refine C109_announced_server_called_partial P q B j k now
    (h ++ .collect B info :: h1 ++ [.flush B] ++ h2) [] ⟨i, ?_⟩ hc hh hf ho hn hid hne ?_ ?_ m accept
  · rw [run_append]
    obtain ⟨l, hl⟩ := net_grows P (run P (init P) (h ++ .collect B info :: h1 ++ [.flush B])) h2
    rw [hl]
    obtain ⟨hlt, _⟩ := List.getElem?_eq_some_iff.1 hk
    rw [List.getElem?_append_left hlt, hk]
  · intro b k' t c hb
    cases b <;> cases hb
  · intro x hx
    refine hhost x ?_
    rcases List.mem_append.1 hx with hx | hx
    · exact hx
    · simp at hx

/-- **C109 (a silent server is forgotten).** If a registration of any server arrives more than 5000 ms after the last
registration of a server, no call goes to that server.  Missing for the full property: a server that is gone is
forgotten only then, see the violation below. -/
theorem C109_silent_server_forgotten_partial (P : Nat → Proc) (q B j B' j' k : Nat) (u : Int) (name : Bytes)
    (h1 h2 : List In) (hf : ∀ m ∈ (run P (init P) (h1 ++ .arrive q k u :: h2)).net, Fits m)
    (ho : Mono q (h1 ++ .arrive q k u :: h2)) (hn : PlainNames P) (hid : DistinctIds P) (hne : (P q).client ≠ [])
    (hd : ServerDatagram P (run P (init P) h1) k B' j' name) (hc : Complete (P B') j') (hh : Hears (P q) (P B'))
    (hold : ∀ a k' t c, h1 ++ .arrive q k u :: h2 = a ++ .arrive q k' t :: c →
      ServerDatagram P (run P (init P) a) k' B j (P q).client → t + 5000 < u)
    (m : String) (accept : String → Bool) :
    ∃ s ts s', ((run P (init P) (h1 ++ .arrive q k u :: h2)).st q).client = some s ∧
      Targets.call s m accept = some (ts, s') ∧ serverKey (P B) j (P q).client ∉ ts.map Prod.fst := by
  have e : h1 ++ In.arrive q k u :: h2 = (h1 ++ [.arrive q k u]) ++ h2 := by simp
  have hor := ordered P q _ (init P) ho
  have hrun := run_client P q (h1 ++ .arrive q k u :: h2) (init P)
  have hi : ((init P).st q).client = some (Targets.start (str (P q).client) (P q).methods) := rfl
  rw [hi, Option.bind_some] at hrun
  have hs := Targets.C95_never_throws (str (P q).client) (P q).methods _ hor
  obtain ⟨s, hs⟩ := Option.isSome_iff_exists.1 hs
  obtain ⟨ts, s', hcall, _, hm⟩ := Targets.C95_call_targets _ _ _ hor m accept s hs
  refine ⟨s, ts, s', by rw [hrun, hs], hcall, ?_⟩
  intro hin
  obtain ⟨r, t, hl, hname, _⟩ := (hm _).1 hin
  obtain ⟨info, hk⟩ := hd
  have hf0 : ∀ m ∈ (run P (init P) h1).net, Fits m := fits_prefix hf
  have hdel : delivered (run P (init P) h1) k = some (Wire.transmitted (regSample (P B') info j' name)) := by
    unfold delivered
    rw [hk, Option.bind_some, Disc.receive_datagram _ (hf0 _ (List.mem_of_getElem? hk))]
  have hreg := regSample_complete hc info name
  have hop : clientOps P (run P (init P) h1) q (.arrive q k u) =
      [.register u (regOf (Wire.transmitted (regSample (P B') info j' name)))] := by
    simp only [clientOps, if_true, hdel]
    exact gateOps_service (P q) (P B') u _ (regSample_cmd _ _ _ _) (by rw [hreg]) (by rw [hreg]) hh
  have hum : (u, regOf (Wire.transmitted (regSample (P B') info j' name))) ∈
      Targets.regsOf (clientHist P q (init P) (h1 ++ .arrive q k u :: h2)) := by
    rw [mem_regsOf, e, clientHist_append, clientHist_snoc, hop]
    simp
  -- where the live registration came from
  obtain ⟨pre, post, hsplit, hkey, _, hpost⟩ := hl
  have htm : (t, r) ∈ Targets.regsOf (clientHist P q (init P) (h1 ++ .arrive q k u :: h2)) := by
    rw [hsplit]; simp
  have hold' : t + 5000 < u := by
    obtain ⟨a, k', c, hac, m0, hk', h5, hr⟩ := reg_arrived P q _ hf (t, r) htm
    refine hold a k' t c hac ?_
    obtain ⟨B2, j2, name2, info2, hs2, rfl⟩ := (winv P a).net m0 (List.mem_of_getElem? hk') h5
    by_cases hc2 : Complete (P B2) j2
    · rw [regOf_regSample hc2] at hr
      have hr' : r = entry (P B2) j2 name2 := hr
      rw [hr'] at hkey
      obtain ⟨rfl, rfl, rfl⟩ := key_server hn hid (name := name2) (name' := (P q).client) hkey
      exact ⟨info2, hk'⟩
    · rw [regSample_incomplete hc2] at hr
      have hr' : r.sname = "" := by
        have : r = regOf (Wire.transmitted { cmd := 5 }) := hr
        rw [this]; rfl
      rw [hname] at hr'
      exact absurd (Disc.str_ne_empty.1 hr') hne
  rw [hsplit] at hum hor
  rcases List.mem_append.1 hum with hu | hu
  · have := (List.pairwise_append.1 hor).2.2 _ hu (t, r) (by simp)
    simp only at this
    omega
  · rcases List.mem_cons.1 hu with hu | hu
    · have : u = t := congrArg Prod.fst hu
      omega
    · have := hpost _ hu
      simp only at this
      omega

/-! ## Violations -/

/-- Violated: **servers outside the host whose name is the host group are not found.**  Two processes in one host
group, which is not the name of the server's host: without network mode no call ever goes to a server of that process,
in any history.  (Publishers and subscribers of the same two processes do find each other: their registrations carry
the host group, those of servers do not.) -/
theorem C109_violated_host_group (P : Nat → Proc) (q B j : Nat) (hg : (P B).group = (P q).group)
    (hx : (P B).host ≠ (P q).group) (hnet : (P q).network = false) (h : List In)
    (hf : ∀ m ∈ (run P (init P) h).net, Fits m) (ho : Mono q h) (hn : PlainNames P) (hid : DistinctIds P)
    (hne : (P q).client ≠ []) (m : String) (accept : String → Bool) :
    ∃ s ts s', ((run P (init P) h).st q).client = some s ∧ Targets.call s m accept = some (ts, s') ∧
      serverKey (P B) j (P q).client ∉ ts.map Prod.fst := by
  obtain ⟨s, ts, s', hs, hc, _, hall⟩ := C109_calls_only_servers P h q m accept hf ho hn hne
  refine ⟨s, ts, s', hs, hc, ?_⟩
  intro hin
  obtain ⟨t, ht, hk⟩ := List.mem_map.1 hin
  obtain ⟨B', j', _, _, hh, _, hkt, _⟩ := hall t ht
  rw [hkt] at hk
  obtain ⟨rfl, _, _⟩ := key_server hn hid hk
  unfold Hears at hh
  rw [if_neg (fun h => hx h.2), hnet] at hh
  cases hh

/-- Violated: **a server that lacks the port of one enabled protocol is not found at all**, even if the port of the other
protocol is open: its registrations carry neither name nor ports. -/
theorem C109_violated_missing_port (P : Nat → Proc) (q B j : Nat) (h0 : (P B).v0 = true) (hp0 : (P B).port0 j = 0)
    (_h1 : (P B).v1 = true) (_hp1 : (P B).port1 j ≠ 0) (h : List In)
    (hf : ∀ m ∈ (run P (init P) h).net, Fits m) (ho : Mono q h) (hn : PlainNames P) (hid : DistinctIds P)
    (hne : (P q).client ≠ []) (m : String) (accept : String → Bool) :
    ∃ s ts s', ((run P (init P) h).st q).client = some s ∧ Targets.call s m accept = some (ts, s') ∧
      serverKey (P B) j (P q).client ∉ ts.map Prod.fst := by
  obtain ⟨s, ts, s', hs, hc, _, hall⟩ := C109_calls_only_servers P h q m accept hf ho hn hne
  refine ⟨s, ts, s', hs, hc, ?_⟩
  intro hin
  obtain ⟨t, ht, hk⟩ := List.mem_map.1 hin
  obtain ⟨B', j', _, hcm, _, _, hkt, _⟩ := hall t ht
  rw [hkt] at hk
  obtain ⟨rfl, rfl, _⟩ := key_server hn hid hk
  exact hcm.1 h0 hp0

/-! ## A concrete network -/

/-- Process 0 has a client of "calc", processes 1 (same host) and 2 (other host) can have servers. -/
def exP (p : Nat) : Proc :=
  { host := if p = 2 then [99] else [104], group := if p = 2 then [99] else [104], pid := .ofNat 32 (100 + p),
    network := true, loopback := true, v0 := true, v1 := true, sid := fun j => List.replicate p 49 ++ 50 :: List.replicate j 49,
    port0 := fun j => .ofNat 16 (4000 + j), port1 := fun j => .ofNat 16 (5000 + j), client := [120], methods := ["add"] }

theorem ex_sid {p j p' j' : Nat} (h : List.replicate p (49 : UInt8) ++ 50 :: List.replicate j 49 =
    List.replicate p' 49 ++ 50 :: List.replicate j' 49) : p = p' ∧ j = j' := by
  induction p generalizing p' with
  | zero =>
    cases p' with
    | zero =>
      simp only [List.replicate_zero, List.nil_append, List.cons.injEq, true_and] at h
      exact ⟨rfl, by simpa using congrArg List.length h⟩
    | succ n =>
      rw [List.replicate_succ] at h
      simp at h
  | succ n ih =>
    cases p' with
    | zero =>
      rw [List.replicate_succ] at h
      simp at h
    | succ n' =>
      simp only [List.replicate_succ, List.cons_append, List.cons.injEq, true_and] at h
      obtain ⟨a, b⟩ := ih h
      exact ⟨by rw [a], b⟩

theorem ex_distinct : DistinctIds exP := fun _ _ _ _ h _ _ => ex_sid h

theorem str_replicate (n : Nat) (b : UInt8) (l : Bytes) (c : Char) (hb : Char.ofNat b.toNat ≠ c)
    (hl : c ∉ (str l).toList) : c ∉ (str (List.replicate n b ++ l)).toList := by
  simp only [str, String.toList_ofList, List.map_append, List.map_replicate, List.mem_append, not_or] at hl ⊢
  refine ⟨?_, hl⟩
  intro h
  exact hb (List.eq_of_mem_replicate h).symm

theorem ex_plain : PlainNames exP := by
  constructor
  · intro B j
    refine str_replicate B 49 _ ':' (by decide) ?_
    have e : str (50 :: List.replicate j 49) = str ([50] ++ (List.replicate j 49 ++ [])) := by simp
    rw [e]
    have h1 := str_replicate j 49 [] ':' (by decide) (by decide +kernel)
    have h2 := str_replicate 1 50 (List.replicate j 49 ++ []) ':' (by decide) h1
    exact h2
  · intro B
    simp only [exP]
    split <;> decide +kernel

example : Complete (exP 1) 0 ∧ Hears (exP 0) (exP 1) ∧ Hears (exP 0) (exP 2) ∧ (exP 0).client ≠ [] :=
  ⟨⟨by decide, by decide⟩, Or.inl (by decide), rfl, by decide⟩

/-- A server of process 1 is created, announced, called, destroyed; its unregistration arrives a minute later. -/
def exH : List In :=
  [.newServer 1 0 [120], .collect 1 (fun _ => {}), .flush 1, .arrive 0 0 1000, .delServer 1 0 {},
   .collect 1 (fun _ => {}), .flush 1, .arrive 0 1 61000]

/-- The targets of a call of process 0. -/
def exTargets (w : World) : Option (List (String × Targets.Session)) :=
  (w.st 0).client.bind (fun s => (Targets.call s "add" (fun _ => true)).map Prod.fst)

/-- Violated: **a server that was destroyed is still called.**  Its unregistration was sent and has arrived, a minute
passed, and the call still goes to its session: nothing but a later registration of some server removes it. -/
theorem C109_violated_destroyed_server_called :
    ((run exP (init exP) exH).st 1).servers = [] ∧
    (((run exP (init exP) exH).net[1]?).map (fun m => (m.cmd, m.entityId)) = some (15, [49, 50])) ∧
    exTargets (run exP (init exP) exH) =
      some [("x:12@101@h", { protocol := 1, port := 5000, hosts := ["h", "h.local"] })] := by
  refine ⟨by decide +kernel, by decide +kernel, by decide +kernel⟩

/-- Two servers, on two hosts, are found with the first registrations. -/
example : exTargets (run exP (init exP) [.newServer 1 0 [120], .newServer 2 3 [120], .newServer 2 4 [121],
      .collect 1 (fun _ => {}), .collect 2 (fun _ => {}), .flush 2, .send 1, .arrive 0 0 10, .arrive 0 1 20, .arrive 0 2 30]) =
    some [("x:112111@102@c", { protocol := 1, port := 5003, hosts := ["c", "c.local"] }),
          ("x:12@101@h", { protocol := 1, port := 5000, hosts := ["h", "h.local"] })] := by
  decide +kernel

/-- The hypotheses of the finding and forgetting theorems hold in it. -/
example : ServerDatagram exP (run exP (init exP) [.newServer 1 0 [120], .collect 1 (fun _ => {}), .flush 1]) 0 1 0 [120] :=
  ⟨{}, by decide +kernel⟩

/-- The host group example: both processes in group "g", on host "h", without network mode. -/
def exG (p : Nat) : Proc := { exP p with group := [103], host := [104], network := false }

example : (exG 1).group = (exG 0).group ∧ (exG 1).host ≠ (exG 0).group ∧ (exG 0).network = false ∧
    exTargets (run exG (init exG) [.newServer 1 0 [120], .collect 1 (fun _ => {}), .flush 1, .arrive 0 0 10]) = some [] :=
  ⟨rfl, by decide, rfl, by decide +kernel⟩

end Ecal.E2E.Svc
