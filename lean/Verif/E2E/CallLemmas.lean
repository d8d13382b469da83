import Verif.E2E.CallClient
import Verif.Service.FrameProps
import Verif.Service.ServerSessionProps

/-! # Invariant of a connection between a client and a server (`Verif.E2E.Call`) -/

namespace Ecal.Service

theorem Partial.mono {p : Phase} {part : Bytes} {todo : List Msg} (h : Partial p part todo)
    (x : List Msg) : Partial p part (todo ++ x) := by
  cases h with
  | idle => exact .idle _
  | start got rest hl => exact .start _ _ hl
  | rest m got ms hl => exact .rest m got _ hl
  | payload m got ms hl => exact .payload m got _ hl

theorem Inv.mono {ms : List Msg} {s : Rx} {t : Bytes} (h : Inv ms s t) (x : List Msg) :
    Inv (ms ++ x) s t := by
  obtain ⟨done, todo, part, h1, h2, h3, h4⟩ := h.split
  exact ⟨⟨done, todo ++ x, part, by rw [h1, List.append_assoc], h2, h3.mono x, h4⟩⟩

theorem Inv.arrive {ms : List Msg} {s : Rx} {t : Bytes} (h : Inv ms s t) (b : Bytes) :
    Inv ms (step s (.arrive b)) (t ++ b) := by
  obtain ⟨done, todo, part, h1, h2, h3, h4⟩ := h.split
  exact ⟨⟨done, todo, part, h1, h2, h3, by rw [← h4]; simp [step]⟩⟩

theorem Inv.receive {ms : List Msg} {s : Rx} {t : Bytes} (h : Inv ms s t) :
    Inv ms (step s .receive) t := by
  simp only [step]
  split
  · next hi =>
    obtain ⟨done, todo, part, h1, h2, h3, h4⟩ := h.split
    rw [hi] at h3
    cases h3
    exact ⟨⟨done, todo, [], h1, h2, .start _ _ (by simp), h4⟩⟩
  · exact h

/-- What was handed on is never taken back. -/
theorem out_mono (s : Rx) (a : Step) : s.out <+: (step s a).out := by
  cases a with
  | arrive b => exact List.prefix_refl _
  | receive => simp only [step]; split <;> exact List.prefix_refl _
  | readSome k =>
    simp only [step]
    generalize gain s.phase _ = p
    cases p with
    | idle => exact List.prefix_refl _
    | start got => simp only [complete]; split <;> exact List.prefix_refl _
    | rest f n got =>
      simp only [complete]
      split
      · split
        · exact List.prefix_append _ _
        · exact List.prefix_refl _
      · exact List.prefix_refl _
    | payload h n got =>
      simp only [complete]
      split
      · exact List.prefix_append _ _
      · exact List.prefix_refl _

theorem Inv.out_get {ms : List Msg} {s : Rx} {t : Bytes} (h : Inv ms s t) {i : Nat} {x : Bytes × Bytes}
    (hi : s.out[i]? = some x) : ∃ m, ms[i]? = some m ∧ x = (m.header, m.payload) := by
  obtain ⟨done, todo, part, h1, h2, _, _⟩ := h.split
  rw [h2, expected, List.getElem?_map] at hi
  cases hm : done[i]? with
  | none => rw [hm] at hi; cases hi
  | some m =>
    rw [hm] at hi
    refine ⟨m, ?_, (Option.some.inj hi).symm⟩
    rw [h1, List.getElem?_append_left (List.getElem?_eq_some_iff.1 hm).1]
    exact hm

end Ecal.Service

namespace Ecal.E2E.Call

open Ecal.Service (Rx)

variable {sv : Server} {ask : Nat → Ask}

def upMsgs (ask : Nat → Ask) (s : Sys) : List Service.Msg := s.wrote.map (fun c => requestMsg (ask c))
def downMsgs (s : Sys) : List Service.Msg := s.sv.calls.map (fun p => responseMsg p.2)

theorem upBytes_eq (s : Sys) : upBytes ask s = Service.stream (upMsgs ask s) := rfl
theorem downBytes_eq (s : Sys) : downBytes s = Service.stream (downMsgs s) := rfl

/-- The requests and responses are shorter than 4 GiB. -/
def Small (s : Sys) : Prop := ∀ p ∈ s.sv.calls, p.2.length < 2 ^ 32

/-- How the handler produced the `i`-th response. -/
def Handled (sv : Server) (execs : List Exec) (i : Nat) (r a : Bytes) : Prop :=
  (∃ m ret out resp, serve sv m i ret out r = .reply resp ∧ a = Wire.serializeResponse resp ∧
    ∀ e ∈ execs, e.idx ≠ i) ∨
  ∃ m ret out e resp, serve sv m i ret out r = .executed e resp ∧ a = Wire.serializeResponse resp ∧
    e ∈ execs

structure Good (sv : Server) (ask : Nat → Ask) (s : Sys) : Prop where
  ci   : Service.Client.Inv s.cl
  cf   : Service.Client.FlushInv s.cl
  w    : WInv s.cl s.wrote
  upLe : s.upGone ≤ (upBytes ask s).length
  up   : Service.Inv (upMsgs ask s) s.up ((upBytes ask s).take s.upGone)
  dnLe : s.downGone ≤ (downBytes s).length
  dn   : Service.Inv (downMsgs s) s.down ((downBytes s).take s.downGone)
  si   : Service.Server.V1.Inv s.sv
  rcv  : ∀ (i : Nat) (r : Bytes), s.sv.received[i]? = some r → ∃ h, s.up.out[i]? = some (h, r)
  nr   : s.cl.nread ≤ s.down.out.length
  ex1  : (s.execs.map (·.idx)).Pairwise (· < ·)
  ex2  : ∀ e ∈ s.execs, e.idx < s.sv.calls.length
  hd   : ∀ (i : Nat) (r a : Bytes), s.sv.calls[i]? = some (r, a) → Handled sv s.execs i r a
  ex3  : ∀ e ∈ s.execs, ∃ r m ret out resp, s.sv.calls[e.idx]? = some (r, Wire.serializeResponse resp) ∧
           serve sv m e.idx ret out r = .executed e resp

theorem good_init (n : Nat) : Good sv ask (init n) where
  ci := Service.Client.inv_init n
  cf := by intro h; exact absurd h (by simp [init, Service.Client.init])
  w := ⟨by simp [init, Service.Client.init], Or.inl rfl⟩
  upLe := Nat.zero_le _
  up := ⟨⟨[], [], [], rfl, rfl, .idle _, rfl⟩⟩
  dnLe := Nat.zero_le _
  dn := ⟨⟨[], [], [], rfl, rfl, .idle _, rfl⟩⟩
  si := ⟨rfl, rfl, rfl, rfl⟩
  rcv := by intro i r h; simp [init] at h
  nr := Nat.le_refl _
  ex1 := List.Pairwise.nil
  ex2 := by intro e h; cases h
  hd := by intro i r a h; simp [init] at h
  ex3 := by intro e h; cases h

theorem wf_msg (v t : UInt8) (p : Bytes) (h : p.length < 2 ^ 32) : (Service.mkMsg v t p).WF := by
  refine ⟨?_, ?_, h⟩ <;> simp [Service.mkMsg]

theorem take_mono {a b : Bytes} {n : Nat} (h : n ≤ a.length) : (a ++ b).take n = a.take n := by
  rw [List.take_append_of_le_length h]

/-- A step of the client session. -/
theorem good_client {s : Sys} (g : Good sv ask s) (a : Service.Client.Step)
    (hn : (Service.Client.step s.cl a).nread ≤ s.down.out.length) :
    Good sv ask (clientTo s (Service.Client.step s.cl a)) := by
  have hmsgs : upMsgs ask (clientTo s (Service.Client.step s.cl a)) =
      upMsgs ask s ++ (begun s.cl (Service.Client.step s.cl a)).map (fun c => requestMsg (ask c)) := by
    simp [upMsgs, clientTo]
  have hb : upBytes ask (clientTo s (Service.Client.step s.cl a)) = upBytes ask s ++
      Service.stream ((begun s.cl (Service.Client.step s.cl a)).map (fun c => requestMsg (ask c))) := by
    rw [upBytes_eq, hmsgs, Service.stream_append, upBytes_eq]
  exact {
    ci := Service.Client.inv_step g.ci g.cf a
    cf := Service.Client.flush_step g.ci g.cf a
    w := winv_step g.ci a g.w
    upLe := by
      rw [hb, List.length_append]
      exact Nat.le_trans g.upLe (Nat.le_add_right _ _)
    up := by
      rw [hb, hmsgs]
      show Service.Inv _ s.up (List.take s.upGone _)
      rw [take_mono g.upLe]
      exact g.up.mono _
    dnLe := g.dnLe, dn := g.dn, si := g.si, rcv := g.rcv, nr := hn, ex1 := g.ex1, ex2 := g.ex2
    hd := g.hd, ex3 := g.ex3 }

theorem good_stepClient {s : Sys} (g : Good sv ask s) (a : Service.Client.Step) :
    Good sv ask (stepClient s a) := by
  have other : ∀ a, (∀ k rt, a = .flightDone k true rt → reading s.cl k = false) →
      Good sv ask (clientTo s (Service.Client.step s.cl a)) := by
    intro a ha
    refine good_client g a ?_
    rcases nread_step (st := s.cl) a with h | ⟨k, rt, h1, h2, _⟩
    · rw [h]; exact g.nr
    · rw [ha k rt h1] at h2; cases h2
  unfold stepClient
  split
  · next k rt =>
    split
    · next hr =>
      split
      · exact g
      · next h p hout =>
        refine good_client g _ ?_
        have hlt := (List.getElem?_eq_some_iff.1 hout).1
        rcases nread_step (st := s.cl) (.flightDone k true (Service.messageType h == 4)) with h | ⟨_, _, _, _, h⟩
        · rw [h]; exact g.nr
        · rw [h]; exact hlt
    · next hr =>
      refine other _ ?_
      intro k' rt' he
      cases he
      simpa using hr
  · next a hne =>
    exact other _ (fun k rt he => absurd he (hne k rt))

/-- Steps of the server session that call no handler. -/
theorem good_server {s : Sys} (g : Good sv ask s) (a : Service.Server.V1.Step Bytes Bytes)
    (hc : (Service.Server.V1.step s.sv a).calls = s.sv.calls)
    (hr : ∀ (i : Nat) (r : Bytes), (Service.Server.V1.step s.sv a).received[i]? = some r → ∃ h, s.up.out[i]? = some (h, r)) :
    Good sv ask { s with sv := Service.Server.V1.step s.sv a } := by
  have hm : downMsgs { s with sv := Service.Server.V1.step s.sv a } = downMsgs s := by
    simp only [downMsgs, hc]
  have hb : downBytes { s with sv := Service.Server.V1.step s.sv a } = downBytes s := by
    rw [downBytes_eq, hm, downBytes_eq]
  exact {
    ci := g.ci, cf := g.cf, w := g.w, upLe := g.upLe, up := g.up
    dnLe := by rw [hb]; exact g.dnLe
    dn := by rw [hb, hm]; exact g.dn
    si := Service.Server.V1.inv_step g.si a
    rcv := hr
    nr := g.nr, ex1 := g.ex1
    ex2 := by simp only [hc]; exact g.ex2
    hd := by simp only [hc]; exact g.hd
    ex3 := by simp only [hc]; exact g.ex3 }

theorem good_stepServer {s : Sys} (g : Good sv ask s) (a : Service.Server.V1.Step Bytes Bytes) :
    Good sv ask (stepServer s a) := by
  have key : (∀ r, a ≠ .request r) → (∀ r, a ≠ .runHandler r) → a ≠ .wrongType →
      (Service.Server.V1.step s.sv a).calls = s.sv.calls ∧ (Service.Server.V1.step s.sv a).received = s.sv.received := by
    intro h1 h2 h3
    cases a with
    | request r => exact absurd rfl (h1 r)
    | runHandler r => exact absurd rfl (h2 r)
    | wrongType => exact absurd rfl h3
    | hsReceived ok => simp only [Service.Server.V1.step]; split <;> (try split) <;> simp [Service.Server.V1.fail]
    | hsSent ok => simp only [Service.Server.V1.step]; split <;> (try split) <;> simp [Service.Server.V1.fail]
    | receiveError => simp only [Service.Server.V1.step]; split <;> (try split) <;> simp [Service.Server.V1.fail]
    | sent ok => simp only [Service.Server.V1.step]; split <;> (try split) <;> simp [Service.Server.V1.fail]
    | stop => simp [Service.Server.V1.step]
  unfold stepServer
  split
  · exact g
  · exact g
  · exact g
  · next h1 h2 h3 =>
    split
    · exact g
    · have := key h1 h3 h2
      refine good_server g a this.1 ?_
      rw [this.2]; exact g.rcv

theorem good_take {s : Sys} (g : Good sv ask s) : Good sv ask (stepTake s) := by
  unfold stepTake
  split
  · exact g
  · split
    · exact g
    · next h p hout =>
      have hcalls : ∀ a : Service.Server.V1.Step Bytes Bytes, (a = .request p ∨ a = .wrongType) → (Service.Server.V1.step s.sv a).calls = s.sv.calls ∧
          ((Service.Server.V1.step s.sv a).received = s.sv.received ∨ (Service.Server.V1.step s.sv a).received = s.sv.received ++ [p]) := by
        intro a ha
        rcases ha with rfl | rfl <;> simp only [Service.Server.V1.step] <;> split <;> (try split) <;> simp [Service.Server.V1.fail]
      have ha : (if Service.messageType h == 3 then (.request p : Service.Server.V1.Step Bytes Bytes) else .wrongType) = .request p ∨
          (if Service.messageType h == 3 then (.request p : Service.Server.V1.Step Bytes Bytes) else .wrongType) = .wrongType := by
        split
        · exact Or.inl rfl
        · exact Or.inr rfl
      obtain ⟨h1, h2⟩ := hcalls _ ha
      refine good_server g _ h1 ?_
      rcases h2 with h2 | h2
      · rw [h2]; exact g.rcv
      · rw [h2]
        intro i r hi
        by_cases hlt : i < s.sv.received.length
        · rw [List.getElem?_append_left hlt] at hi
          exact g.rcv i r hi
        · rw [List.getElem?_append_right (by omega)] at hi
          have h0 : i - s.sv.received.length = 0 := by
            have := (List.getElem?_eq_some_iff.1 hi).1
            simp at this; omega
          rw [h0] at hi
          simp at hi
          subst hi
          have : i = s.sv.received.length := by omega
          subst this
          exact ⟨h, hout⟩

/-- The index of an execution is the number of its request. -/
theorem serve_idx {m : AMap Bytes Method} {i : Nat} {ret : BitVec 32} {out bs : Bytes} {e : Exec}
    {r : Wire.Response} (h : serve sv m i ret out bs = .executed e r) : e.idx = i := by
  unfold serve at h
  split at h
  · cases h
  · split at h
    · cases h
    · split at h
      · cases h; rfl
      · cases h

/-- The handler ran and answered. -/
theorem good_answer {s : Sys} (g : Good sv ask s) {bs a : Bytes} {ex : List Exec}
    (hp : s.sv.phase = .dispatch bs)
    (hh : Handled sv (s.execs ++ ex) s.sv.calls.length bs a)
    (hex : ex = [] ∨ ∃ e, ex = [e] ∧ e.idx = s.sv.calls.length ∧ ∃ m ret out resp,
      serve sv m e.idx ret out bs = .executed e resp ∧ a = Wire.serializeResponse resp) :
    Good sv ask { s with sv := Service.Server.V1.step s.sv (.runHandler a), execs := s.execs ++ ex } := by
  have hsv : Service.Server.V1.step s.sv (.runHandler a) =
      { s.sv with phase := .send bs a, calls := s.sv.calls ++ [(bs, a)] } := by
    simp only [Service.Server.V1.step, hp]
  have hm : downMsgs { s with sv := Service.Server.V1.step s.sv (.runHandler a), execs := s.execs ++ ex } =
      downMsgs s ++ [responseMsg a] := by
    simp [downMsgs, hsv]
  have hb : downBytes { s with sv := Service.Server.V1.step s.sv (.runHandler a), execs := s.execs ++ ex } =
      downBytes s ++ Service.stream [responseMsg a] := by
    rw [downBytes_eq, hm, Service.stream_append, downBytes_eq]
  have hlast : ∀ (i : Nat) (r b : Bytes), (s.sv.calls ++ [(bs, a)])[i]? = some (r, b) →
      s.sv.calls[i]? = some (r, b) ∧ i < s.sv.calls.length ∨ i = s.sv.calls.length ∧ r = bs ∧ b = a := by
    intro i r b hi
    by_cases hlt : i < s.sv.calls.length
    · rw [List.getElem?_append_left hlt] at hi
      exact Or.inl ⟨hi, hlt⟩
    · rw [List.getElem?_append_right (by omega)] at hi
      have h0 : i - s.sv.calls.length = 0 := by
        have := (List.getElem?_eq_some_iff.1 hi).1
        simp at this; omega
      rw [h0] at hi
      simp at hi
      exact Or.inr ⟨by omega, hi.1.symm, hi.2.symm⟩
  exact {
    ci := g.ci, cf := g.cf, w := g.w, upLe := g.upLe, up := g.up
    dnLe := by
      rw [hb, List.length_append]
      exact Nat.le_trans g.dnLe (Nat.le_add_right _ _)
    dn := by
      rw [hb, hm]
      show Service.Inv _ s.down (List.take s.downGone _)
      rw [take_mono g.dnLe]
      exact g.dn.mono _
    si := Service.Server.V1.inv_step g.si _
    rcv := by simp only [hsv]; exact g.rcv
    nr := g.nr
    ex1 := by
      show (List.map (·.idx) (s.execs ++ ex)).Pairwise (· < ·)
      rcases hex with rfl | ⟨e, rfl, he, _⟩
      · simpa using g.ex1
      · rw [List.map_append, List.pairwise_append]
        refine ⟨g.ex1, by simp, ?_⟩
        intro x hx y hy
        obtain ⟨e', he', rfl⟩ := List.mem_map.1 hx
        simp at hy
        subst hy
        rw [he]
        exact g.ex2 e' he'
    ex2 := by
      intro e he
      simp only [hsv, List.length_append, List.length_singleton]
      rcases List.mem_append.1 he with h | h
      · have := g.ex2 e h; omega
      · rcases hex with rfl | ⟨e', rfl, he', _⟩
        · cases h
        · simp at h; subst h; omega
    hd := by
      simp only [hsv]
      intro i r b hi
      rcases hlast i r b hi with ⟨h1, h2⟩ | ⟨rfl, rfl, rfl⟩
      · rcases g.hd i r b h1 with ⟨m, ret, out, resp, h3, h4, h5⟩ | ⟨m, ret, out, e, resp, h3, h4, h5⟩
        · refine Or.inl ⟨m, ret, out, resp, h3, h4, ?_⟩
          intro e he
          rcases List.mem_append.1 he with h | h
          · exact h5 e h
          · rcases hex with rfl | ⟨e', rfl, he', _⟩
            · cases h
            · simp at h; subst h; omega
        · exact Or.inr ⟨m, ret, out, e, resp, h3, h4, List.mem_append_left _ h5⟩
      · exact hh
    ex3 := by
      simp only [hsv]
      intro e he
      rcases List.mem_append.1 he with h | h
      · obtain ⟨r, m, ret, out, resp, h1, h2⟩ := g.ex3 e h
        refine ⟨r, m, ret, out, resp, ?_, h2⟩
        rw [List.getElem?_append_left (g.ex2 e h)]
        exact h1
      · rcases hex with rfl | ⟨e', rfl, he', m, ret, out, resp, h1, h2⟩
        · cases h
        · simp at h; subst h
          refine ⟨bs, m, ret, out, resp, ?_, h1⟩
          rw [he', List.getElem?_append_right (Nat.le_refl _), h2]
          simp }

theorem good_handle {s : Sys} (g : Good sv ask s) (ret : BitVec 32) (out : Bytes) :
    Good sv ask (stepHandle sv s ret out) := by
  unfold stepHandle
  split
  · exact g
  · split
    · next bs hp =>
      split
      · exact { g with }
      · next r hr =>
        have := good_answer g (bs := bs) (a := Wire.serializeResponse r) (ex := []) hp
          (Or.inl ⟨s.methods, ret, out, r, hr, rfl, by
            intro e he; rw [List.append_nil] at he; have := g.ex2 e he; omega⟩) (Or.inl rfl)
        simpa using this
      · next e r hr =>
        have hi := serve_idx hr
        exact good_answer g hp (Or.inr ⟨s.methods, ret, out, e, r, hr, rfl, by simp⟩)
          (Or.inr ⟨e, rfl, hi, s.methods, ret, out, r, by rw [hi]; exact hr, rfl⟩)
    · next hp =>
      have : (Service.Server.V1.step s.sv (.runHandler [])).calls = s.sv.calls ∧
          (Service.Server.V1.step s.sv (.runHandler [])).received = s.sv.received := by
        simp only [Service.Server.V1.step]
        split
        · next r h => exact absurd h (hp r)
        · exact ⟨rfl, rfl⟩
        · exact ⟨rfl, rfl⟩
      refine good_server g _ this.1 ?_
      rw [this.2]; exact g.rcv

/-- A step of the receiving end of the server that adds nothing to what has arrived. -/
theorem good_up {s : Sys} (g : Good sv ask s) {u : Rx} {n : Nat}
    (hn : n ≤ (upBytes ask s).length) (hi : Service.Inv (upMsgs ask s) u ((upBytes ask s).take n))
    (hm : s.up.out <+: u.out) : Good sv ask { s with up := u, upGone := n } :=
  { ci := g.ci, cf := g.cf, w := g.w, upLe := hn, up := hi, dnLe := g.dnLe, dn := g.dn, si := g.si
    rcv := by
      intro i r h
      obtain ⟨hh, h2⟩ := g.rcv i r h
      obtain ⟨t, ht⟩ := hm
      refine ⟨hh, ?_⟩
      show u.out[i]? = _
      rw [← ht, List.getElem?_append_left (List.getElem?_eq_some_iff.1 h2).1]
      exact h2
    nr := g.nr, ex1 := g.ex1, ex2 := g.ex2, hd := g.hd, ex3 := g.ex3 }

theorem good_down {s : Sys} (g : Good sv ask s) {u : Rx} {n : Nat}
    (hn : n ≤ (downBytes s).length) (hi : Service.Inv (downMsgs s) u ((downBytes s).take n))
    (hm : s.down.out <+: u.out) : Good sv ask { s with down := u, downGone := n } :=
  { ci := g.ci, cf := g.cf, w := g.w, upLe := g.upLe, up := g.up, dnLe := hn, dn := hi, si := g.si
    rcv := g.rcv
    nr := Nat.le_trans g.nr hm.length_le, ex1 := g.ex1, ex2 := g.ex2, hd := g.hd, ex3 := g.ex3 }

theorem take_min (b : Bytes) (g n : Nat) : b.take (min (g + n) b.length) = b.take g ++ (b.drop g).take n := by
  rw [← List.take_add]
  by_cases h : g + n ≤ b.length
  · rw [Nat.min_eq_left h]
  · rw [Nat.min_eq_right (by omega), List.take_length, List.take_of_length_le (by omega)]

theorem good_step {s : Sys} (g : Good sv ask s) (hq : ∀ c, (payload (ask c)).length < 2 ^ 32)
    (hs : Small s) (a : Step) : Good sv ask (step sv ask s a) := by
  have hwu : ∀ m ∈ upMsgs ask s, m.WF := by
    intro m hm
    obtain ⟨c, _, rfl⟩ := List.mem_map.1 hm
    exact wf_msg _ _ _ (hq c)
  have hwd : ∀ m ∈ downMsgs s, m.WF := by
    intro m hm
    obtain ⟨p, hp, rfl⟩ := List.mem_map.1 hm
    exact wf_msg _ _ _ (hs p hp)
  cases a with
  | client a => exact good_stepClient g a
  | server a => exact good_stepServer g a
  | take => exact good_take g
  | handle ret out => exact good_handle g ret out
  | methods m => exact { g with }
  | netUp n =>
    refine good_up g (Nat.min_le_right _ _) ?_ (Service.out_mono _ _)
    rw [take_min]
    exact g.up.arrive _
  | netDown n =>
    refine good_down g (Nat.min_le_right _ _) ?_ (Service.out_mono _ _)
    rw [take_min]
    exact g.dn.arrive _
  | svReceive =>
    simp only [step]
    split
    · exact good_up g (n := s.upGone) g.upLe g.up.receive (Service.out_mono _ _)
    · exact g
  | svRead n =>
    exact good_up g (n := s.upGone) g.upLe
      (Service.read_inv _ hwu _ _ ((upBytes ask s).drop s.upGone) n (List.take_append_drop _ _) g.up)
      (Service.out_mono _ _)
  | clReceive =>
    simp only [step]
    split
    · exact good_down g (n := s.downGone) g.dnLe g.dn.receive (Service.out_mono _ _)
    · exact g
  | clRead n =>
    exact good_down g (n := s.downGone) g.dnLe
      (Service.read_inv _ hwd _ _ ((downBytes s).drop s.downGone) n (List.take_append_drop _ _) g.dn)
      (Service.out_mono _ _)

/-- The calls of the handler are never forgotten. -/
theorem calls_mono (s : Sys) (a : Step) : s.sv.calls <+: (step sv ask s a).sv.calls := by
  have hsv : ∀ (x : Service.Server.V1.State Bytes Bytes) a,
      x.calls <+: (Service.Server.V1.step x a).calls := by
    intro x a
    cases a <;> simp only [Service.Server.V1.step] <;> (try split) <;> (try split) <;>
      simp [Service.Server.V1.fail]
  cases a with
  | client a =>
    simp only [step, stepClient]
    split
    · split
      · split <;> exact List.prefix_refl _
      · exact List.prefix_refl _
    · exact List.prefix_refl _
  | server a =>
    simp only [step, stepServer]
    split <;> (try split) <;> first | exact List.prefix_refl _ | exact hsv _ _
  | take =>
    simp only [step, stepTake]
    split <;> (try split) <;> first | exact List.prefix_refl _ | exact hsv _ _
  | handle ret out =>
    simp only [step, stepHandle]
    split
    · exact List.prefix_refl _
    · split
      · split
        · exact List.prefix_refl _
        · exact hsv _ _
        · exact hsv _ _
      · exact hsv _ _
  | methods m => exact List.prefix_refl _
  | netUp n => exact List.prefix_refl _
  | netDown n => exact List.prefix_refl _
  | svReceive => simp only [step]; split <;> exact List.prefix_refl _
  | svRead n => exact List.prefix_refl _
  | clReceive => simp only [step]; split <;> exact List.prefix_refl _
  | clRead n => exact List.prefix_refl _

theorem calls_mono_run (s : Sys) (l : List Step) : s.sv.calls <+: (run sv ask s l).sv.calls := by
  induction l generalizing s with
  | nil => exact List.prefix_refl _
  | cons a l ih => exact (calls_mono s a).trans (ih _)

theorem good_run {s : Sys} (g : Good sv ask s) (hq : ∀ c, (payload (ask c)).length < 2 ^ 32)
    (l : List Step) (hs : Small (run sv ask s l)) : Good sv ask (run sv ask s l) := by
  induction l generalizing s with
  | nil => exact g
  | cons a l ih =>
    refine ih (good_step g hq ?_ a) hs
    intro p hp
    exact hs p ((calls_mono_run s (a :: l)).subset hp)

end Ecal.E2E.Call
