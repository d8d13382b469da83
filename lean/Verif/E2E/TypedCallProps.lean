import Verif.E2E.TypedCallLemmas
import Verif.E2E.CallRestProps

/-!
# C116: typed calls — the connection

In every run of a connection between a typed client and a typed server the answer a caller gets is the
message its method made from its request message.
-/

namespace Ecal.E2E.TypedCall

open Ecal.E2E.Call (Sys Ask Server)
open Ecal.Msg.TypedSvc (Codec MDesc)

variable {Ty M : Type} {sv : Server} {ask : Nat → Ask}

/-- **C116 (the typed answer).**  In every run — any calls, failures, segmentations, any creations and
destructions of the typed service, any behaviour of its methods — a call answered by the server ends in
one of three ways.  Either the named method was called exactly once for it, with the message parsed from
the request according to the method's input type, and the caller gets return value 0 and the
serialisation of the message the method made; or no method was called, and the caller gets return value
-1 and an empty response; or no method was called, and the call is reported as failed. -/
theorem C116_typed_answer (c : Codec Ty M) (ms : List (MDesc Ty)) (n : Nat) (h : List (Step M))
    (hq : ∀ k, (Call.payload (ask k)).length < 2 ^ 32) (t : State Ty M)
    (hrun : t = run sv ask c ms (init n) h) (hs : Call.Small t.sys) (k i : Nat)
    (ha : (k, Service.Client.Answer.ok i) ∈ t.sys.cl.answers) (e : Call.SResp) (msg : List UInt8) :
    (∃ v ∈ t.log, v.idx = i ∧ (∀ w ∈ t.log, w.idx = i → w = v) ∧ v.method = (ask k).method ∧
      (∃ d ∈ ms, d.name = (ask k).method ∧ c.parse d.inTy (ask k).request = some v.req) ∧
      (Call.outcome t.sys e msg (.ok i)).state = .executed ∧
      (Call.outcome t.sys e msg (.ok i)).ret = 0 ∧
      (Call.outcome t.sys e msg (.ok i)).data = c.asString v.resp) ∨
    ((∀ w ∈ t.log, w.idx ≠ i) ∧ (Call.outcome t.sys e msg (.ok i)).state = .executed ∧
      (Call.outcome t.sys e msg (.ok i)).ret = -1 ∧ (Call.outcome t.sys e msg (.ok i)).data = []) ∨
    ((∀ w ∈ t.log, w.idx ≠ i) ∧ (Call.outcome t.sys e msg (.ok i)).state = .failed ∧
      (Call.outcome t.sys e msg (.ok i)).data = []) := by
  have g : Good c ms t := by rw [hrun]; exact good_run h (good_init c ms n)
  obtain ⟨l, hl⟩ := run_sys (sv := sv) (ask := ask) c ms h (init n)
  have hl' : t.sys = Call.run sv ask (Call.init n) l := by rw [hrun]; exact hl
  have hpw := (Call.C107_at_most_once n l hq t.sys hl' hs).1
  rcases Call.C107_answer_is_true n l hq t.sys hl' hs k i ha e msg with ⟨x, hx, hi, hm, hr, ho⟩ | ⟨hno, err, ho⟩
  · rw [ho]
    rcases g.exe x hx with ⟨h1, h2⟩ | ⟨h1, v, hv, h2⟩
    · refine Or.inr (Or.inl ⟨?_, rfl, h1, h2⟩)
      intro w hw hwi
      obtain ⟨y, hy, h3, _, h4, _⟩ := g.log w hw
      have : y = x := idx_unique (·.idx) hpw hy hx (by rw [h3, hwi, hi])
      rw [this, h1] at h4
      exact absurd h4 (by decide)
    · obtain ⟨y, hy, h3, h4, h5, h6, d, hd, h7, h8⟩ := g.log v hv
      have hyx : y = x := idx_unique (·.idx) hpw hy hx (by rw [h3, h2])
      subst hyx
      refine Or.inl ⟨v, hv, by rw [h2, hi], ?_, by rw [← h4, hm], ⟨d, hd, by rw [h7, ← h4, hm], by rw [← hr]; exact h8⟩,
        rfl, h1, h6⟩
      have hnd := hpw.sublist g.sub
      intro w hw hwi
      exact idx_unique (·.idx) hnd hw hv (by rw [hwi, h2, hi])
  · rw [ho]
    refine Or.inr (Or.inr ⟨?_, rfl, rfl⟩)
    intro w hw hwi
    obtain ⟨y, hy, h3, _⟩ := g.log w hw
    exact hno y hy (by rw [h3, hwi])

/-- **C116 (the typed answer of a typed client), partial.**  A typed client calls a method `d` of the
service type with a message `m` that survives serialisation.  If it gets return value 0, the method was
called with exactly `m`, once, and — if the message it made survives serialisation — the client parses
exactly that message.

Missing: responses that do not survive serialisation (`C116_violated_lost_response`). -/
theorem C116_typed_call_partial (c : Codec Ty M) (ms : List (MDesc Ty)) (n : Nat) (h : List (Step M))
    (hq : ∀ k, (Call.payload (ask k)).length < 2 ^ 32) (t : State Ty M)
    (hrun : t = run sv ask c ms (init n) h) (hs : Call.Small t.sys) (k i : Nat)
    (ha : (k, Service.Client.Answer.ok i) ∈ t.sys.cl.answers) (e : Call.SResp) (msg : List UInt8)
    (d : MDesc Ty) (hd : d ∈ ms) (hone : ∀ d' ∈ ms, d'.name = d.name → d' = d) (m : M)
    (hask : ask k = { method := d.name, request := c.asString m })
    (hrt : c.parse d.inTy (c.asString m) = some m)
    (hret : (Call.outcome t.sys e msg (.ok i)).state = .executed ∧
      (Call.outcome t.sys e msg (.ok i)).ret = 0) :
    ∃ v ∈ t.log, v.idx = i ∧ (∀ w ∈ t.log, w.idx = i → w = v) ∧ v.method = d.name ∧ v.req = m ∧
      (c.parse d.outTy (c.asString v.resp) = some v.resp →
        c.parse d.outTy (Call.outcome t.sys e msg (.ok i)).data = some v.resp) := by
  rcases C116_typed_answer c ms n h hq t hrun hs k i ha e msg with
    ⟨v, hv, h1, h2, h3, ⟨d', hd', h4, h5⟩, _, _, h6⟩ | ⟨_, _, h1, _⟩ | ⟨_, h1, _⟩
  · rw [hask] at h3 h4 h5
    have := hone d' hd' h4
    subst this
    have h5' : c.parse d'.inTy (c.asString m) = some v.req := h5
    rw [hrt] at h5'
    refine ⟨v, hv, h1, h2, h3, (Option.some.inj h5').symm, ?_⟩
    intro h7; rw [h6]; exact h7
  · rw [h1] at hret; exact absurd hret.2 (by decide)
  · rw [h1] at hret; exact absurd hret.1 (by decide)

/-- **C116 (requests are served).**  A request that has reached a server on which the method is registered
and whose typed service exists and knows the method is handed to the method when its message can be
parsed. -/
theorem C116_request_served (c : Codec Ty M) (ms : List (MDesc Ty)) (t : State Ty M) (resp : M) (a : Ask)
    (hlen : (Call.payload a).length < 2 ^ 32) (hcr : t.sys.crashed = false)
    (hph : t.sys.sv.phase = .dispatch (Call.payload a)) (me : Call.Method)
    (hme : t.sys.methods.find a.method = some me) (hcb : me.callable = true) (inst : Nat) (hsvc : t.svc = some inst)
    (d : MDesc Ty) (hd : t.meths.find a.method = some d) (req : M) (hp : c.parse d.inTy a.request = some req) :
    (step sv ask c ms t (.handle resp)).log =
      t.log ++ [⟨t.sys.sv.calls.length, inst, a.method, req, resp⟩] := by
  have hdes : Wire.deserializeRequest {} (Call.payload a) =
      some { header := { mname := a.method }, request := a.request } := Wire.C29_request_roundtrip _ hlen
  have hcur : current t.sys = some (a.method, a.request) := by
    simp only [current, hph, hdes, Option.map]
  have hpl : planned c t = some (inst, req) := by
    simp only [planned, hcur, accepts, hsvc, hd, hp]
  show (handleStep sv ask c t resp).log = _
  unfold handleStep
  simp only [hpl, answer]
  have hex : (Call.step sv ask t.sys (.handle 0 (c.asString resp))).execs =
      t.sys.execs ++ [⟨t.sys.sv.calls.length, a.method, me.reqType, me.respType, a.request, 0, c.asString resp⟩] := by
    have hne : ¬ t.sys.crashed = true := by rw [hcr]; decide
    simp only [Call.step, Call.stepHandle]
    rw [if_neg hne]
    simp only [hph]
    rw [Call.serve_payload a hlen]
    simp only [hme, hcb, if_true]
  rw [hex]
  simp [invoked]

/-! ## Concrete runs -/

/-- Messages are byte strings, on the wire they follow a byte 1; the message `[0]` cannot be serialised. -/
def codec0 : Codec Unit (List UInt8) where
  ser m := if m = [0] then none else some (1 :: m)
  parse _ bs := match bs with
    | b :: r => if b = 1 then some r else none
    | [] => none

def ms0 : List (MDesc Unit) := [⟨[109], (), ()⟩, ⟨[110], (), ()⟩]

/-- The typed run of a run of the connection in which methods answer `resp`. -/
def lift (resp : List UInt8) (l : List Call.Step) : List (Step (List UInt8)) :=
  l.map (fun a => match a with | .handle _ _ => .handle resp | a => .base a)

def end1 (resp : List UInt8) : State Unit (List UInt8) :=
  run Call.sv0 Call.ask0 codec0 ms0 (init 1) (.create 5 :: lift resp (Call.setup0 ++ Call.call0 ++ Call.call0 ++ [.svReceive]))

/-- The request `[1, 2, 3]` is the message `[2, 3]`; the method answers `[7]`. -/
example : (end1 [7]).sys.cl.answers = [(7, .ok 0), (8, .ok 1)] ∧
    (end1 [7]).log.map (fun v => (v.idx, v.inst, v.method, v.req, v.resp)) = [(0, 5, [109], [2, 3], [7])] ∧
    Call.ask0 7 = { method := [109], request := codec0.asString [2, 3] } ∧
    (Call.outcome (end1 [7]).sys {} [] (.ok 0)).state = .executed ∧
    (Call.outcome (end1 [7]).sys {} [] (.ok 0)).ret = 0 ∧
    codec0.parse () (Call.outcome (end1 [7]).sys {} [] (.ok 0)).data = some [7] ∧ Call.Small (end1 [7]).sys := by
  refine ⟨?_, ?_, ?_, ?_, ?_, ?_, ?_⟩ <;> (try unfold Call.Small) <;> decide +kernel

example : codec0.parse () (codec0.asString [2, 3]) = some [2, 3] ∧
    (∀ d' ∈ ms0, d'.name = [109] → d' = ⟨[109], (), ()⟩) := by decide +kernel

/-- The state in which the request is handled. -/
def mid1 : State Unit (List UInt8) :=
  run Call.sv0 Call.ask0 codec0 ms0 (init 1) (.create 5 :: lift [7] (Call.setup0 ++ Call.call0.take 9))

example : mid1.sys.crashed = false ∧ mid1.sys.sv.phase = .dispatch (Call.payload (Call.ask0 7)) ∧
    mid1.sys.methods.find [109] = some ⟨[], [], true⟩ ∧ mid1.svc = some 5 ∧
    mid1.meths.find [109] = some ⟨[109], (), ()⟩ := by
  refine ⟨?_, ?_, ?_, ?_, ?_⟩ <;> decide +kernel

/-- **C116, violation: a response is lost and the call reported as executed.**  The method was called and
made a message that cannot be serialised; the caller is told "executed" with return value 0 and gets an
empty response. -/
theorem C116_violated_lost_response :
    (end1 [0]).log.map (fun v => (v.idx, v.resp)) = [(0, [0])] ∧
    (Call.outcome (end1 [0]).sys {} [] (.ok 0)).state = .executed ∧
    (Call.outcome (end1 [0]).sys {} [] (.ok 0)).ret = 0 ∧
    (Call.outcome (end1 [0]).sys {} [] (.ok 0)).data = [] := by
  refine ⟨?_, ?_, ?_, ?_⟩ <;> decide +kernel

/-- **C116, violation: a destroyed service goes on answering.**  After `Destroy` of the typed server a call
is still reported as executed (with return value -1), although no method was called. -/
theorem C116_violated_answers_after_destroy :
    ∃ t, t = run Call.sv0 Call.ask0 codec0 ms0 (init 1)
        (.create 5 :: .destroy :: lift [7] (Call.setup0 ++ Call.call0)) ∧
      t.log.length = 0 ∧ (Call.outcome t.sys {} [] (.ok 0)).state = .executed ∧
      (Call.outcome t.sys {} [] (.ok 0)).ret = -1 :=
  ⟨_, rfl, by decide +kernel, by decide +kernel, by decide +kernel⟩

end Ecal.E2E.TypedCall
