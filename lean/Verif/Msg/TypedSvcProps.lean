import Verif.Msg.TypedSvcLemmas

/-!
# C116: typed servers and clients — the objects

What requests may meet while the application creates, destroys or deletes a typed server, and what the
answers of the callbacks mean in histories of any kind.
-/

namespace Ecal.Msg.TypedSvc

variable {Ty M : Type}

/-- Every step of the history is quiet: no call of the application overlaps with a request. -/
def AllQuiet (c : Codec Ty M) (ms : List (MDesc Ty)) : State Ty M → List (Step M) → Prop
  | _, [] => True
  | s, op :: h => Quiet s op ∧ AllQuiet c ms (step c ms s op) h

/-- **C116 (typed servers are safe when calls do not overlap with requests), partial.**  In every history
of creations (any number of them), destructions, deletion and requests in any number of threads — requests
may overlap with each other — in which no call of the application on the server overlaps with a request,
no callback uses a destroyed server, a null service or a missing function, and nothing races.

Missing: overlapping calls and requests (`C116_violated_…`). -/
theorem C116_quiet_is_safe_partial (c : Codec Ty M) (ms : List (MDesc Ty)) (n : Nat) (h : List (Step M))
    (hq : AllQuiet c ms (init n) h) : (run c ms (init n) h).ub = none := by
  suffices hh : ∀ (h : List (Step M)) (s : State Ty M), Inv1 s → AllQuiet c ms s h → Inv1 (run c ms s h) from
    (hh h _ (inv_init n) hq).ub
  intro h
  induction h with
  | nil => intro s g _; exact g
  | cons a h ih => intro s g hq; exact ih _ (inv_step c ms g a hq.1) hq.2

/-- **C116 (what an answer of a typed server means).**  In histories of any kind, a request answered with
0 led to a call of the method it names, with the message its payload parses to as that method's input
type, and the response is the serialisation of the message the method made; all other answers are -1 with
an empty response. -/
theorem C116_server_answer (c : Codec Ty M) (ms : List (MDesc Ty)) (n : Nat) (h : List (Step M)) (m bs : Bytes)
    (ret : Int) (out : Bytes) (ha : Rx.answered m bs ret out ∈ (run c ms (init n) h).rx) :
    (ret = -1 ∧ out = []) ∨
    (ret = 0 ∧ ∃ v ∈ (run c ms (init n) h).log, v.method = m ∧ out = c.asString v.resp ∧
      ∃ d ∈ ms, d.name = m ∧ c.parse d.inTy bs = some v.req) := by
  suffices hh : ∀ (h : List (Step M)) (s : State Ty M), Inv2 c ms s → Inv2 c ms (run c ms s h) from
    (hh h _ (inv2_init c ms n)).ans m bs ret out ha
  intro h
  induction h with
  | nil => intro s g; exact g
  | cons a h ih => intro s g; exact ih _ (inv2_step c ms g a)

/-- **C116 (the deprecated call), partial.**  If a single server was addressed and answered "executed" with
a response that parses to a message, the deprecated call returns true and exactly this message.

Missing: several servers, responses that do not parse (`C116_violated_deprecated_…`). -/
theorem C116_deprecated_call_partial (c : Codec Ty M) (ty : Ty) (r : Resp) (old m : M) (mangle : Bytes → M)
    (hx : r.state = .executed) (hp : c.parse ty r.data = some m) :
    deprecated c ty [r] old mangle = (true, some r, m) := by
  simp [deprecated, anyExecuted, hx, hp]

/-- **C116 (a deprecated call that fails leaves the caller's message alone).**  It returns false exactly if
no server executed the call. -/
theorem C116_deprecated_false (c : Codec Ty M) (ty : Ty) (rs : List Resp) (old : M) (mangle : Bytes → M) :
    (deprecated c ty rs old mangle).1 = false ↔ ∀ r ∈ rs, r.state ≠ .executed := by
  unfold deprecated
  constructor
  · intro h r hr he
    have ha : anyExecuted rs = true := by
      simp only [anyExecuted, List.any_eq_true]
      exact ⟨r, hr, by simp [he]⟩
    rw [if_pos ha] at h
    cases rs with
    | nil => cases hr
    | cons x rs =>
      simp only at h
      split at h <;> cases h
  · intro h
    have ha : ¬ anyExecuted rs = true := by
      simp only [anyExecuted, List.any_eq_true, not_exists]
      intro r hr
      simp only [beq_iff_eq] at hr
      exact h r hr.1 hr.2
    rw [if_neg ha]

/-- A false result leaves the message as it was. -/
theorem C116_deprecated_untouched (c : Codec Ty M) (ty : Ty) (rs : List Resp) (old : M) (mangle : Bytes → M)
    (h : (deprecated c ty rs old mangle).1 = false) : (deprecated c ty rs old mangle).2.2 = old := by
  unfold deprecated at h ⊢
  split at h
  · split at h
    · rfl
    · split at h <;> cases h
  · rename_i hn
    rw [if_neg hn]

/-! ## Concrete cases -/

/-- Messages are byte strings, on the wire they follow a byte 1; the message `[0]` cannot be serialised. -/
def codec0 : Codec Unit (List UInt8) where
  ser m := if m = [0] then none else some (1 :: m)
  parse _ bs := match bs with
    | b :: r => if b = 1 then some r else none
    | [] => none

def ms0 : List (MDesc Unit) := [⟨[109], (), ()⟩, ⟨[110], (), ()⟩]

def run0 (h : List (Step (List UInt8))) : State Unit (List UInt8) := run codec0 ms0 (init 2) h

/-- A service that is created, called twice at the same time, replaced, called and deleted. -/
def quiet0 : List (Step (List UInt8)) :=
  whole ms0 (.create (some 1)) ++
  [.arrive 0 [109] [1, 5], .arrive 1 [110] [2], .rx 0 [7], .rx 1 [8], .rx 0 [7], .rx 1 [8], .rx 0 [7], .rx 1 [8]] ++
  [.next 0, .next 1] ++ whole ms0 (.create (some 2)) ++ request 0 [110] [1, 6] [9] ++ whole ms0 .delete ++
  [.arrive 1 [110] [1]]

instance (s : State Ty M) (op : Step M) [DecidableEq Ty] [DecidableEq M] : Decidable (Quiet s op) := by
  cases op <;> unfold Quiet <;> infer_instance

instance decQuiet [DecidableEq Ty] [DecidableEq M] (c : Codec Ty M) (ms : List (MDesc Ty)) :
    (s : State Ty M) → (h : List (Step M)) → Decidable (AllQuiet c ms s h)
  | _, [] => .isTrue trivial
  | s, op :: h => by
    unfold AllQuiet
    exact @instDecidableAnd _ _ inferInstance (decQuiet c ms _ h)

example : AllQuiet codec0 ms0 (init 2) quiet0 := by decide +kernel

example : (run0 quiet0).log = [⟨1, [109], [5], [7]⟩, ⟨2, [110], [6], [9]⟩] ∧
    (run0 quiet0).rx = [.answered [110] [1, 6] 0 [1, 9], .unknown [110]] ∧ (run0 quiet0).alive = false := by
  decide +kernel

/-- **C116, violation: a request during `Create` terminates the server.**  A method is announced with an
empty function before its callback is set; a request in between calls the empty function. -/
theorem C116_violated_early_request : ∃ h : List (Step (List UInt8)),
    (run0 h).ub = some .badFunction ∧ ∀ op ∈ h, op = .api (.create (some 1)) ∨ op = .app ∨ op = .arrive 0 [109] [1] :=
  ⟨.api (.create (some 1)) :: (List.replicate 4 .app ++ [.arrive 0 [109] [1]]), by decide +kernel, by decide +kernel⟩

/-- **C116, violation: a request during `Create` races.**  The first method can already be called while
`Create` still enters the others into the table the callback reads. -/
theorem C116_violated_create_race :
    (run0 (.api (.create (some 1)) :: (List.replicate 5 .app ++ [.arrive 0 [109] [1], .app]))).ub = some .race := by
  decide +kernel

/-- **C116, violation: `Destroy` races with a running request.** -/
theorem C116_violated_destroy_race :
    (run0 (whole ms0 (.create (some 1)) ++ [.arrive 0 [109] [1], .rx 0 [], .api .destroy, .app])).ub = some .race := by
  decide +kernel

/-- **C116, violation: a callback on a destroyed server.**  The destructor of the typed part has finished,
the base part still accepts requests and calls back into the destroyed part. -/
theorem C116_violated_destroyed_object :
    (run0 (whole ms0 (.create (some 1)) ++ [.api .delete, .app, .app, .arrive 0 [109] [1], .rx 0 []])).ub =
      some .useAfterFree := by
  decide +kernel

/-- **C116, violation: a callback on a destroyed server, after the destructors.**  A request that looked its
method up before the method table was cleared runs its callback when the object is gone altogether. -/
theorem C116_violated_late_callback :
    (run0 (whole ms0 (.create (some 1)) ++
      [.api .delete, .app, .app, .arrive 0 [109] [1], .app, .app, .rx 0 []])).ub = some .useAfterFree := by
  decide +kernel

/-- **C116, violation: `Destroy` destroys nothing.**  It returns true, but the server is still there,
with all its methods, and answers requests with -1. -/
theorem C116_violated_destroy_keeps_server :
    (run0 (whole ms0 (.create (some 1)) ++ whole ms0 .destroy)).rets = [true, true] ∧
    (run0 (whole ms0 (.create (some 1)) ++ whole ms0 .destroy)).created = true ∧
    (run0 (whole ms0 (.create (some 1)) ++ whole ms0 .destroy ++ request 0 [109] [1, 5] [7])).rx =
      [.answered [109] [1, 5] (-1) [], .idle] := by
  decide +kernel

/-- **C116, violation: `Create` on a server that exists returns true.**  The untyped creation is refused,
but the typed one reports success — and replaces the service behind the old name. -/
theorem C116_violated_second_create :
    (run0 (whole ms0 (.create (some 1)) ++ whole ms0 (.create (some 2)))).rets = [true, true] ∧
    (run0 (whole ms0 (.create (some 1)) ++ whole ms0 (.create (some 2)) ++ request 0 [109] [1, 5] [7])).log =
      [⟨2, [109], [5], [7]⟩] := by
  decide +kernel

/-- **C116, violation: a deprecated call succeeds with the failure of another server.**  One of two servers
executed the call, the other did not: the caller gets true and the response of the one that failed. -/
theorem C116_violated_deprecated_wrong_server :
    deprecated codec0 () [⟨[97], .failed, 0, []⟩, ⟨[98], .executed, 0, [1, 7]⟩] [] (fun _ => []) =
      (true, some ⟨[97], .failed, 0, []⟩, []) := by
  decide +kernel

/-- **C116, violation: a deprecated call succeeds without a response.**  The response cannot be parsed; the
caller gets true and whatever the parser left behind. -/
theorem C116_violated_deprecated_unparsed :
    (deprecated codec0 () [⟨[97], .executed, -1, []⟩] [5] (fun _ => [])).1 = true ∧
    codec0.parse () [] = none := by
  decide +kernel

/-- **C116, violation: the host of a deprecated call stays.**  The call sets the host filter of the client,
so that later calls without a host go to this host only. -/
theorem C116_violated_sticky_host :
    addressed (setHost [97]) [[97], [98]] = [[97]] ∧ addressed (setHost [42]) [[97], [98]] = [[97], [98]] := by
  decide +kernel

end Ecal.Msg.TypedSvc
