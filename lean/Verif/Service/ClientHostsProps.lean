import Verif.Service.ClientSessionLemmas

/-!
# C112: which host of its list a client session ends up with (protocol version 1)

Code: `/repo/ecal/service/ecal_service/src/client_session_impl_v1.cpp` `resolve_endpoint` L104-160,
`connect_to_endpoint` L162-236, handshake L238-365; the model is `Verif.Service.ClientSession`.

The property speaks about what the network answers to each host of the list, in words of its own
(`Outcome`, `answers'`), and about the notification the user gets; calls, answers, flushes and IO
completions happen in between in any order and number.
-/

namespace Ecal.Service.Client

/-- What happens to one host of the list. -/
inductive Outcome where
  | noName          -- its name cannot be resolved
  | noConnection    -- resolved, but no endpoint accepts the connection
  | noSend          -- connected, the handshake cannot be written
  | noReply         -- the reply of the handshake cannot be read
  | refused         -- the reply does not fit
  | accepted
deriving DecidableEq, Repr

/-- The host could not be reached at all. -/
def Outcome.unreachable : Outcome → Bool
  | .noName => true
  | .noConnection => true
  | _ => false

/-- The results of the operations of the set-up, one after the other (success of the operation, and
whether a reply of the handshake is acceptable). -/
def Outcome.results : Outcome → List (Bool × Bool)
  | .noName => [(false, false)]
  | .noConnection => [(true, false), (false, false)]
  | .noSend => [(true, false), (true, false), (false, false)]
  | .noReply => [(true, false), (true, false), (true, false), (false, false)]
  | .refused => [(true, false), (true, false), (true, false), (true, false)]
  | .accepted => [(true, false), (true, false), (true, false), (true, true)]

/-- The results of the set-up operations in a run. -/
def setups : List Step → List (Bool × Bool)
  | [] => []
  | .setupDone ok accept :: l => (ok, accept) :: setups l
  | .call _ :: l => setups l
  | .stop :: l => setups l
  | .runCall :: l => setups l
  | .runFlush :: l => setups l
  | .flightDone _ _ _ :: l => setups l
  | .flightRun _ :: l => setups l
  | .peekDone _ :: l => setups l

/-! ### The set-up seen alone -/

/-- What the set-up does, without the rest of the session. -/
def alone (n : Nat) : Option Setup × Bool → Bool × Bool → Option Setup × Bool
  | (none, e), _ => (none, e)
  | (some (.resolving i), e), (ok, _) =>
    if ok then (some (.connecting i), e)
    else if i + 1 < n then (some (.resolving (i + 1)), e) else (none, e)
  | (some (.connecting i), e), (ok, _) =>
    if ok then (some .hsSending, e)
    else if i + 1 < n then (some (.resolving (i + 1)), e) else (none, e)
  | (some .hsSending, e), (ok, _) => if ok then (some .hsReceiving, e) else (none, e)
  | (some .hsReceiving, e), (ok, accept) => if ok && accept then (none, true) else (none, e)

def core (st : State) : Option Setup × Bool := (st.setup, decide (Event.connected ∈ st.events))

/-- During the handshake the socket is open. -/
def Opened (st : State) : Prop :=
  st.setup = some .hsSending ∨ st.setup = some .hsReceiving → st.isOpen = true

theorem loss_servers (st : State) : (loss st).servers = st.servers ∧ (loss st).setup = st.setup := by
  unfold loss; dsimp only; split <;> exact ⟨rfl, rfl⟩

theorem loss_ever (st : State) : (Event.connected ∈ (loss st).events) = (Event.connected ∈ st.events) := by
  unfold loss; dsimp only; split
  · rfl
  · dsimp only; split <;> simp

theorem next_parts (st : State) : (sendNextOrPeek st).servers = st.servers ∧
    (sendNextOrPeek st).setup = st.setup ∧ (sendNextOrPeek st).events = st.events := by
  unfold sendNextOrPeek startSend; split <;> exact ⟨rfl, rfl, rfl⟩

theorem core_loss (st : State) : core (loss st) = core st := by
  simp only [core, (loss_servers st).2, loss_ever]

theorem setup_parts {n : Nat} {st : State} (hn : st.servers = n) (ho : Opened st) (ok accept : Bool) :
    (stepSetup st ok accept).servers = n ∧ Opened (stepSetup st ok accept) ∧
      core (stepSetup st ok accept) = alone n (core st) (ok, accept) := by
  have hnext : ∀ i, (nextHost st i).servers = n ∧ Opened (nextHost st i) ∧ core (nextHost st i) =
      if i + 1 < n then (some (.resolving (i + 1)), decide (Event.connected ∈ st.events))
      else (none, decide (Event.connected ∈ st.events)) := by
    intro i
    unfold nextHost
    rw [← hn]
    by_cases h : i + 1 < st.servers
    · rw [if_pos h, if_pos h]
      refine ⟨rfl, ?_, rfl⟩
      intro h; rcases h with h | h <;> cases h
    · rw [if_neg h, if_neg h]
      refine ⟨(loss_servers _).1, ?_, (core_loss _).trans rfl⟩
      intro h; rw [(loss_servers _).2] at h; rcases h with h | h <;> cases h
  have hdead : ∀ st' : State, st'.setup = none → Opened st' := by
    intro st' h h'; rw [h] at h'; rcases h' with h' | h' <;> cases h'
  unfold stepSetup
  rcases hs : st.setup with _ | x
  · exact ⟨hn, hdead _ hs, by simp only [core, hs, alone]⟩
  · cases x with
    | resolving i =>
      cases ok with
      | false => obtain ⟨a, b, c⟩ := hnext i; exact ⟨a, b, by simp [core, hs, alone] at c ⊢; exact c⟩
      | true =>
        refine ⟨hn, ?_, by simp [core, hs, alone]⟩
        intro h; rcases h with h | h <;> cases h
    | connecting i =>
      cases ok with
      | false => obtain ⟨a, b, c⟩ := hnext i; exact ⟨a, b, by simp [core, hs, alone] at c ⊢; exact c⟩
      | true => exact ⟨hn, fun _ => rfl, by simp [core, hs, alone]⟩
    | hsSending =>
      have hop := ho (.inl hs)
      cases ok with
      | false =>
        refine ⟨(loss_servers _).1.trans hn, hdead _ ((loss_servers _).2), ?_⟩
        simp only [Bool.false_and]
        exact (core_loss _).trans (by simp [core, hs, alone])
      | true =>
        simp only [hop, Bool.and_self, if_true]
        exact ⟨hn, fun _ => by rfl, by simp [core, hs, alone]⟩
    | hsReceiving =>
      have hop := ho (.inr hs)
      simp only [hop, Bool.and_true]
      by_cases h : (ok && accept) = true
      · simp only [h, if_true]
        obtain ⟨h1, h2, h3⟩ := next_parts
          { st with setup := none, net := .connected, isOpen := true,
                    events := st.events ++ [.connected] }
        refine ⟨h1.trans hn, hdead _ h2, ?_⟩
        simp only [core, h2, h3, hs, alone, h, if_true]
        simp
      · simp only [h]
        refine ⟨(loss_servers _).1.trans hn, hdead _ ((loss_servers _).2), ?_⟩
        refine (core_loss _).trans ?_
        simp only [core, hs, alone, h]
        rfl

theorem other_parts {n : Nat} {st : State} (hi : Inv st) (hn : st.servers = n) (ho : Opened st)
    (a : Step) (h1 : a ≠ .stop) (h2 : ∀ ok accept, a ≠ .setupDone ok accept) :
    (step st a).servers = n ∧ Opened (step st a) ∧ core (step st a) = core st := by
  have hkeep : ∀ st' : State, st'.servers = st.servers → st'.setup = st.setup →
      st'.isOpen = st.isOpen → st'.events = st.events →
      st'.servers = n ∧ Opened st' ∧ core st' = core st := by
    intro st' a b c d
    refine ⟨a.trans hn, ?_, by simp only [core, b, d]⟩
    intro h; rw [b] at h; rw [c]; exact ho h
  have hnone : st.setup = none → ∀ st' : State, st'.servers = st.servers → st'.setup = st.setup →
      ((Event.connected ∈ st'.events) = (Event.connected ∈ st.events)) →
      st'.servers = n ∧ Opened st' ∧ core st' = core st := by
    intro hs st' a b d
    refine ⟨a.trans hn, ?_, by simp only [core, b, d]⟩
    intro h; rw [b, hs] at h; rcases h with h | h <;> cases h
  have hfl : ∀ x : Nat × Phase, x ∈ st.flight → st.setup = none := by
    intro x hx
    cases hs : st.setup with
    | none => rfl
    | some y =>
      have := (hi.setupS (by rw [hs]; exact nofun)).1
      rw [this] at hx; exact absurd hx List.not_mem_nil
  cases a with
  | stop => exact absurd rfl h1
  | setupDone ok accept => exact absurd rfl (h2 ok accept)
  | call c =>
    unfold step stepCall; dsimp only
    split
    · exact hkeep _ rfl rfl rfl rfl
    · exact hkeep _ rfl rfl rfl rfl
  | runCall =>
    unfold step stepRunCall startSend; dsimp only
    split
    · exact hkeep _ rfl rfl rfl rfl
    · split
      · exact hkeep _ rfl rfl rfl rfl
      · split <;> exact hkeep _ rfl rfl rfl rfl
  | runFlush =>
    unfold step stepRunFlush; dsimp only
    split
    · exact hkeep _ rfl rfl rfl rfl
    · split <;> exact hkeep _ rfl rfl rfl rfl
  | flightDone k ok r =>
    unfold step stepFlightDone setPhase; dsimp only
    split
    · split <;> exact hkeep _ rfl rfl rfl rfl
    · split
      · split <;> exact hkeep _ rfl rfl rfl rfl
      · exact hkeep _ rfl rfl rfl rfl
    · exact hkeep _ rfl rfl rfl rfl
  | flightRun k =>
    have hcase : ∀ x, st.flight[k]? = some x → st.setup = none :=
      fun x hx => hfl x (List.mem_of_getElem? hx)
    unfold step stepFlightRun; dsimp only
    split
    · rename_i hx
      refine hnone (hcase _ hx) _ (loss_servers _).1 (loss_servers _).2 (loss_ever _)
    · rename_i hx
      refine hnone (hcase _ hx) _ (loss_servers _).1 (loss_servers _).2 (loss_ever _)
    · rename_i hx
      obtain ⟨p1, p2, p3⟩ := next_parts
        { st with flight := st.flight.eraseIdx k, answers := st.answers ++ [(_, .ok _)] }
      exact hnone (hcase _ hx) _ p1 p2 (by rw [p3])
    · exact hkeep _ rfl rfl rfl rfl
  | peekDone ok =>
    unfold step stepPeek; dsimp only
    split
    · exact hkeep _ rfl rfl rfl rfl
    · rename_i m hm
      have hs : st.setup = none := by
        cases hs : st.setup with
        | none => rfl
        | some y =>
          have := (hi.setupS (by rw [hs]; exact nofun)).2.1
          omega
      split
      · exact hkeep _ rfl rfl rfl rfl
      · exact hnone hs _ (loss_servers _).1 (loss_servers _).2 (loss_ever _)

theorem core_run {n : Nat} {st : State} (hi : Inv st) (hf : FlushInv st) (hn : st.servers = n)
    (ho : Opened st) (steps : List Step) (h : Step.stop ∉ steps) :
    core (run st steps) = (setups steps).foldl (alone n) (core st) := by
  induction steps generalizing st with
  | nil => rfl
  | cons a l ih =>
    have hl : Step.stop ∉ l := fun hm => h (List.mem_cons_of_mem _ hm)
    have ha : a ≠ .stop := fun e => h (e ▸ List.mem_cons_self ..)
    show core (run (step st a) l) = _
    have hi' := inv_step hi hf a
    have hf' := flush_step hi hf a
    cases a with
    | stop => exact absurd rfl ha
    | setupDone ok accept =>
      obtain ⟨a, b, c⟩ := setup_parts hn ho ok accept
      rw [ih hi' hf' a b hl]
      show _ = ((ok, accept) :: setups l).foldl (alone n) (core st)
      rw [List.foldl_cons, ← c]; rfl
    | call c =>
      obtain ⟨p, q, r⟩ := other_parts hi hn ho (.call c) ha nofun
      rw [ih hi' hf' p q hl, r]; rfl
    | runCall =>
      obtain ⟨p, q, r⟩ := other_parts hi hn ho .runCall ha nofun
      rw [ih hi' hf' p q hl, r]; rfl
    | runFlush =>
      obtain ⟨p, q, r⟩ := other_parts hi hn ho .runFlush ha nofun
      rw [ih hi' hf' p q hl, r]; rfl
    | flightDone k o t =>
      obtain ⟨p, q, r⟩ := other_parts hi hn ho (.flightDone k o t) ha nofun
      rw [ih hi' hf' p q hl, r]; rfl
    | flightRun k =>
      obtain ⟨p, q, r⟩ := other_parts hi hn ho (.flightRun k) ha nofun
      rw [ih hi' hf' p q hl, r]; rfl
    | peekDone o =>
      obtain ⟨p, q, r⟩ := other_parts hi hn ho (.peekDone o) ha nofun
      rw [ih hi' hf' p q hl, r]; rfl

theorem core_reach (n : Nat) (steps : List Step) (h : Step.stop ∉ steps) :
    core (run (init n) steps) = (setups steps).foldl (alone n) (some (.resolving 0), false) :=
  core_run (inv_init n) (by intro h; cases h) rfl (by intro h; rcases h with h | h <;> cases h) steps h

/-- The hosts that cannot be reached are walked through one by one. -/
theorem walk (n : Nat) (pre : List Outcome) (hp : ∀ o ∈ pre, o.unreachable = true) (i : Nat) (e : Bool)
    (hi : i < n) :
    ((pre.map Outcome.results).flatten).foldl (alone n) (some (.resolving i), e) =
      if i + pre.length < n then (some (.resolving (i + pre.length)), e) else (none, e) := by
  have hnone : ∀ l : List (Bool × Bool), l.foldl (alone n) (none, e) = (none, e) := by
    intro l
    induction l with
    | nil => rfl
    | cons x l ih => exact ih
  induction pre generalizing i with
  | nil => simp [hi]
  | cons o pre ih =>
    have ho := hp o List.mem_cons_self
    have hp' : ∀ o ∈ pre, o.unreachable = true := fun o h => hp o (List.mem_cons_of_mem _ h)
    have key : (Outcome.results o).foldl (alone n) (some (.resolving i), e) =
        if i + 1 < n then (some (.resolving (i + 1)), e) else (none, e) := by
      cases o <;> first | rfl | (exact absurd ho nofun)
    rw [List.map_cons, List.flatten_cons, List.foldl_append, key]
    by_cases h : i + 1 < n
    · rw [if_pos h, ih hp' _ h, List.length_cons]
      have e1 : i + (pre.length + 1) = i + 1 + pre.length := by omega
      rw [e1]
    · rw [if_neg h, hnone, List.length_cons, if_neg (by omega)]

/-- The other outcomes end the set-up. -/
theorem conclude (n : Nat) (i : Nat) (x : Outcome) (hx : x.unreachable = false)
    (more : List (Bool × Bool)) :
    (x.results ++ more).foldl (alone n) (some (.resolving i), false) =
      (none, decide (x = .accepted)) := by
  have hnone : ∀ e (l : List (Bool × Bool)), l.foldl (alone n) (none, e) = (none, e) := by
    intro e l
    induction l with
    | nil => rfl
    | cons x l ih => exact ih
  rw [List.foldl_append]
  cases x <;> first | exact hnone _ _ | (exact absurd hx nofun)

/-! ### The properties -/

/-- **C112 (hosts are tried in the order of the list).**  As long as the hosts before cannot be reached
and there is another one, the set-up is at the next host of the list; nothing has been reported. -/
theorem C112_next_host_is_tried (n : Nat) (pre : List Outcome) (hp : ∀ o ∈ pre, o.unreachable = true)
    (hlen : pre.length < n) (steps : List Step) (hstop : Step.stop ∉ steps)
    (hs : setups steps = (pre.map Outcome.results).flatten) :
    (run (init n) steps).setup = some (.resolving pre.length) ∧ (run (init n) steps).events = [] := by
  have h := core_reach n steps hstop
  rw [hs, walk n pre hp 0 false (by omega), if_pos (by omega), Nat.zero_add] at h
  have h1 : (run (init n) steps).setup = some (.resolving pre.length) := congrArg Prod.fst h
  refine ⟨h1, ?_⟩
  have hi := inv_reach n steps
  have hnet := (hi.setupS (by rw [h1]; exact nofun)).2.2.2.2.2
  refine hi.ev.2.2 ?_ ?_ <;> rcases hnet with e | e <;> rw [e] <;> exact nofun

/-- **C112 (the first host that can be reached decides).**  If the hosts before cannot be reached, the
next one decides whether the session ever reports `connected`, whatever calls, answers and IO completions
happen in between, and whatever completions follow. -/
theorem C112_first_reachable_host_decides (n : Nat) (pre : List Outcome)
    (hp : ∀ o ∈ pre, o.unreachable = true) (hlen : pre.length < n) (x : Outcome)
    (hx : x.unreachable = false) (steps : List Step) (hstop : Step.stop ∉ steps)
    (more : List (Bool × Bool))
    (hs : setups steps = (pre.map Outcome.results).flatten ++ (x.results ++ more)) :
    (Event.connected ∈ (run (init n) steps).events ↔ x = .accepted) ∧
      (run (init n) steps).setup = none := by
  have h := core_reach n steps hstop
  rw [hs, List.foldl_append, walk n pre hp 0 false (by omega), if_pos (by omega), Nat.zero_add,
    conclude n pre.length x hx more] at h
  have h1 := congrArg Prod.fst h
  have h2 := congrArg Prod.snd h
  refine ⟨?_, h1⟩
  simpa [core] using h2

/-- **C112 (fails only after the whole list).**  If no host of the list can be reached, the session
fails without a notification; the set-up is over. -/
theorem C112_all_unreachable (n : Nat) (pre : List Outcome) (hp : ∀ o ∈ pre, o.unreachable = true)
    (hlen : pre.length = n) (hn : 0 < n) (steps : List Step) (hstop : Step.stop ∉ steps)
    (hs : setups steps = (pre.map Outcome.results).flatten) :
    (run (init n) steps).net = .failed ∧ (run (init n) steps).events = [] := by
  have h := core_reach n steps hstop
  rw [hs, walk n pre hp 0 false hn, if_neg (by omega)] at h
  have h1 : (run (init n) steps).setup = none := congrArg Prod.fst h
  have h2 : Event.connected ∉ (run (init n) steps).events := by
    have := congrArg Prod.snd h
    simpa [core] using this
  have hi := inv_reach n steps
  rcases hi.setupN h1 with hc | hc
  · exact absurd (by rw [hi.ev.1 hc]; exact List.mem_cons_self) h2
  · refine ⟨hc, ?_⟩
    rcases hi.ev.2.1 hc with e | e
    · exact e
    · exact absurd (by rw [e]; exact List.mem_cons_self) h2

/-- A finding: a host that can be reached but does not complete the handshake ends the session; hosts
further down the list that would accept are not tried (L238-365 call `handle_connection_loss_error`,
not `resolve_endpoint`). -/
theorem C112_violated_no_fallback_after_handshake (x : Outcome)
    (hx : x = .noSend ∨ x = .noReply ∨ x = .refused) (n : Nat) (hn : 1 < n) (steps : List Step)
    (hstop : Step.stop ∉ steps) (hs : setups steps = x.results ++ Outcome.accepted.results) :
    (run (init n) steps).net = .failed ∧ (run (init n) steps).events = [] := by
  have h := C112_first_reachable_host_decides n [] (by simp) (by simp; omega) x
    (by rcases hx with h | h | h <;> subst h <;> rfl) steps hstop Outcome.accepted.results (by simpa using hs)
  have h2 : Event.connected ∉ (run (init n) steps).events := by
    rw [h.1]; rcases hx with h | h | h <;> subst h <;> exact nofun
  have hi := inv_reach n steps
  rcases hi.setupN h.2 with hc | hc
  · exact absurd (by rw [hi.ev.1 hc]; exact List.mem_cons_self) h2
  · refine ⟨hc, ?_⟩
    rcases hi.ev.2.1 hc with e | e
    · exact e
    · exact absurd (by rw [e]; exact List.mem_cons_self) h2

/-- Two hosts without a name, one that does not listen, the fourth accepts; calls in between. -/
def hostRun : List Step :=
  [.setupDone false false, .call 1, .setupDone false false, .runCall, .setupDone true false,
   .setupDone false false, .call 2, .setupDone true false, .setupDone true false, .setupDone true false,
   .runCall, .setupDone true true, .flightDone 0 true true]

example : setups hostRun = (([.noName, .noName, .noConnection] : List Outcome).map Outcome.results).flatten ++
    (Outcome.accepted.results ++ []) ∧ Step.stop ∉ hostRun := by decide

example : (run (init 4) hostRun).events = [.connected] ∧ (run (init 4) hostRun).sent = [1] := by decide

/-- With three hosts only the same network makes the session fail. -/
example : (run (init 3) (hostRun.take 6)).net = .failed := by decide

/-- The hypotheses of the finding are met. -/
example : setups ((Outcome.refused.results ++ Outcome.accepted.results).map (fun r => Step.setupDone r.1 r.2)) =
    Outcome.refused.results ++ Outcome.accepted.results := by decide


/-! ### Errors have a cause -/

/-- An operation that succeeded; anything but a `stop` otherwise. -/
def Fine : Step → Bool
  | .stop => false
  | .flightDone _ ok rightType => ok && rightType
  | .peekDone ok => ok
  | _ => true

structure Clean (st : State) : Prop where
  ans : st.net ≠ .failed → ∀ x ∈ st.answers, x.2 ≠ .error
  flt : ∀ x ∈ st.flight, x.2 ≠ .doneError ∧ x.2 ≠ .doneBad
  opn : st.net = .connected → st.isOpen = true
  hs  : Opened st
  evs : st.net = .failed → Event.connected ∉ st.events
  nof : st.net = .failed → st.flight = []

theorem clean_init (n : Nat) : Clean (init n) where
  ans := by simp [init]
  flt := by simp [init]
  opn := by simp [init]
  hs := by intro h; simp [init] at h
  evs := by simp [init]
  nof := by simp [init]

/-- A loss during the set-up. -/
theorem clean_loss {st : State} (hi : Inv st) (hc : Clean st) (hs : st.setup ≠ none) :
    Clean (loss { st with setup := none }) := by
  have hset := hi.setupS hs
  have hnet : st.net ≠ .failed := by rcases hset.2.2.2.2.2 with e | e <;> rw [e] <;> exact nofun
  have hnet' : st.net ≠ .connected := by rcases hset.2.2.2.2.2 with e | e <;> rw [e] <;> exact nofun
  have hev := hi.ev.2.2 hnet' hnet
  unfold loss
  simp only [hnet, if_false, hnet']
  exact ⟨fun h => absurd rfl h, hc.flt, fun h => by simp at h, fun h => by simp at h,
    fun _ => by simp [hev], fun _ => hset.1⟩

theorem clean_next {st : State} (hc : Clean st) (hn : st.net ≠ .failed) : Clean (sendNextOrPeek st) := by
  unfold sendNextOrPeek startSend
  split
  · refine ⟨hc.ans, ?_, hc.opn, hc.hs, hc.evs, fun h => absurd h hn⟩
    intro x hx
    rcases List.mem_append.1 hx with h | h
    · exact hc.flt x h
    · rw [List.mem_singleton.1 h]; exact ⟨nofun, nofun⟩
  · exact ⟨hc.ans, hc.flt, hc.opn, hc.hs, hc.evs, hc.nof⟩

theorem clean_step {st : State} (hi : Inv st) (hf : FlushInv st) (hc : Clean st) (a : Step)
    (ha : Fine a = true) : Clean (step st a) := by
  cases a with
  | stop => exact absurd ha nofun
  | call c =>
    unfold step stepCall; dsimp only
    split
    · exact hc
    · exact ⟨hc.ans, hc.flt, hc.opn, hc.hs, hc.evs, hc.nof⟩
  | setupDone ok accept =>
    have hnext : st.setup ≠ none → ∀ i, Clean (nextHost st i) := by
      intro hs i
      unfold nextHost; split
      · exact ⟨hc.ans, hc.flt, hc.opn, fun h => by simp at h, hc.evs, hc.nof⟩
      · exact clean_loss hi hc hs
    show Clean (stepSetup st ok accept)
    unfold stepSetup
    rcases hs : st.setup with _ | x
    · exact hc
    · have hne : st.setup ≠ none := by rw [hs]; exact nofun
      cases x with
      | resolving i =>
        dsimp only; split
        · exact ⟨hc.ans, hc.flt, hc.opn, fun h => by simp at h, hc.evs, hc.nof⟩
        · exact hnext hne i
      | connecting i =>
        dsimp only; split
        · have hset := hi.setupS hne
          have hnet : st.net ≠ .failed := by rcases hset.2.2.2.2.2 with e | e <;> rw [e] <;> exact nofun
          exact ⟨fun _ => hc.ans hnet, hc.flt, fun _ => rfl, fun _ => rfl, nofun, nofun⟩
        · exact hnext hne i
      | hsSending =>
        dsimp only; split
        · exact ⟨hc.ans, hc.flt, hc.opn, fun _ => hc.hs (.inl hs), hc.evs, hc.nof⟩
        · exact clean_loss hi hc hne
      | hsReceiving =>
        dsimp only; split
        · refine clean_next ?_ nofun
          have hset := hi.setupS hne
          have hnet : st.net ≠ .failed := by rcases hset.2.2.2.2.2 with e | e <;> rw [e] <;> exact nofun
          exact ⟨fun _ => hc.ans hnet, hc.flt, fun _ => hc.hs (.inr hs), fun h => by simp at h,
            nofun, nofun⟩
        · exact clean_loss hi hc hne
  | runCall =>
    unfold step stepRunCall startSend; dsimp only
    split
    · exact hc
    · split
      · rename_i h
        exact ⟨fun h' => absurd h h', hc.flt, hc.opn, hc.hs, hc.evs, hc.nof⟩
      · split
        · rename_i hn _
          refine ⟨hc.ans, ?_, hc.opn, hc.hs, hc.evs, fun h => absurd h hn⟩
          intro x hx
          rcases List.mem_append.1 hx with h | h
          · exact hc.flt x h
          · rw [List.mem_singleton.1 h]; exact ⟨nofun, nofun⟩
        · exact ⟨hc.ans, hc.flt, hc.opn, hc.hs, hc.evs, hc.nof⟩
  | runFlush =>
    unfold step stepRunFlush; dsimp only
    split
    · exact hc
    · rename_i m hm
      have hnet : st.net = .failed := hf (by omega)
      split
      · exact ⟨hc.ans, hc.flt, hc.opn, hc.hs, hc.evs, hc.nof⟩
      · exact ⟨fun h' => absurd hnet h', hc.flt, hc.opn, hc.hs, hc.evs, hc.nof⟩
  | flightDone k ok r =>
    have hok : ok = true ∧ r = true := by simpa [Fine] using ha
    obtain ⟨rfl, rfl⟩ := hok
    have hset : ∀ x : Nat × Phase, x.2 ≠ .doneError → x.2 ≠ .doneBad →
        ∀ y ∈ st.flight.set k x, y.2 ≠ .doneError ∧ y.2 ≠ .doneBad := by
      intro x h1 h2 y hy
      rcases List.mem_or_eq_of_mem_set hy with h | h
      · exact hc.flt y h
      · rw [h]; exact ⟨h1, h2⟩
    have hopen : ∀ x, st.flight[k]? = some x → st.isOpen = true ∧ st.net ≠ .failed := by
      intro x hx
      have hm : x ∈ st.flight := List.mem_of_getElem? hx
      cases hs : st.setup with
      | some y =>
        have := (hi.setupS (by rw [hs]; exact nofun)).1
        rw [this] at hm; exact absurd hm List.not_mem_nil
      | none =>
        rcases hi.setupN hs with h | h
        · exact ⟨hc.opn h, by rw [h]; exact nofun⟩
        · rw [hc.nof h] at hm; exact absurd hm List.not_mem_nil
    show Clean (stepFlightDone st k true true)
    unfold stepFlightDone setPhase
    split
    · rename_i c hx
      obtain ⟨ho, hn⟩ := hopen _ hx
      simp only [ho, Bool.and_self, if_true]
      exact ⟨hc.ans, hset _ nofun nofun, fun _ => by rfl, fun _ => by rfl, hc.evs,
        fun h => absurd h hn⟩
    · rename_i c hx
      obtain ⟨ho, hn⟩ := hopen _ hx
      simp only [ho, Bool.and_self, if_true]
      exact ⟨hc.ans, hset _ nofun nofun, fun _ => by rfl, fun _ => by rfl, hc.evs,
        fun h => absurd h hn⟩
    · exact hc
  | flightRun k =>
    unfold step stepFlightRun; dsimp only
    split
    · rename_i hx; exact absurd rfl (hc.flt _ (List.mem_of_getElem? hx)).1
    · rename_i hx; exact absurd rfl (hc.flt _ (List.mem_of_getElem? hx)).2
    · rename_i hx
      have hne : st.net ≠ .failed := by
        intro h
        have hm := List.mem_of_getElem? hx
        rw [hc.nof h] at hm; exact absurd hm List.not_mem_nil
      refine clean_next ⟨?_, fun x hx => hc.flt x (List.mem_of_mem_eraseIdx hx), hc.opn, hc.hs, hc.evs,
        fun h => absurd h hne⟩ hne
      intro hn x hx
      rcases List.mem_append.1 hx with h | h
      · exact hc.ans hn x h
      · rw [List.mem_singleton.1 h]; exact nofun
    · exact hc
  | peekDone ok =>
    have : ok = true := ha
    subst this
    unfold step stepPeek; dsimp only
    split
    · exact hc
    · exact ⟨hc.ans, hc.flt, hc.opn, hc.hs, hc.evs, hc.nof⟩

theorem clean_run {st : State} (hi : Inv st) (hf : FlushInv st) (hc : Clean st) (steps : List Step)
    (h : ∀ a ∈ steps, Fine a = true) : Clean (run st steps) := by
  induction steps generalizing st with
  | nil => exact hc
  | cons a l ih =>
    exact ih (inv_step hi hf a) (flush_step hi hf a) (clean_step hi hf hc a (h a List.mem_cons_self))
      (fun b hb => h b (List.mem_cons_of_mem _ hb))

/-- **C112 (a disconnection and a failed call have a cause).**  If a session got connected, was not
stopped, and no read, write or watch of the connection failed (and every response was of the right
type), then it reported no disconnection, and no call of it was answered with an error. -/
theorem C112_no_error_without_cause (n : Nat) (steps : List Step) (h : ∀ a ∈ steps, Fine a = true)
    (hc : Event.connected ∈ (run (init n) steps).events) :
    (run (init n) steps).events = [.connected] ∧
      ∀ c, (c, Answer.error) ∉ (run (init n) steps).answers := by
  have hcl := clean_run (inv_init n) (by intro h; cases h) (clean_init n) steps h
  have hi := inv_reach n steps
  have hnf : (run (init n) steps).net ≠ .failed := fun e => hcl.evs e hc
  refine ⟨?_, fun c hm => hcl.ans hnf _ hm rfl⟩
  by_cases h1 : (run (init n) steps).net = .connected
  · exact hi.ev.1 h1
  · rw [hi.ev.2.2 h1 hnf] at hc; exact absurd hc List.not_mem_nil

example : (∀ a ∈ hostRun, Fine a = true) ∧ Event.connected ∈ (run (init 4) hostRun).events := by decide

/-- The calls made before the first `stop`. -/
def callsUntilStop : List Step → List Nat
  | .stop :: _ => []
  | .call c :: l => c :: callsUntilStop l
  | .setupDone _ _ :: l => callsUntilStop l
  | .runCall :: l => callsUntilStop l
  | .runFlush :: l => callsUntilStop l
  | .flightDone _ _ _ :: l => callsUntilStop l
  | .flightRun _ :: l => callsUntilStop l
  | .peekDone _ :: l => callsUntilStop l
  | [] => []

theorem stopped_loss (st : State) : (loss st).stopped = st.stopped ∧ (loss st).accepted = st.accepted := by
  unfold loss; dsimp only; split <;> exact ⟨rfl, rfl⟩

theorem stopped_next (st : State) : (sendNextOrPeek st).stopped = st.stopped ∧
    (sendNextOrPeek st).accepted = st.accepted := by
  unfold sendNextOrPeek startSend; split <;> exact ⟨rfl, rfl⟩

theorem stopped_step (st : State) (a : Step) (h1 : a ≠ .stop) (h2 : ∀ c, a ≠ .call c) :
    (step st a).stopped = st.stopped ∧ (step st a).accepted = st.accepted := by
  cases a with
  | stop => exact absurd rfl h1
  | call c => exact absurd rfl (h2 c)
  | setupDone ok accept =>
    have hnext : ∀ i, (nextHost st i).stopped = st.stopped ∧ (nextHost st i).accepted = st.accepted := by
      intro i; unfold nextHost; split
      · exact ⟨rfl, rfl⟩
      · exact stopped_loss _
    unfold step stepSetup; dsimp only
    split
    · exact ⟨rfl, rfl⟩
    · split
      · exact ⟨rfl, rfl⟩
      · exact hnext _
    · split
      · exact ⟨rfl, rfl⟩
      · exact hnext _
    · split
      · exact ⟨rfl, rfl⟩
      · exact stopped_loss _
    · split
      · exact stopped_next _
      · exact stopped_loss _
  | runCall =>
    unfold step stepRunCall startSend; dsimp only
    split
    · exact ⟨rfl, rfl⟩
    · split
      · exact ⟨rfl, rfl⟩
      · split <;> exact ⟨rfl, rfl⟩
  | runFlush =>
    unfold step stepRunFlush; dsimp only
    split
    · exact ⟨rfl, rfl⟩
    · split <;> exact ⟨rfl, rfl⟩
  | flightDone k ok r =>
    unfold step stepFlightDone setPhase; dsimp only
    split
    · split <;> exact ⟨rfl, rfl⟩
    · split
      · split <;> exact ⟨rfl, rfl⟩
      · exact ⟨rfl, rfl⟩
    · exact ⟨rfl, rfl⟩
  | flightRun k =>
    unfold step stepFlightRun; dsimp only
    split
    · exact stopped_loss _
    · exact stopped_loss _
    · exact stopped_next _
    · exact ⟨rfl, rfl⟩
  | peekDone ok =>
    unfold step stepPeek; dsimp only
    split
    · exact ⟨rfl, rfl⟩
    · split
      · exact ⟨rfl, rfl⟩
      · exact stopped_loss _

theorem accepted_stopped (st : State) (h : st.stopped = true) (steps : List Step) :
    (run st steps).accepted = st.accepted := by
  induction steps generalizing st with
  | nil => rfl
  | cons a l ih =>
    show (run (step st a) l).accepted = _
    by_cases h1 : a = .stop
    · subst h1; exact ih _ rfl
    · by_cases h2 : ∃ c, a = .call c
      · obtain ⟨c, rfl⟩ := h2
        have : step st (.call c) = st := by unfold step stepCall; dsimp only; rw [if_pos h]
        rw [this]; exact ih _ h
      · have := stopped_step st a h1 (fun c e => h2 ⟨c, e⟩)
        rw [ih _ (this.1.trans h), this.2]

theorem accepted_running (st : State) (h : st.stopped = false) (steps : List Step) :
    (run st steps).accepted = st.accepted ++ callsUntilStop steps := by
  induction steps generalizing st with
  | nil => exact (List.append_nil _).symm
  | cons a l ih =>
    show (run (step st a) l).accepted = _
    by_cases h1 : a = .stop
    · subst h1
      rw [accepted_stopped _ rfl]
      exact (List.append_nil _).symm
    · by_cases h2 : ∃ c, a = .call c
      · obtain ⟨c, rfl⟩ := h2
        have : step st (.call c) = { st with posted := st.posted ++ [c], accepted := st.accepted ++ [c] } := by
          unfold step stepCall; dsimp only; rw [h]; rfl
        rw [this, ih { st with posted := st.posted ++ [c], accepted := st.accepted ++ [c] } h]
        show st.accepted ++ [c] ++ callsUntilStop l = st.accepted ++ c :: callsUntilStop l
        rw [List.append_assoc]; rfl
      · have := stopped_step st a h1 (fun c e => h2 ⟨c, e⟩)
        have e : callsUntilStop (a :: l) = callsUntilStop l := by
          cases a <;> first | rfl | exact absurd rfl h1 | exact absurd ⟨_, rfl⟩ h2
        rw [ih _ (this.1.trans h), this.2, e]

/-- **C34 (exactly the calls before `stop` are accepted).**  Whatever the state of the connection, a call
is accepted if and only if it is made before the session is stopped. -/
theorem C34_accepted_until_stop (n : Nat) (steps : List Step) :
    (run (init n) steps).accepted = callsUntilStop steps := by
  rw [accepted_running _ rfl]; rfl

example : callsUntilStop [.call 1, .setupDone false false, .call 2, .stop, .call 3] = [1, 2] := by decide

end Ecal.Service.Client
