import Verif.Service.ClientSessionV0Lemmas

/-!
# C112 for protocol version 0: which host of its list a client session ends up with

Code: `/repo/ecal/service/ecal_service/src/client_session_impl_v0.cpp` `resolve_endpoint` L94-150,
`connect_to_endpoint` L152-257; the model is `Verif.Service.ClientSessionV0`.  There is no handshake: a
host that accepts the connection is the one.
-/

namespace Ecal.Service.ClientV0

/-- What happens to one host of the list. -/
inductive Outcome where
  | noName          -- its name cannot be resolved
  | noConnection    -- resolved, but no endpoint accepts the connection
  | accepted
deriving DecidableEq, Repr

/-- The results of the operations of the set-up, one after the other. -/
def Outcome.results : Outcome → List Bool
  | .noName => [false]
  | .noConnection => [true, false]
  | .accepted => [true, true]

/-- The results of the set-up operations in a run. -/
def setups : List Step → List Bool
  | [] => []
  | .setupDone ok :: l => ok :: setups l
  | .call _ :: l => setups l
  | .stop :: l => setups l
  | .runCall :: l => setups l
  | .runFlush :: l => setups l
  | .flightDone _ _ :: l => setups l
  | .flightRun _ :: l => setups l
  | .closeRun :: l => setups l
  | .lossRun :: l => setups l
  | .peekDone _ :: l => setups l

/-! ### The set-up seen alone -/

def alone (n : Nat) : Option Setup × Bool → Bool → Option Setup × Bool
  | (none, e), _ => (none, e)
  | (some (.resolving i), e), ok =>
    if ok then (some (.connecting i), e)
    else if i + 1 < n then (some (.resolving (i + 1)), e) else (none, e)
  | (some (.connecting i), e), ok =>
    if ok then (none, true)
    else if i + 1 < n then (some (.resolving (i + 1)), e) else (none, e)

def core (st : State) : Option Setup × Bool := (st.setup, decide (Event.connected ∈ st.events))

theorem loss_servers (st : State) : (loss st).servers = st.servers ∧ (loss st).setup = st.setup := by
  unfold loss; dsimp only; split <;> exact ⟨rfl, rfl⟩

theorem loss_ever (st : State) : (Event.connected ∈ (loss st).events) = (Event.connected ∈ st.events) := by
  unfold loss; dsimp only; split
  · rfl
  · dsimp only; split <;> simp

theorem next_parts (st : State) : (sendNextOrPeek st).servers = st.servers ∧
    (sendNextOrPeek st).setup = st.setup ∧ (sendNextOrPeek st).events = st.events := by
  unfold sendNextOrPeek startSend; split <;> exact ⟨rfl, rfl, rfl⟩

theorem core_loss (st : State) : core (loss st) = core st := by
  simp only [core, (loss_servers st).2, loss_ever]

theorem setup_parts {n : Nat} {st : State} (hn : st.servers = n) (ok : Bool) :
    (stepSetup st ok).servers = n ∧ core (stepSetup st ok) = alone n (core st) ok := by
  have hnext : ∀ i, (nextHost st i).servers = n ∧ core (nextHost st i) =
      if i + 1 < n then (some (.resolving (i + 1)), decide (Event.connected ∈ st.events))
      else (none, decide (Event.connected ∈ st.events)) := by
    intro i
    unfold nextHost
    rw [← hn]
    by_cases h : i + 1 < st.servers
    · rw [if_pos h, if_pos h]
      exact ⟨rfl, rfl⟩
    · rw [if_neg h, if_neg h]
      exact ⟨(loss_servers _).1, (core_loss _).trans rfl⟩
  unfold stepSetup
  rcases hs : st.setup with _ | x
  · exact ⟨hn, by simp only [core, hs, alone]⟩
  · cases x with
    | resolving i =>
      cases ok with
      | false => obtain ⟨a, c⟩ := hnext i; exact ⟨a, by simp [core, hs, alone] at c ⊢; exact c⟩
      | true => exact ⟨hn, by simp [core, hs, alone]⟩
    | connecting i =>
      cases ok with
      | false => obtain ⟨a, c⟩ := hnext i; exact ⟨a, by simp [core, hs, alone] at c ⊢; exact c⟩
      | true =>
        obtain ⟨h1, h2, h3⟩ := next_parts
          { st with setup := none, isOpen := true, net := .connected,
                    events := st.events ++ [.connected] }
        refine ⟨h1.trans hn, ?_⟩
        simp only [core, if_true, h2, h3, hs, alone]
        simp

theorem other_parts {n : Nat} {st : State} (hn : st.servers = n)
    (a : Step) (h2 : ∀ ok, a ≠ .setupDone ok) :
    (step st a).servers = n ∧ core (step st a) = core st := by
  have hkeep : ∀ st' : State, st'.servers = st.servers → st'.setup = st.setup →
      ((Event.connected ∈ st'.events) = (Event.connected ∈ st.events)) →
      st'.servers = n ∧ core st' = core st := by
    intro st' a b d
    exact ⟨a.trans hn, by simp only [core, b, d]⟩
  cases a with
  | setupDone ok => exact absurd rfl (h2 ok)
  | stop => exact hkeep _ rfl rfl rfl
  | call c =>
    unfold step stepCall; dsimp only
    split <;> exact hkeep _ rfl rfl rfl
  | runCall =>
    unfold step stepRunCall startSend; dsimp only
    split
    · exact hkeep _ rfl rfl rfl
    · split
      · exact hkeep _ rfl rfl rfl
      · split <;> exact hkeep _ rfl rfl rfl
  | runFlush =>
    unfold step stepRunFlush; dsimp only
    split
    · exact hkeep _ rfl rfl rfl
    · split <;> exact hkeep _ rfl rfl rfl
  | flightDone k ok =>
    unfold step stepFlightDone setPhase; dsimp only
    split
    · split <;> exact hkeep _ rfl rfl rfl
    · split <;> exact hkeep _ rfl rfl rfl
    · exact hkeep _ rfl rfl rfl
  | flightRun k =>
    unfold step stepFlightRun; dsimp only
    split
    · exact hkeep _ rfl rfl rfl
    · exact hkeep _ (loss_servers _).1 (loss_servers _).2 (loss_ever _)
    · obtain ⟨p1, p2, p3⟩ := next_parts
        { st with flight := st.flight.eraseIdx k, answers := st.answers ++ [(_, .ok _)] }
      exact hkeep _ p1 p2 (by rw [p3])
    · exact hkeep _ rfl rfl rfl
  | closeRun =>
    unfold step stepCloseRun; dsimp only
    split <;> exact hkeep _ rfl rfl rfl
  | lossRun =>
    unfold step stepLossRun; dsimp only
    split
    · exact hkeep _ rfl rfl rfl
    · exact hkeep _ (loss_servers _).1 (loss_servers _).2 (loss_ever _)
  | peekDone ok =>
    unfold step stepPeek; dsimp only
    split
    · exact hkeep _ rfl rfl rfl
    · split
      · exact hkeep _ rfl rfl rfl
      · exact hkeep _ (loss_servers _).1 (loss_servers _).2 (loss_ever _)

theorem core_run {n : Nat} {st : State} (hn : st.servers = n)
    (steps : List Step) :
    core (run st steps) = (setups steps).foldl (alone n) (core st) := by
  induction steps generalizing st with
  | nil => rfl
  | cons a l ih =>
    show core (run (step st a) l) = _
    by_cases hs : ∃ ok, a = .setupDone ok
    · obtain ⟨ok, rfl⟩ := hs
      obtain ⟨a, c⟩ := setup_parts hn ok
      rw [ih (st := step st (.setupDone ok)) a]
      show _ = (ok :: setups l).foldl (alone n) (core st)
      rw [List.foldl_cons, ← c]; rfl
    · obtain ⟨p, r⟩ := other_parts hn a (fun ok e => hs ⟨ok, e⟩)
      have e : setups (a :: l) = setups l := by
        cases a <;> first | rfl | exact absurd ⟨_, rfl⟩ hs
      rw [ih p, r, e]

theorem core_reach (n : Nat) (steps : List Step) :
    core (run (init n) steps) = (setups steps).foldl (alone n) (some (.resolving 0), false) :=
  core_run rfl steps

/-- The hosts that cannot be reached are walked through one by one. -/
theorem walk (n : Nat) (pre : List Outcome) (hp : Outcome.accepted ∉ pre) (i : Nat) (e : Bool)
    (hi : i < n) :
    ((pre.map Outcome.results).flatten).foldl (alone n) (some (.resolving i), e) =
      if i + pre.length < n then (some (.resolving (i + pre.length)), e) else (none, e) := by
  have hnone : ∀ l : List Bool, l.foldl (alone n) (none, e) = (none, e) := by
    intro l
    induction l with
    | nil => rfl
    | cons x l ih => exact ih
  induction pre generalizing i with
  | nil => simp [hi]
  | cons o pre ih =>
    have hp' : Outcome.accepted ∉ pre := fun h => hp (List.mem_cons_of_mem _ h)
    have key : (Outcome.results o).foldl (alone n) (some (.resolving i), e) =
        if i + 1 < n then (some (.resolving (i + 1)), e) else (none, e) := by
      cases o with
      | accepted => exact absurd List.mem_cons_self hp
      | noName => rfl
      | noConnection => rfl
    rw [List.map_cons, List.flatten_cons, List.foldl_append, key]
    by_cases h : i + 1 < n
    · rw [if_pos h, ih hp' _ h, List.length_cons]
      have e1 : i + (pre.length + 1) = i + 1 + pre.length := by omega
      rw [e1]
    · rw [if_neg h, hnone, List.length_cons, if_neg (by omega)]

/-! ### The properties -/

/-- **C112 (version 0, hosts are tried in the order of the list).** -/
theorem C112_v0_next_host_is_tried (n : Nat) (pre : List Outcome) (hp : Outcome.accepted ∉ pre)
    (hlen : pre.length < n) (steps : List Step)
    (hs : setups steps = (pre.map Outcome.results).flatten) :
    (run (init n) steps).setup = some (.resolving pre.length) ∧ (run (init n) steps).events = [] := by
  have h := core_reach n steps
  rw [hs, walk n pre hp 0 false (by omega), if_pos (by omega), Nat.zero_add] at h
  have h1 : (run (init n) steps).setup = some (.resolving pre.length) := congrArg Prod.fst h
  refine ⟨h1, ?_⟩
  have hi := inv_reach n steps
  have hnet := (hi.setupS (by rw [h1]; exact nofun)).2.2.2.2.2.1
  refine hi.ev.2.2 ?_ ?_ <;> rw [hnet] <;> exact nofun

/-- **C112 (version 0, the first host that accepts is taken).** -/
theorem C112_v0_first_accepting_host_is_taken (n : Nat) (pre : List Outcome)
    (hp : Outcome.accepted ∉ pre) (hlen : pre.length < n) (steps : List Step) (more : List Bool)
    (hs : setups steps = (pre.map Outcome.results).flatten ++ (Outcome.accepted.results ++ more)) :
    Event.connected ∈ (run (init n) steps).events := by
  have h := core_reach n steps
  have hnone : ∀ l : List Bool, l.foldl (alone n) (none, true) = (none, true) := by
    intro l
    induction l with
    | nil => rfl
    | cons x l ih => exact ih
  rw [hs, List.foldl_append, walk n pre hp 0 false (by omega), if_pos (by omega), Nat.zero_add,
    List.foldl_append, show (Outcome.accepted.results).foldl (alone n) (some (.resolving pre.length), false) =
      (none, true) from rfl, hnone] at h
  simpa [core] using congrArg Prod.snd h

/-- **C112 (version 0, fails only after the whole list).** -/
theorem C112_v0_all_unreachable (n : Nat) (pre : List Outcome) (hp : Outcome.accepted ∉ pre)
    (hlen : pre.length = n) (hn : 0 < n) (steps : List Step)
    (hs : setups steps = (pre.map Outcome.results).flatten) :
    (run (init n) steps).net = .failed ∧ (run (init n) steps).events = [] := by
  have h := core_reach n steps
  rw [hs, walk n pre hp 0 false hn, if_neg (by omega)] at h
  have h1 : (run (init n) steps).setup = none := congrArg Prod.fst h
  have h2 : Event.connected ∉ (run (init n) steps).events := by
    have := congrArg Prod.snd h
    simpa [core] using this
  have hi := inv_reach n steps
  rcases hi.setupN h1 with hc | hc
  · exact absurd (by rw [hi.ev.1 hc]; exact List.mem_cons_self) h2
  · refine ⟨hc, ?_⟩
    rcases hi.ev.2.1 hc with e | e
    · exact e
    · exact absurd (by rw [e]; exact List.mem_cons_self) h2

/-- The second host accepts; calls in between. -/
def hostRun : List Step :=
  [.setupDone true, .call 1, .setupDone false, .runCall, .setupDone true, .call 2, .setupDone true,
   .flightDone 0 true]

example : setups hostRun = (([.noConnection] : List Outcome).map Outcome.results).flatten ++
    (Outcome.accepted.results ++ []) := by decide

example : (run (init 2) hostRun).events = [.connected] ∧ (run (init 2) hostRun).sent = [1] := by decide

example : (run (init 1) (hostRun.take 4)).net = .failed := by decide


/-! ### Errors have a cause -/

/-- An operation that succeeded; anything but a `stop` otherwise. -/
def Fine : Step → Bool
  | .stop => false
  | .flightDone _ ok => ok
  | .peekDone ok => ok
  | _ => true

structure Clean (st : State) : Prop where
  ans : st.net ≠ .failed → ∀ x ∈ st.answers, x.2 ≠ .error
  flt : ∀ x ∈ st.flight, x.2 ≠ .doneError ∧ x.2 ≠ .sendFailed
  opn : st.net = .connected → st.isOpen = true
  los : st.losing = 0
  evs : st.net = .failed → Event.connected ∉ st.events
  nof : st.net = .failed → st.flight = []

theorem clean_init (n : Nat) : Clean (init n) where
  ans := by simp [init]
  flt := by simp [init]
  opn := by simp [init]
  los := rfl
  evs := by simp [init]
  nof := by simp [init]

/-- A loss during the set-up. -/
theorem clean_loss {st : State} (hi : Inv st) (hc : Clean st) (hs : st.setup ≠ none) :
    Clean (loss { st with setup := none }) := by
  have hset := hi.setupS hs
  have hnet : st.net ≠ .failed := by rw [hset.2.2.2.2.2.1]; exact nofun
  have hnet' : st.net ≠ .connected := by rw [hset.2.2.2.2.2.1]; exact nofun
  have hev := hi.ev.2.2 hnet' hnet
  unfold loss
  simp only [hnet, if_false, hnet']
  exact ⟨fun h => absurd rfl h, hc.flt, fun h => by simp at h, hc.los,
    fun _ => by simp [hev], fun _ => hset.1⟩

theorem clean_next {st : State} (hc : Clean st) (hn : st.net ≠ .failed) : Clean (sendNextOrPeek st) := by
  unfold sendNextOrPeek startSend
  split
  · refine ⟨hc.ans, ?_, hc.opn, hc.los, hc.evs, fun h => absurd h hn⟩
    intro x hx
    rcases List.mem_append.1 hx with h | h
    · exact hc.flt x h
    · rw [List.mem_singleton.1 h]; exact ⟨nofun, nofun⟩
  · exact ⟨hc.ans, hc.flt, hc.opn, hc.los, hc.evs, hc.nof⟩

theorem clean_step {st : State} (hi : Inv st) (hf : FlushInv st) (hc : Clean st) (a : Step)
    (ha : Fine a = true) : Clean (step st a) := by
  cases a with
  | stop => exact absurd ha nofun
  | call c =>
    unfold step stepCall; dsimp only
    split
    · exact hc
    · exact ⟨hc.ans, hc.flt, hc.opn, hc.los, hc.evs, hc.nof⟩
  | setupDone ok =>
    have hnext : st.setup ≠ none → ∀ i, Clean (nextHost st i) := by
      intro hs i
      unfold nextHost; split
      · exact ⟨hc.ans, hc.flt, hc.opn, hc.los, hc.evs, hc.nof⟩
      · exact clean_loss hi hc hs
    show Clean (stepSetup st ok)
    unfold stepSetup
    rcases hs : st.setup with _ | x
    · exact hc
    · have hne : st.setup ≠ none := by rw [hs]; exact nofun
      cases x with
      | resolving i =>
        dsimp only; split
        · exact ⟨hc.ans, hc.flt, hc.opn, hc.los, hc.evs, hc.nof⟩
        · exact hnext hne i
      | connecting i =>
        dsimp only; split
        · refine clean_next ?_ nofun
          have hset := hi.setupS hne
          have hnet : st.net ≠ .failed := by rw [hset.2.2.2.2.2.1]; exact nofun
          exact ⟨fun _ => hc.ans hnet, hc.flt, fun _ => rfl, hc.los, nofun, nofun⟩
        · exact hnext hne i
  | runCall =>
    unfold step stepRunCall startSend; dsimp only
    split
    · exact hc
    · split
      · rename_i h
        exact ⟨fun h' => absurd h h', hc.flt, hc.opn, hc.los, hc.evs, hc.nof⟩
      · split
        · rename_i hn _
          refine ⟨hc.ans, ?_, hc.opn, hc.los, hc.evs, fun h => absurd h hn⟩
          intro x hx
          rcases List.mem_append.1 hx with h | h
          · exact hc.flt x h
          · rw [List.mem_singleton.1 h]; exact ⟨nofun, nofun⟩
        · exact ⟨hc.ans, hc.flt, hc.opn, hc.los, hc.evs, hc.nof⟩
  | runFlush =>
    unfold step stepRunFlush; dsimp only
    split
    · exact hc
    · rename_i m hm
      have hnet : st.net = .failed := hf (by omega)
      split
      · exact ⟨hc.ans, hc.flt, hc.opn, hc.los, hc.evs, hc.nof⟩
      · exact ⟨fun h' => absurd hnet h', hc.flt, hc.opn, hc.los, hc.evs, hc.nof⟩
  | flightDone k ok =>
    have hok : ok = true := ha
    subst hok
    have hset : ∀ x : Nat × Phase, x.2 ≠ .doneError → x.2 ≠ .sendFailed →
        ∀ y ∈ st.flight.set k x, y.2 ≠ .doneError ∧ y.2 ≠ .sendFailed := by
      intro x h1 h2 y hy
      rcases List.mem_or_eq_of_mem_set hy with h | h
      · exact hc.flt y h
      · rw [h]; exact ⟨h1, h2⟩
    have hopen : ∀ x, st.flight[k]? = some x → st.isOpen = true ∧ st.net ≠ .failed := by
      intro x hx
      have hm : x ∈ st.flight := List.mem_of_getElem? hx
      cases hs : st.setup with
      | some y =>
        have := (hi.setupS (by rw [hs]; exact nofun)).1
        rw [this] at hm; exact absurd hm List.not_mem_nil
      | none =>
        rcases hi.setupN hs with h | h
        · exact ⟨hc.opn h, by rw [h]; exact nofun⟩
        · rw [hc.nof h] at hm; exact absurd hm List.not_mem_nil
    show Clean (stepFlightDone st k true)
    unfold stepFlightDone setPhase
    split
    · rename_i c hx
      obtain ⟨ho, hn⟩ := hopen _ hx
      simp only [ho, Bool.and_self, if_true]
      exact ⟨hc.ans, hset _ nofun nofun, fun _ => by rfl, hc.los, hc.evs,
        fun h => absurd h hn⟩
    · rename_i c hx
      obtain ⟨ho, hn⟩ := hopen _ hx
      simp only [ho, Bool.and_self, if_true]
      exact ⟨hc.ans, hset _ nofun nofun, fun _ => by rfl, hc.los, hc.evs,
        fun h => absurd h hn⟩
    · exact hc
  | flightRun k =>
    unfold step stepFlightRun; dsimp only
    split
    · rename_i hx; exact absurd rfl (hc.flt _ (List.mem_of_getElem? hx)).2
    · rename_i hx; exact absurd rfl (hc.flt _ (List.mem_of_getElem? hx)).1
    · rename_i hx
      have hne : st.net ≠ .failed := by
        intro h
        have hm := List.mem_of_getElem? hx
        rw [hc.nof h] at hm; exact absurd hm List.not_mem_nil
      refine clean_next ⟨?_, fun x hx => hc.flt x (List.mem_of_mem_eraseIdx hx), hc.opn, hc.los, hc.evs,
        fun h => absurd h hne⟩ hne
      intro hn x hx
      rcases List.mem_append.1 hx with h | h
      · exact hc.ans hn x h
      · rw [List.mem_singleton.1 h]; exact nofun
    · exact hc
  | closeRun =>
    unfold step stepCloseRun; dsimp only
    rw [if_pos hc.los]; exact hc
  | lossRun =>
    unfold step stepLossRun; dsimp only
    rw [hc.los]; exact hc
  | peekDone ok =>
    have : ok = true := ha
    subst this
    unfold step stepPeek; dsimp only
    split
    · exact hc
    · exact ⟨hc.ans, hc.flt, hc.opn, hc.los, hc.evs, hc.nof⟩

theorem clean_run {st : State} (hi : Inv st) (hf : FlushInv st) (hc : Clean st) (steps : List Step)
    (h : ∀ a ∈ steps, Fine a = true) : Clean (run st steps) := by
  induction steps generalizing st with
  | nil => exact hc
  | cons a l ih =>
    exact ih (inv_step hi hf a) (flush_step hi hf a) (clean_step hi hf hc a (h a List.mem_cons_self))
      (fun b hb => h b (List.mem_cons_of_mem _ hb))

/-- **C112 (a disconnection and a failed call have a cause).**  If a session got connected, was not
stopped, and no read, write or watch of the connection failed, then it reported no disconnection, and no call of it was answered with an error. -/
theorem C112_v0_no_error_without_cause (n : Nat) (steps : List Step) (h : ∀ a ∈ steps, Fine a = true)
    (hc : Event.connected ∈ (run (init n) steps).events) :
    (run (init n) steps).events = [.connected] ∧
      ∀ c, (c, Answer.error) ∉ (run (init n) steps).answers := by
  have hcl := clean_run (inv_init n) (by intro h; cases h) (clean_init n) steps h
  have hi := inv_reach n steps
  have hnf : (run (init n) steps).net ≠ .failed := fun e => hcl.evs e hc
  refine ⟨?_, fun c hm => hcl.ans hnf _ hm rfl⟩
  by_cases h1 : (run (init n) steps).net = .connected
  · exact hi.ev.1 h1
  · rw [hi.ev.2.2 h1 hnf] at hc; exact absurd hc List.not_mem_nil

example : (∀ a ∈ hostRun, Fine a = true) ∧ Event.connected ∈ (run (init 2) hostRun).events := by decide

/-- The calls made before the first `stop`. -/
def callsUntilStop : List Step → List Nat
  | .stop :: _ => []
  | .call c :: l => c :: callsUntilStop l
  | .setupDone _ :: l => callsUntilStop l
  | .runCall :: l => callsUntilStop l
  | .runFlush :: l => callsUntilStop l
  | .flightDone _ _ :: l => callsUntilStop l
  | .closeRun :: l => callsUntilStop l
  | .lossRun :: l => callsUntilStop l
  | .flightRun _ :: l => callsUntilStop l
  | .peekDone _ :: l => callsUntilStop l
  | [] => []

theorem stopped_loss (st : State) : (loss st).stopped = st.stopped ∧ (loss st).accepted = st.accepted := by
  unfold loss; dsimp only; split <;> exact ⟨rfl, rfl⟩

theorem stopped_next (st : State) : (sendNextOrPeek st).stopped = st.stopped ∧
    (sendNextOrPeek st).accepted = st.accepted := by
  unfold sendNextOrPeek startSend; split <;> exact ⟨rfl, rfl⟩

theorem stopped_step (st : State) (a : Step) (h1 : a ≠ .stop) (h2 : ∀ c, a ≠ .call c) :
    (step st a).stopped = st.stopped ∧ (step st a).accepted = st.accepted := by
  cases a with
  | stop => exact absurd rfl h1
  | call c => exact absurd rfl (h2 c)
  | setupDone ok =>
    have hnext : ∀ i, (nextHost st i).stopped = st.stopped ∧ (nextHost st i).accepted = st.accepted := by
      intro i; unfold nextHost; split
      · exact ⟨rfl, rfl⟩
      · exact stopped_loss _
    unfold step stepSetup; dsimp only
    split
    · exact ⟨rfl, rfl⟩
    · split
      · exact ⟨rfl, rfl⟩
      · exact hnext _
    · split
      · exact stopped_next _
      · exact hnext _
  | runCall =>
    unfold step stepRunCall startSend; dsimp only
    split
    · exact ⟨rfl, rfl⟩
    · split
      · exact ⟨rfl, rfl⟩
      · split <;> exact ⟨rfl, rfl⟩
  | runFlush =>
    unfold step stepRunFlush; dsimp only
    split
    · exact ⟨rfl, rfl⟩
    · split <;> exact ⟨rfl, rfl⟩
  | flightDone k ok =>
    unfold step stepFlightDone setPhase; dsimp only
    split
    · split <;> exact ⟨rfl, rfl⟩
    · split <;> exact ⟨rfl, rfl⟩
    · exact ⟨rfl, rfl⟩
  | flightRun k =>
    unfold step stepFlightRun; dsimp only
    split
    · exact ⟨rfl, rfl⟩
    · exact stopped_loss _
    · exact stopped_next _
    · exact ⟨rfl, rfl⟩
  | closeRun =>
    unfold step stepCloseRun; dsimp only
    split <;> exact ⟨rfl, rfl⟩
  | lossRun =>
    unfold step stepLossRun; dsimp only
    split
    · exact ⟨rfl, rfl⟩
    · exact stopped_loss _
  | peekDone ok =>
    unfold step stepPeek; dsimp only
    split
    · exact ⟨rfl, rfl⟩
    · split
      · exact ⟨rfl, rfl⟩
      · exact stopped_loss _

theorem accepted_stopped (st : State) (h : st.stopped = true) (steps : List Step) :
    (run st steps).accepted = st.accepted := by
  induction steps generalizing st with
  | nil => rfl
  | cons a l ih =>
    show (run (step st a) l).accepted = _
    by_cases h1 : a = .stop
    · subst h1; exact ih _ rfl
    · by_cases h2 : ∃ c, a = .call c
      · obtain ⟨c, rfl⟩ := h2
        have : step st (.call c) = st := by unfold step stepCall; dsimp only; rw [if_pos h]
        rw [this]; exact ih _ h
      · have := stopped_step st a h1 (fun c e => h2 ⟨c, e⟩)
        rw [ih _ (this.1.trans h), this.2]

theorem accepted_running (st : State) (h : st.stopped = false) (steps : List Step) :
    (run st steps).accepted = st.accepted ++ callsUntilStop steps := by
  induction steps generalizing st with
  | nil => exact (List.append_nil _).symm
  | cons a l ih =>
    show (run (step st a) l).accepted = _
    by_cases h1 : a = .stop
    · subst h1
      rw [accepted_stopped _ rfl]
      exact (List.append_nil _).symm
    · by_cases h2 : ∃ c, a = .call c
      · obtain ⟨c, rfl⟩ := h2
        have : step st (.call c) = { st with posted := st.posted ++ [c], accepted := st.accepted ++ [c] } := by
          unfold step stepCall; dsimp only; rw [h]; rfl
        rw [this, ih { st with posted := st.posted ++ [c], accepted := st.accepted ++ [c] } h]
        show st.accepted ++ [c] ++ callsUntilStop l = st.accepted ++ c :: callsUntilStop l
        rw [List.append_assoc]; rfl
      · have := stopped_step st a h1 (fun c e => h2 ⟨c, e⟩)
        have e : callsUntilStop (a :: l) = callsUntilStop l := by
          cases a <;> first | rfl | exact absurd rfl h1 | exact absurd ⟨_, rfl⟩ h2
        rw [ih _ (this.1.trans h), this.2, e]

/-- **C92 (exactly the calls before `stop` are accepted).**  Whatever the state of the connection, a call
is accepted if and only if it is made before the session is stopped. -/
theorem C92_accepted_until_stop (n : Nat) (steps : List Step) :
    (run (init n) steps).accepted = callsUntilStop steps := by
  rw [accepted_running _ rfl]; rfl

example : callsUntilStop [.call 1, .setupDone false, .call 2, .stop, .call 3] = [1, 2] := by decide

end Ecal.Service.ClientV0
