import Verif.Service.ClientConn

/-! # C40: a client's connections and its connect/disconnect notifications -/

namespace Ecal.Service.ClientConn

open Ecal

/-! ## Specification -/

/-- Reads the notifications about one server: `some b` – they alternate, beginning with
`connected`, and the last one was `connected` iff `b`; `none` – they do not alternate. -/
def altStep (k : Nat) (s : Option Bool) : Event → Option Bool
  | .connected j => if j = k then (if s = some false then some true else none) else s
  | .disconnected j => if j = k then (if s = some true then some false else none) else s

def alternation (k : Nat) (events : List Event) : Option Bool := events.foldl (altStep k) (some false)

/-! ## Alternation -/

def Inv (st : State) : Prop := ∀ k, alternation k st.events = some (decide (k ∈ st.connected))

theorem alternation_snoc (k : Nat) (l : List Event) (e : Event) :
    alternation k (l ++ [e]) = altStep k (alternation k l) e := by simp [alternation]

theorem inv_register {st : State} (h : Inv st) (key : Nat) : Inv (registerService st key) := by
  intro k
  unfold registerService
  by_cases hk : key ∈ st.connected
  · rw [if_pos hk]; exact h k
  · rw [if_neg hk]
    show alternation k (st.events ++ [.connected key]) = some (decide (k ∈ key :: st.connected))
    rw [alternation_snoc, h k]
    by_cases hkk : key = k
    · subst hkk; simp [altStep, hk]
    · have hkk' : ¬ k = key := fun h => hkk h.symm
      simp [altStep, hkk, hkk']

theorem inv_checkDisc {st : State} (h : Inv st) (e : Nat × Sess) : Inv (checkDisc st e) := by
  intro k
  unfold checkDisc
  by_cases h1 : e.2 = .failed
  · rw [if_pos h1]
    by_cases h2 : e.1 ∈ st.connected
    · rw [if_pos h2]
      show alternation k (st.events ++ [.disconnected e.1]) =
        some (decide (k ∈ st.connected.filter (fun k => k != e.1)))
      rw [alternation_snoc, h k]
      by_cases hkk : e.1 = k
      · subst hkk; simp [altStep, h2]
      · have hkk' : ¬ k = e.1 := fun h => hkk h.symm
        simp [altStep, hkk, hkk']
    · rw [if_neg h2]; exact h k
  · rw [if_neg h1]; exact h k

theorem inv_foldDisc (l : List (Nat × Sess)) {st : State} (h : Inv st) :
    Inv (l.foldl checkDisc st) := by
  induction l generalizing st with
  | nil => exact h
  | cons e l ih => exact ih (inv_checkDisc h e)

theorem checkNew_frame (st : State) (k : Nat) :
    (checkNew st k).events = st.events ∧ (checkNew st k).connected = st.connected ∧
      (checkNew st k).known = st.known := by
  unfold checkNew; split <;> exact ⟨rfl, rfl, rfl⟩

theorem foldNew_frame (l : List Nat) (st : State) :
    (l.foldl checkNew st).events = st.events ∧ (l.foldl checkNew st).connected = st.connected ∧
      (l.foldl checkNew st).known = st.known := by
  induction l generalizing st with
  | nil => exact ⟨rfl, rfl, rfl⟩
  | cons k l ih =>
    obtain ⟨a, b, c⟩ := ih (checkNew st k)
    obtain ⟨a', b', c'⟩ := checkNew_frame st k
    exact ⟨a.trans a', b.trans b', c.trans c'⟩

theorem inv_step {st : State} (h : Inv st) (a : Step) : Inv (step st a) := by
  cases a with
  | announce key =>
    have h' : Inv { st with known := if key ∈ st.known then st.known else key :: st.known } := h
    exact inv_register h' key
  | expire key => exact h
  | cycle =>
    apply inv_foldDisc
    intro k
    rw [(foldNew_frame _ _).1, (foldNew_frame _ _).2.1]
    exact h k
  | established key =>
    simp only [step]
    split
    · exact h
    · exact h
  | failed key =>
    simp only [step]
    split
    · exact h
    · exact h

theorem inv_run (steps : List Step) {st : State} (h : Inv st) : Inv (run st steps) := by
  induction steps generalizing st with
  | nil => exact h
  | cons a l ih => exact ih (inv_step h a)

/-- **C40 (alternation).**  For every history and every server, connect and disconnect
notifications alternate, beginning with `connected`, and the client counts the server as connected
iff the last notification about it was `connected`. -/
theorem C40_notifications_alternate (steps : List Step) (k : Nat) :
    alternation k (run {} steps).events = some (decide (k ∈ (run {} steps).connected)) :=
  inv_run steps (fun _ => rfl) k

/-- The answer of `IsConnected` is determined by the notifications. -/
theorem C40_is_connected (steps : List Step) :
    isConnected (run {} steps) = true ↔
      ∃ k, alternation k (run {} steps).events = some true := by
  constructor
  · intro h
    cases hc : (run {} steps).connected with
    | nil => simp [isConnected, hc] at h
    | cons k l => exact ⟨k, by rw [C40_notifications_alternate, hc]; simp⟩
  · rintro ⟨k, hk⟩
    rw [C40_notifications_alternate] at hk
    simp only [Option.some.injEq, decide_eq_true_eq] at hk
    unfold isConnected
    cases hc : (run {} steps).connected with
    | nil => rw [hc] at hk; cases hk
    | cons k l => rfl

/-! ## New servers get a session -/

theorem checkDisc_sessions (st : State) (e : Nat × Sess) :
    (checkDisc st e).sessions = st.sessions ∧ (checkDisc st e).known = st.known := by
  unfold checkDisc; split
  · split <;> exact ⟨rfl, rfl⟩
  · exact ⟨rfl, rfl⟩

theorem foldDisc_sessions (l : List (Nat × Sess)) (st : State) :
    (l.foldl checkDisc st).sessions = st.sessions ∧ (l.foldl checkDisc st).known = st.known := by
  induction l generalizing st with
  | nil => exact ⟨rfl, rfl⟩
  | cons e l ih =>
    have := ih (checkDisc st e)
    exact ⟨this.1.trans (checkDisc_sessions st e).1, this.2.trans (checkDisc_sessions st e).2⟩

theorem checkNew_find (st : State) (k j : Nat) :
    (checkNew st k).sessions.find j =
      if k = j ∧ st.sessions.find j = none then some .connecting else st.sessions.find j := by
  unfold checkNew
  cases hf : st.sessions.find k with
  | none =>
    simp only [AMap.find_set]
    by_cases hkj : k = j
    · subst hkj; simp [hf]
    · simp [hkj]
  | some s =>
    by_cases hkj : k = j
    · subst hkj; simp [hf]
    · simp [hkj]

theorem foldNew_find (l : List Nat) (st : State) (j : Nat) :
    (l.foldl checkNew st).sessions.find j =
      if j ∈ l ∧ st.sessions.find j = none then some .connecting else st.sessions.find j := by
  induction l generalizing st with
  | nil => simp
  | cons k l ih =>
    rw [List.foldl_cons, ih, checkNew_find]
    by_cases hkj : k = j
    · subst hkj
      by_cases hn : st.sessions.find k = none <;> simp [hn]
    · have hjk : ¬ j = k := fun h => hkj h.symm
      simp [hkj, hjk]

theorem cycle_find (st : State) (j : Nat) :
    (step st .cycle).sessions.find j =
      if j ∈ st.known ∧ st.sessions.find j = none then some .connecting else st.sessions.find j := by
  simp only [step]
  rw [(foldDisc_sessions _ _).1, foldNew_find]

/-- **C40 (part).**  A server seen for the first time – in particular one that was restarted, since
its key is new – gets a session at the next registration cycle. -/
theorem C40_new_server_gets_session_partial (st : State) (k : Nat)
    (hnew : st.sessions.find k = none) :
    (run st [.announce k, .cycle]).sessions.find k = some .connecting := by
  show (step (step st (.announce k)) .cycle).sessions.find k = _
  rw [cycle_find]
  have h1 : k ∈ (step st (.announce k)).known := by
    simp only [step, registerService]
    by_cases hk : k ∈ st.known <;> split <;> simp [hk]
  have h2 : (step st (.announce k)).sessions = st.sessions := by
    simp only [step, registerService]; split <;> rfl
  rw [h2, hnew]
  simp [h1]

/-! ## A failed connection is never replaced -/

theorem failed_step {st : State} {k : Nat} (h : st.sessions.find k = some .failed) (a : Step) :
    (step st a).sessions.find k = some .failed := by
  cases a with
  | announce key =>
    simp only [step, registerService]
    split <;> exact h
  | expire key => exact h
  | cycle => rw [cycle_find, h]; simp
  | established key =>
    simp only [step]
    split
    · rename_i hc
      by_cases hk : key = k
      · subst hk; rw [h] at hc; cases hc
      · rw [AMap.find_set_ne _ _ _ _ hk]; exact h
    · exact h
  | failed key =>
    simp only [step]
    split
    · by_cases hk : key = k
      · subst hk; simp
      · rw [AMap.find_set_ne _ _ _ _ hk]; exact h
    · exact h

/-- **C40 is violated**, in every history: once the connection to a server has failed, it stays
failed whatever the server announces and however many cycles pass. -/
theorem C40_violated_never_reconnects (st : State) (k : Nat)
    (h : st.sessions.find k = some .failed) (steps : List Step) :
    (run st steps).sessions.find k = some .failed := by
  induction steps generalizing st with
  | nil => exact h
  | cons a l ih => exact ih (step st a) (failed_step h a)

/-- … and such a state is reached by: announcement, cycle, connected, failed. -/
theorem C40_violated_never_reconnects_reachable (k : Nat) :
    (run {} [.announce k, .cycle, .established k, .failed k]).sessions.find k = some .failed := by
  simp [run, step, registerService, checkNew, checkDisc, AMap.find, AMap.set]

def flap (k : Nat) : Nat → List Event
  | 0 => []
  | n + 1 => .disconnected k :: .connected k :: flap k n

theorem flap_round (k : Nat) (ev : List Event) :
    run { known := [k], sessions := [(k, .failed)], connected := [k], events := ev }
        [.cycle, .announce k] =
      { known := [k], sessions := [(k, .failed)], connected := [k],
        events := ev ++ [.disconnected k, .connected k] } := by
  simp [run, step, registerService, checkNew, checkDisc, AMap.find]

/-- **C40 is violated (flapping).**  While the server keeps announcing itself, each further cycle
reports a disconnect and each announcement a new connect, for ever, although nothing changes. -/
theorem C40_violated_flapping (k n : Nat) :
    (run {} ([.announce k, .cycle, .established k, .failed k] ++
      (List.replicate n [Step.cycle, .announce k]).flatten)).events =
        .connected k :: flap k n := by
  have h0 : run {} [.announce k, .cycle, .established k, .failed k] =
      { known := [k], sessions := [(k, .failed)], connected := [k], events := [.connected k] } := by
    simp [run, step, registerService, checkNew, checkDisc, AMap.find, AMap.set]
  rw [show run {} ([.announce k, .cycle, .established k, .failed k] ++
    (List.replicate n [Step.cycle, .announce k]).flatten) =
      run (run {} [.announce k, .cycle, .established k, .failed k])
        (List.replicate n [Step.cycle, .announce k]).flatten by simp [run], h0]
  have hgen : ∀ (n : Nat) (ev : List Event),
      (run { known := [k], sessions := [(k, .failed)], connected := [k], events := ev }
        (List.replicate n [Step.cycle, .announce k]).flatten).events = ev ++ flap k n := by
    intro n
    induction n with
    | zero => intro ev; simp [run, flap]
    | succ n ih =>
      intro ev
      rw [List.replicate_succ, List.flatten_cons]
      rw [show run { known := [k], sessions := [(k, .failed)], connected := [k], events := ev }
        ([Step.cycle, .announce k] ++ (List.replicate n [Step.cycle, .announce k]).flatten) =
          run (run { known := [k], sessions := [(k, .failed)], connected := [k], events := ev }
            [.cycle, .announce k]) (List.replicate n [Step.cycle, .announce k]).flatten by
        simp [run]]
      rw [flap_round, ih]
      simp [flap]
  rw [hgen n]
  rfl

/-- A connection can be reported before – and without – any TCP connection: the notification follows
the announcement, not the connection. -/
theorem C40_violated_connected_without_session (k : Nat) :
    (run {} [.announce k]).events = [.connected k] ∧ (run {} [.announce k]).sessions = [] := by
  simp [run, step, registerService]

/-- Two accesses that may run at the same time race if one writes and they share no lock. -/
def Race (a b : Access) : Prop := (a.writes = true ∨ b.writes = true) ∧ ∀ l ∈ a.locks, l ∉ b.locks

/-- A finding: the registration thread erases from the connected map without holding its lock, while
the receive thread inserts and the application reads under that lock. -/
theorem C40_violated_race :
    (∃ a ∈ accesses .registerService, ∃ b ∈ accesses .checkForDisconnected, Race a b) ∧
    (∃ a ∈ accesses .isConnected, ∃ b ∈ accesses .checkForDisconnected, Race a b) := by
  refine ⟨⟨⟨true, [.connectedMap]⟩, by decide, ⟨true, [.clientMap]⟩, by decide, Or.inl rfl, by decide⟩,
    ⟨⟨false, [.connectedMap]⟩, by decide, ⟨true, [.clientMap]⟩, by decide, Or.inr rfl, by decide⟩⟩

example : (run {} [.announce 1, .announce 2, .cycle, .established 1, .failed 1, .cycle,
    .announce 1]).events =
      [.connected 1, .connected 2, .disconnected 1, .connected 1] := by decide +kernel

/-- **C40** The gate knows a server exactly as long as its last announcement has not expired. -/
theorem C40_known_until_expired (steps : List Step) (k : Nat) :
    k ∈ (run {} steps).known ↔ ∃ pre post, steps = pre ++ .announce k :: post ∧ .expire k ∉ post := by
  have key : ∀ (r : List Step), k ∈ (run {} r.reverse).known ↔
      ∃ pre post, r.reverse = pre ++ .announce k :: post ∧ .expire k ∉ post := by
    intro r
    induction r with
    | nil => simp [run]
    | cons a r ih =>
      have hrun : run {} (a :: r).reverse = step (run {} r.reverse) a := by simp [run, List.foldl_append]
      have hext : (∃ pre post, (a :: r).reverse = pre ++ .announce k :: post ∧ .expire k ∉ post) ↔
          a = .announce k ∨
            (a ≠ .expire k ∧ ∃ pre post, r.reverse = pre ++ .announce k :: post ∧ .expire k ∉ post) := by
        constructor
        · rintro ⟨pre, post, h1, h2⟩
          rcases List.eq_nil_or_concat post with rfl | ⟨p', x, rfl⟩
          · have : r.reverse ++ [a] = pre ++ [.announce k] := by simpa using h1
            have := List.append_inj' this rfl
            simp at this
            exact Or.inl this.2
          · have : r.reverse ++ [a] = (pre ++ .announce k :: p') ++ [x] := by simpa using h1
            have := List.append_inj' this rfl
            simp only [List.cons.injEq, and_true] at this
            refine Or.inr ⟨?_, pre, p', this.1, fun hm => h2 (by simp [hm])⟩
            rintro rfl
            exact h2 (by simp [← this.2])
        · rintro (rfl | ⟨h1, pre, post, h2, h3⟩)
          · exact ⟨r.reverse, [], by simp, by simp⟩
          · refine ⟨pre, post ++ [a], by simp [h2], ?_⟩
            simp [h3]
            exact fun h => h1 h.symm
      rw [hrun, hext, ← ih]
      have hreg : ∀ (s : State) (j : Nat), (registerService s j).known = s.known := by
        intro s j; unfold registerService; split <;> rfl
      have hnew : ∀ (l : List Nat) (s : State), (l.foldl checkNew s).known = s.known := by
        intro l
        induction l with
        | nil => intro s; rfl
        | cons x l ih => intro s; rw [List.foldl_cons, ih]; unfold checkNew; split <;> rfl
      have hdisc : ∀ (l : List (Nat × Sess)) (s : State), (l.foldl checkDisc s).known = s.known := by
        intro l
        induction l with
        | nil => intro s; rfl
        | cons x l ih => intro s; rw [List.foldl_cons, ih]; unfold checkDisc; split <;> (try split) <;> rfl
      cases a with
      | announce j =>
        simp only [step, hreg]
        by_cases hj : j = k
        · subst hj
          by_cases hm : j ∈ (run {} r.reverse).known <;> simp [hm]
        · by_cases hm : j ∈ (run {} r.reverse).known <;> simp [hm, hj, Ne.symm hj]
      | expire j => simp [step]; grind
      | cycle => simp only [step, hdisc, hnew]; simp
      | established j => simp only [step]; split <;> simp
      | failed j => simp only [step]; split <;> simp
  simpa using key steps.reverse

/-- … and a server that is not known gets no session. -/
theorem C40_expired_gets_no_session (st : State) (k : Nat) (h1 : k ∉ st.known) (h2 : st.sessions.find k = none) :
    (step st .cycle).sessions.find k = none := by
  rw [cycle_find]
  simp [h1, h2]

example : 1 ∉ (run {} [.announce 1, .announce 2, .expire 1]).known ∧
    2 ∈ (run {} [.announce 1, .announce 2, .expire 1]).known := by decide

end Ecal.Service.ClientConn
