import Verif.Service.ServerSession

/-! # C36, C37: server sessions -/

namespace Ecal.Service.Server

namespace V1

variable {Req Resp : Type}

/-- Relation between the observations in each phase. -/
def Inv (st : State Req Resp) : Prop :=
  match st.phase with
  | .hsReceive => st.received = [] ∧ st.calls = [] ∧ st.written = [] ∧ st.events = []
  | .hsSend => st.received = [] ∧ st.calls = [] ∧ st.written = [] ∧ st.events = []
  | .receive => st.calls.map Prod.fst = st.received ∧ st.calls.map Prod.snd = st.written ∧
      st.events = [.connected]
  | .badType => st.calls.map Prod.fst = st.received ∧ st.calls.map Prod.snd = st.written ∧
      st.events = [.connected]
  | .dispatch r => st.calls.map Prod.fst ++ [r] = st.received ∧
      st.calls.map Prod.snd = st.written ∧ st.events = [.connected]
  | .send r a => st.calls.map Prod.fst = st.received ∧
      st.calls.map Prod.snd = st.written ++ [a] ∧ (∃ pre, st.calls = pre ++ [(r, a)]) ∧
      st.events = [.connected]
  | .failed => st.calls.map Prod.fst = st.received ∧
      (st.calls.map Prod.snd = st.written ∨ ∃ a, st.calls.map Prod.snd = st.written ++ [a]) ∧
      (st.events = [] ∧ st.received = [] ∨ st.events = [.connected, .disconnected])

theorem inv_step {st : State Req Resp} (h : Inv st) (a : Step Req Resp) : Inv (step st a) := by
  obtain ⟨phase, isOpen, received, calls, written, events⟩ := st
  cases phase <;> cases a <;>
    simp only [step, fail] <;>
    first
      | exact h
      | (split <;> simp_all [Inv]; done)
      | (simp_all [Inv]; done)

theorem inv_run (steps : List (Step Req Resp)) : Inv (run ({} : State Req Resp) steps) := by
  have key : ∀ (l : List (Step Req Resp)) (st : State Req Resp), Inv st → Inv (run st l) := by
    intro l
    induction l with
    | nil => intro st h; exact h
    | cons a l ih => intro st h; exact ih _ (inv_step h a)
  exact key steps {} ⟨rfl, rfl, rfl, rfl⟩

/-- **C36 (once per request, in arrival order).**  The service callback has been run once for every
received request, in the order of arrival; at most the last request is still waiting for its run. -/
theorem C36_callback_per_request (steps : List (Step Req Resp)) :
    let st := run ({} : State Req Resp) steps
    st.received = st.calls.map Prod.fst ∨
      ∃ r, st.phase = .dispatch r ∧ st.received = st.calls.map Prod.fst ++ [r] := by
  simp only
  have h := inv_run steps
  generalize run ({} : State Req Resp) steps = st at h ⊢
  unfold Inv at h
  cases hp : st.phase with
  | dispatch r => rw [hp] at h; exact Or.inr ⟨r, rfl, h.1.symm⟩
  | hsReceive => rw [hp] at h; left; rw [h.1, h.2.1]; rfl
  | hsSend => rw [hp] at h; left; rw [h.1, h.2.1]; rfl
  | receive => rw [hp] at h; exact Or.inl h.1.symm
  | badType => rw [hp] at h; exact Or.inl h.1.symm
  | send r a => rw [hp] at h; exact Or.inl h.1.symm
  | failed => rw [hp] at h; exact Or.inl h.1.symm

/-- **C36 (one response per request, in order).**  The responses written are those the callback
returned, in the order of the requests; at most the last one is missing. -/
theorem C36_response_per_call (steps : List (Step Req Resp)) :
    let st := run ({} : State Req Resp) steps
    st.written = st.calls.map Prod.snd ∨ ∃ a, st.written ++ [a] = st.calls.map Prod.snd := by
  simp only
  have h := inv_run steps
  generalize run ({} : State Req Resp) steps = st at h ⊢
  unfold Inv at h
  cases hp : st.phase with
  | dispatch r => rw [hp] at h; exact Or.inl h.2.1.symm
  | hsReceive => rw [hp] at h; left; rw [h.2.1, h.2.2.1]; rfl
  | hsSend => rw [hp] at h; left; rw [h.2.1, h.2.2.1]; rfl
  | receive => rw [hp] at h; exact Or.inl h.2.1.symm
  | badType => rw [hp] at h; exact Or.inl h.2.1.symm
  | send r a => rw [hp] at h; exact Or.inr ⟨a, h.2.1.symm⟩
  | failed =>
    rw [hp] at h
    rcases h.2.1 with h' | ⟨a, h'⟩
    · exact Or.inl h'.symm
    · exact Or.inr ⟨a, h'.symm⟩

/-- **C36 (one by one).**  A further request is taken from the connection only when all earlier
ones have been answered: whenever the session is able to receive, everything received has been
run and answered. -/
theorem C36_answer_before_next (steps : List (Step Req Resp))
    (h : (run ({} : State Req Resp) steps).phase = .receive) :
    (run ({} : State Req Resp) steps).written.length =
      (run ({} : State Req Resp) steps).received.length := by
  have hi := inv_run steps
  generalize run ({} : State Req Resp) steps = st at h hi ⊢
  unfold Inv at hi
  rw [h] at hi
  rw [← hi.1, ← hi.2.1, List.length_map, List.length_map]

/-- At any time the number of received requests exceeds the number of responses by at most one. -/
theorem C36_one_outstanding (steps : List (Step Req Resp)) :
    (run ({} : State Req Resp) steps).written.length ≤
      (run ({} : State Req Resp) steps).received.length ∧
    (run ({} : State Req Resp) steps).received.length ≤
      (run ({} : State Req Resp) steps).written.length + 1 := by
  have h := inv_run steps
  generalize run ({} : State Req Resp) steps = st at h ⊢
  unfold Inv at h
  cases hp : st.phase with
  | hsReceive => rw [hp] at h; simp [h.1, h.2.2.1]
  | hsSend => rw [hp] at h; simp [h.1, h.2.2.1]
  | receive => rw [hp] at h; rw [← h.1, ← h.2.1]; simp
  | badType => rw [hp] at h; rw [← h.1, ← h.2.1]; simp
  | dispatch r => rw [hp] at h; rw [← h.1, ← h.2.1]; simp
  | send r a =>
    rw [hp] at h
    have := congrArg List.length h.2.1
    rw [← h.1]
    simp at this ⊢
    omega
  | failed =>
    rw [hp] at h
    rcases h.2.1 with h' | ⟨a, h'⟩
    · have := congrArg List.length h'
      rw [← h.1]; simp at this ⊢; omega
    · have := congrArg List.length h'
      rw [← h.1]; simp at this ⊢; omega

/-- The session reports nothing, `connected`, or `connected` and then `disconnected`; a callback runs
only after `connected`. -/
theorem C36_events (steps : List (Step Req Resp)) :
    let st := run ({} : State Req Resp) steps
    (st.events = [] ∧ st.calls = []) ∨ st.events = [.connected] ∨
      st.events = [.connected, .disconnected] := by
  simp only
  have h := inv_run steps
  generalize run ({} : State Req Resp) steps = st at h ⊢
  unfold Inv at h
  cases hp : st.phase with
  | hsReceive => rw [hp] at h; exact Or.inl ⟨h.2.2.2, h.2.1⟩
  | hsSend => rw [hp] at h; exact Or.inl ⟨h.2.2.2, h.2.1⟩
  | receive => rw [hp] at h; exact Or.inr (Or.inl h.2.2)
  | badType => rw [hp] at h; exact Or.inr (Or.inl h.2.2)
  | dispatch r => rw [hp] at h; exact Or.inr (Or.inl h.2.2)
  | send r a => rw [hp] at h; exact Or.inr (Or.inl h.2.2.2)
  | failed =>
    rw [hp] at h
    rcases h.2.2 with ⟨h1, h2⟩ | h1
    · left
      refine ⟨h1, ?_⟩
      have := h.1
      rw [h2] at this
      simpa using this
    · exact Or.inr (Or.inr h1)

theorem closed_step (st : State Req Resp) (h : st.isOpen = false) (a : Step Req Resp) :
    (step st a).isOpen = false ∧ (step st a).received = st.received ∧ (step st a).written = st.written := by
  cases a <;> simp only [step] <;> (try split) <;> simp_all [fail]

/-- **C36 (stop).**  After `stop` no further request is taken from the connection and no response is written;
at most the request received before is still run. -/
theorem C36_stop_final (pre post : List (Step Req Resp)) :
    let st := run ({} : State Req Resp) pre
    let st' := run (step st .stop) post
    st'.received = st.received ∧ st'.written = st.written ∧ st'.calls.length ≤ st.received.length := by
  simp only
  have key : ∀ (l : List (Step Req Resp)) (st : State Req Resp), st.isOpen = false →
      (run st l).received = st.received ∧ (run st l).written = st.written := by
    intro l
    induction l with
    | nil => intro st _; exact ⟨rfl, rfl⟩
    | cons a l ih =>
      intro st h
      obtain ⟨h1, h2, h3⟩ := closed_step st h a
      obtain ⟨h4, h5⟩ := ih _ h1
      exact ⟨h4.trans h2, h5.trans h3⟩
  obtain ⟨h1, h2⟩ := key post (step (run {} pre) .stop) rfl
  refine ⟨h1, h2, ?_⟩
  have hrun : run (step (run ({} : State Req Resp) pre) .stop) post = run {} (pre ++ .stop :: post) := by
    simp [run]
  have h3 : (run (step (run ({} : State Req Resp) pre) .stop) post).received =
      (run ({} : State Req Resp) pre).received := h1
  rw [← h3, hrun]
  rcases C36_callback_per_request (pre ++ .stop :: post) with h | ⟨r, _, h⟩
  · rw [h, List.length_map]; exact Nat.le_refl _
  · rw [h, List.length_append, List.length_map]; exact Nat.le_add_right ..

/-- Once failed, a session never runs a callback or writes a response again. -/
theorem C36_failed_is_final (st : State Req Resp) (h : st.phase = .failed)
    (steps : List (Step Req Resp)) :
    (run st steps).phase = .failed ∧ (run st steps).calls = st.calls ∧
      (run st steps).written = st.written ∧ (run st steps).events = st.events := by
  induction steps generalizing st with
  | nil => exact ⟨h, rfl, rfl, rfl⟩
  | cons a l ih =>
    have key : (step st a).phase = .failed ∧ (step st a).calls = st.calls ∧
        (step st a).written = st.written ∧ (step st a).events = st.events := by
      cases a <;> simp only [step, h, and_self]
    obtain ⟨h1, h2, h3, h4⟩ := ih (step st a) key.1
    exact ⟨h1, h2.trans key.2.1, h3.trans key.2.2.1, h4.trans key.2.2.2⟩

example : (run ({} : State Nat Nat) [.hsReceived true, .hsSent true, .request 1, .runHandler 101,
    .sent true, .request 2, .runHandler 102, .sent false]) =
    { phase := .failed, isOpen := true, received := [1, 2], calls := [(1, 101), (2, 102)],
      written := [101], events := [.connected, .disconnected] } := by decide

end V1

namespace V0

/-- Bytes taken from the connection and not yet given to the callback. -/
def pending (st : State) : Bytes :=
  match st.phase with
  | .reading req => req
  | .handler req data => req ++ data
  | .writing => []
  | .failed => []

/-- No bytes are lost, duplicated or reordered on the way to the callbacks: the requests handed to
the callback, the bytes collected for the next one and the bytes waiting in the socket are together
exactly the bytes that arrived (as long as the session has not failed). -/
theorem C37_bytes_conserved (steps : List Step) (h : (run {} steps).phase ≠ .failed) :
    (run {} steps).calls.flatten ++ pending (run {} steps) ++ (run {} steps).sock =
      (run {} steps).arrived := by
  have key : ∀ (l : List Step) (st : State),
      (st.phase ≠ .failed → st.calls.flatten ++ pending st ++ st.sock = st.arrived) →
      (run st l).phase ≠ .failed →
      (run st l).calls.flatten ++ pending (run st l) ++ (run st l).sock = (run st l).arrived := by
    intro l
    induction l with
    | nil => intro st h; exact h
    | cons a l ih =>
      intro st h
      refine ih (step st a) ?_
      obtain ⟨phase, sock, arrived, calls, events⟩ := st
      cases a with
      | arrive bs =>
        intro hf
        have := h hf
        simp only [step, pending] at this ⊢
        rw [← this, List.append_assoc, List.append_assoc, List.append_assoc]
      | readDone k =>
        cases phase with
        | reading req =>
          simp only [step]
          split
          · exact h
          · intro _
            have := h (by simp)
            simp only [pending] at this ⊢
            rw [← this]
            simp [List.append_assoc]
        | handler req data => exact h
        | writing => exact h
        | failed => exact h
      | readError =>
        cases phase with
        | reading req => intro hf; exact absurd rfl hf
        | handler req data => exact h
        | writing => exact h
        | failed => exact h
      | runHandler =>
        cases phase with
        | handler req data =>
          simp only [step]
          split
          · intro _
            have := h (by simp)
            simpa [pending] using this
          · rename_i hs
            intro _
            have := h (by simp)
            simp only [ne_eq, Classical.not_not] at hs
            simp only [pending] at this ⊢
            rw [← this, hs]
            simp
        | reading req => exact h
        | writing => exact h
        | failed => exact h
      | written ok =>
        cases phase with
        | writing =>
          simp only [step]
          split
          · intro _
            have := h (by simp)
            simpa [pending] using this
          · intro hf; exact absurd rfl hf
        | reading req => exact h
        | handler req data => exact h
        | failed => exact h
  exact key steps {} (fun _ => rfl) h

/-- **C37 is violated.**  A request of two bytes that arrives in two TCP segments reaches the
service callback as two requests. -/
theorem C37_violated_segmentation :
    (run {} [.arrive [1], .readDone 1023, .runHandler, .written true, .arrive [2], .readDone 1023,
      .runHandler]).calls = [[1], [2]] ∧
    (run {} [.arrive [1, 2], .readDone 1023, .runHandler]).calls = [[1, 2]] := by decide

/-- In general: any request can be split at any point. -/
theorem C37_violated_any_split (a b : Bytes) (ha : a ≠ []) (hb : b ≠ []) :
    (run {} [.arrive a, .readDone a.length, .runHandler, .written true, .arrive b,
      .readDone b.length, .runHandler]).calls = [a, b] := by
  have h1 : a.drop (a.length + 1) = [] := List.drop_eq_nil_of_le (by omega)
  have h2 : b.drop (b.length + 1) = [] := List.drop_eq_nil_of_le (by omega)
  have h3 : a.take (a.length + 1) = a := List.take_of_length_le (by omega)
  have h4 : b.take (b.length + 1) = b := List.take_of_length_le (by omega)
  simp [run, step, ha, hb, h1, h2, h3, h4]

/-- Two requests that are in the socket together are merged into one. -/
theorem C37_violated_merge (a b : Bytes) (h : a ++ b ≠ []) :
    (run {} [.arrive a, .arrive b, .readDone (a ++ b).length, .runHandler]).calls = [a ++ b] := by
  have h1 : (a ++ b).drop ((a ++ b).length + 1) = [] := List.drop_eq_nil_of_le (by omega)
  have h3 : (a ++ b).take ((a ++ b).length + 1) = a ++ b := List.take_of_length_le (by omega)
  simp only [run, List.foldl_cons, List.foldl_nil, step, List.nil_append, if_neg h, h1, h3, ne_eq,
    not_true_eq_false, if_false]

/-- The reads of a request: completions with arbitrary sizes, each followed by its handler. -/
def reads : List Nat → List Step
  | [] => []
  | k :: ks => .readDone k :: .runHandler :: reads ks

theorem reads_spec (ks : List Nat) (pre bs : Bytes) (st : State)
    (hp : st.phase = .reading pre) (hs : st.sock = bs) (hne : bs ≠ [])
    (henough : bs.length ≤ (ks.map (· + 1)).sum) :
    (run st (reads ks)).calls = st.calls ++ [pre ++ bs] := by
  induction ks generalizing pre bs st with
  | nil =>
    simp at henough
    exact absurd henough hne
  | cons k ks ih =>
    have hrun : run st (reads (k :: ks)) =
        run (step (step st (.readDone k)) .runHandler) (reads ks) := rfl
    rw [hrun]
    have h1 : step st (.readDone k) =
        { st with phase := .handler pre (bs.take (k + 1)), sock := bs.drop (k + 1) } := by
      simp only [step, hp, hs, if_neg hne]
    rw [h1]
    by_cases hd : bs.drop (k + 1) = []
    · have h2 : step { st with phase := .handler pre (bs.take (k + 1)), sock := bs.drop (k + 1) }
          .runHandler = { st with
            phase := .writing, sock := bs.drop (k + 1),
            calls := st.calls ++ [pre ++ bs.take (k + 1)] } := by
        simp [step, hd]
      rw [h2]
      have htake : bs.take (k + 1) = bs := by
        apply List.take_of_length_le
        have := congrArg List.length hd
        simp at this
        omega
      have hidle : ∀ (l : List Nat) (s : State), s.phase = .writing →
          (run s (reads l)).calls = s.calls := by
        intro l
        induction l with
        | nil => intro s _; rfl
        | cons j js ihj =>
          intro s hw
          have e : run s (reads (j :: js)) = run (step (step s (.readDone j)) .runHandler) (reads js) := rfl
          have e1 : step s (.readDone j) = s := by simp only [step, hw]
          have e2 : step s .runHandler = s := by simp only [step, hw]
          rw [e, e1, e2]
          exact ihj s hw
      rw [hidle _ _ rfl, htake]
    · have h2 : step { st with phase := .handler pre (bs.take (k + 1)), sock := bs.drop (k + 1) }
          .runHandler = { st with
            phase := .reading (pre ++ bs.take (k + 1)), sock := bs.drop (k + 1) } := by
        simp [step, hd]
      rw [h2]
      have := ih (pre ++ bs.take (k + 1)) (bs.drop (k + 1))
        { st with phase := .reading (pre ++ bs.take (k + 1)), sock := bs.drop (k + 1) } rfl rfl hd (by
          simp only [List.length_drop]
          simp only [List.map_cons, List.sum_cons] at henough
          omega)
      rw [this]
      simp [List.append_assoc]

/-- **C37 (partial).**  If the whole request is in the socket before the first read completes and
the peer sends nothing else until it has the response (which is what the eCAL client does), then the
callback gets it as one message, whatever sizes the single reads return. -/
theorem C37_whole_request_partial (ks : List Nat) (st : State) (request : Bytes)
    (hp : st.phase = .reading []) (hs : st.sock = []) (hne : request ≠ [])
    (henough : request.length ≤ (ks.map (· + 1)).sum) :
    (run st (.arrive request :: reads ks)).calls = st.calls ++ [request] := by
  have := reads_spec ks [] request (step st (.arrive request)) hp (by simp [step, hs]) hne henough
  simpa [run, step] using this

example : (run {} (.arrive [1, 2, 3, 4, 5] :: reads [1, 0, 4])).calls = [[1, 2, 3, 4, 5]] := by decide

/-- The end of a version 0 session is reported exactly once, when the session fails, and never before. -/
theorem C37_events (steps : List Step) :
    (run {} steps).events = if (run {} steps).phase = .failed then [.connected, .disconnected] else [.connected] := by
  have key : ∀ (l : List Step) (st : State),
      st.events = (if st.phase = .failed then [.connected, .disconnected] else [.connected]) →
      (run st l).events = if (run st l).phase = .failed then [.connected, .disconnected] else [.connected] := by
    intro l
    induction l with
    | nil => intro st h; exact h
    | cons a l ih =>
      intro st h
      refine ih (step st a) ?_
      cases a with
      | arrive bs => exact h
      | readDone k =>
        cases hp : st.phase <;> rw [hp] at h <;> simp [step, hp] <;> (try split) <;> simp_all
      | readError => cases hp : st.phase <;> rw [hp] at h <;> simp [step, hp, h]
      | runHandler =>
        cases hp : st.phase <;> rw [hp] at h <;> simp [step, hp] <;> (try split) <;> simp_all
      | written ok => cases hp : st.phase <;> rw [hp] at h <;> cases ok <;> simp [step, hp, h]
  exact key steps {} rfl

end V0

end Ecal.Service.Server
