import Verif.Service.Blocking

/-! # C38: blocking service calls -/

namespace Ecal.Service.Blocking

/-! ## Specification -/

/-- The servers addressed in a trace, in order, with the acceptance of the call. -/
def addressed : List Step → List (Srv × Bool)
  | [] => []
  | .address s acc :: l => (s, acc) :: addressed l
  | .answer _ _ :: l => addressed l
  | .finish :: l => addressed l
  | .expire :: l => addressed l

/-- The answers given for the `i`-th server in a trace. -/
def answersFor (i : Nat) : List Step → List Answer
  | [] => []
  | .answer j a :: l => if j = i then a :: answersFor i l else answersFor i l
  | .address _ _ :: l => answersFor i l
  | .finish :: l => answersFor i l
  | .expire :: l => answersFor i l

/-- Steps before the call returns. -/
def Working (pre : List Step) : Prop := ∀ s ∈ pre, s ≠ .finish ∧ s ≠ .expire

/-- A callback belongs to a server that has been addressed already, whose call was accepted, and
runs at most once (C34). -/
def WellFormed (pre : List Step) : Prop :=
  (∀ pre' i a, pre' ++ [Step.answer i a] <+: pre → ∃ s, (addressed pre')[i]? = some (s, true)) ∧
  ∀ i, (answersFor i pre).length ≤ 1

/-- What the entry of a server has to be, given the answer received in time (if any). -/
def specEntry (method : String) (s : Srv) (accepted : Bool) : Option Answer → Entry
  | none => (false,
      { host := s.host, service := s.name, id := s.key, method := method,
        error := if accepted then "Timeout" else "Stopped by user", ret := 0, state := .failed,
        data := "" })
  | some (.error msg) => (true,
      { host := s.host, service := s.name, id := s.key, method := method, error := msg, ret := 0,
        state := .failed, data := "" })
  | some .garbled => (true,
      { host := s.host, service := s.name, id := s.key, method := method,
        error := "Could not parse server response", ret := 0, state := .failed, data := "" })
  | some (.decoded r) => (true,
      { r with state := match r.state with
                        | .executed => .executed
                        | .failed => .failed
                        | .none => .failed })

/-! ## Proofs -/

theorem addressed_append (l m : List Step) : addressed (l ++ m) = addressed l ++ addressed m := by
  induction l with
  | nil => rfl
  | cons a l ih => cases a <;> simp [addressed, ih]

theorem answersFor_append (i : Nat) (l m : List Step) :
    answersFor i (l ++ m) = answersFor i l ++ answersFor i m := by
  induction l with
  | nil => rfl
  | cons a l ih =>
    cases a with
    | answer j b => simp only [List.cons_append, answersFor, ih]; split <;> simp
    | address s b => simpa [answersFor] using ih
    | finish => simpa [answersFor] using ih
    | expire => simpa [answersFor] using ih

theorem prefix_of_answer (i : Nat) : ∀ l : List Step, (∃ b, b ∈ answersFor i l) →
    ∃ p a, p ++ [Step.answer i a] <+: l
  | [], h => by obtain ⟨b, hb⟩ := h; simp [answersFor] at hb
  | .answer j c :: l, h => by
    by_cases hj : j = i
    · subst hj; exact ⟨[], c, by simp⟩
    · simp only [answersFor, if_neg hj] at h
      obtain ⟨p, a, hp⟩ := prefix_of_answer i l h
      exact ⟨.answer j c :: p, a, by simpa using hp⟩
  | .address s b :: l, h => by
    obtain ⟨p, a, hp⟩ := prefix_of_answer i l h
    exact ⟨.address s b :: p, a, by simpa using hp⟩
  | .finish :: l, h => by
    obtain ⟨p, a, hp⟩ := prefix_of_answer i l h
    exact ⟨.finish :: p, a, by simpa using hp⟩
  | .expire :: l, h => by
    obtain ⟨p, a, hp⟩ := prefix_of_answer i l h
    exact ⟨.expire :: p, a, by simpa using hp⟩

theorem snocInduction {α : Type} {motive : List α → Prop} (nil : motive [])
    (snoc : ∀ l a, motive l → motive (l ++ [a])) (l : List α) : motive l := by
  have h : ∀ r : List α, motive r.reverse := by
    intro r
    induction r with
    | nil => exact nil
    | cons a r ih => rw [List.reverse_cons]; exact snoc _ _ ih
  simpa using h l.reverse

/-- Result of the steps before the return. -/
structure PreInv (st : State) (method : String) (timeout : Bool) (pre : List Step) : Prop where
  method_eq : st.method = method
  timeout_eq : st.timeout = timeout
  open_ : st.blocked = false
  noresult : st.result = none
  length : st.entries.length = (addressed pre).length
  expected : st.expected = (addressed pre).length
  entries : ∀ i s acc, (addressed pre)[i]? = some (s, acc) →
    st.entries[i]? = some (specEntry method s acc (answersFor i pre).head?)
  finished : st.finished = ((addressed pre).filter (fun p => !p.2)).length +
    (pre.filter (fun s => match s with | .answer _ _ => true | _ => false)).length

theorem preInv (method : String) (timeout : Bool) (pre : List Step) (hw : Working pre)
    (hwf : WellFormed pre) :
    PreInv (run { method := method, timeout := timeout } pre) method timeout pre := by
  induction pre using snocInduction with
  | nil =>
    exact { method_eq := rfl, timeout_eq := rfl, open_ := rfl, noresult := rfl, length := rfl,
            expected := rfl, entries := by intro i s acc h; simp [addressed] at h, finished := rfl }
  | snoc pre a ih =>
    have hw' : Working pre := fun s hs => hw s (by simp [hs])
    have hwf' : WellFormed pre := by
      refine ⟨fun pre' i b h => hwf.1 pre' i b (h.trans (List.prefix_append _ _)), fun i => ?_⟩
      have := hwf.2 i
      rw [answersFor_append] at this
      simp at this; omega
    have h := ih hw' hwf'
    rw [show run { method := method, timeout := timeout } (pre ++ [a]) =
      step (run { method := method, timeout := timeout } pre) a by simp [run]]
    generalize run { method := method, timeout := timeout } pre = st at h
    cases a with
    | finish => exact absurd rfl (hw .finish (by simp)).1
    | expire => exact absurd rfl (hw .expire (by simp)).2
    | address s acc =>
      have hst : step st (.address s acc) = { st with
          expected := st.expected + 1
          entries := st.entries ++ [if acc then timeoutEntry s st.method else stoppedEntry s st.method]
          finished := if acc then st.finished else st.finished + 1 } := by
        simp [step, h.noresult]
      rw [hst]
      exact {
        method_eq := h.method_eq, timeout_eq := h.timeout_eq, open_ := h.open_, noresult := h.noresult
        length := by simp [h.length, addressed_append, addressed]
        expected := by simp [h.expected, addressed_append, addressed]
        entries := by
          intro i t b hi
          rw [answersFor_append]
          simp only [addressed_append, addressed] at hi
          show (st.entries ++ _)[i]? = _
          by_cases hlt : i < (addressed pre).length
          · rw [List.getElem?_append_left hlt] at hi
            rw [List.getElem?_append_left (by rw [h.length]; exact hlt)]
            simpa [answersFor] using h.entries i t b hi
          · rw [List.getElem?_append_right (by omega)] at hi
            have h0 : i - (addressed pre).length = 0 := by
              rcases Nat.eq_zero_or_pos (i - (addressed pre).length) with h0 | h0
              · exact h0
              · rw [List.getElem?_eq_none (by simp; omega)] at hi; cases hi
            rw [h0] at hi
            simp only [List.getElem?_cons_zero, Option.some.injEq, Prod.mk.injEq] at hi
            obtain ⟨rfl, rfl⟩ := hi
            rw [List.getElem?_append_right (by rw [h.length]; omega), h.length, h0]
            have hno : answersFor i pre = [] := by
              cases hans : answersFor i pre with
              | nil => rfl
              | cons b l =>
                exfalso
                obtain ⟨p, a, hp⟩ := prefix_of_answer i pre ⟨b, by simp [hans]⟩
                obtain ⟨s', hs'⟩ := hwf'.1 p i a hp
                obtain ⟨rest, hrest⟩ := hp
                have hlen := (List.getElem?_eq_some_iff.1 hs').1
                have : (addressed pre).length ≥ (addressed p).length := by
                  rw [← hrest, addressed_append, addressed_append]; simp
                omega
            rw [hno]
            cases acc <;> simp [answersFor, specEntry, timeoutEntry, stoppedEntry, h.method_eq]
        finished := by
          simp only [addressed_append, addressed, List.filter_append, List.length_append]
          have := h.finished
          cases acc <;> simp <;> omega }
    | answer i a =>
      obtain ⟨s, hs⟩ := hwf.1 pre i a (List.prefix_refl _)
      have hnone : answersFor i pre = [] := by
        have := hwf.2 i
        rw [answersFor_append] at this
        simp [answersFor] at this
        exact this
      have he := h.entries i s true hs
      rw [hnone] at he
      have hst : step st (.answer i a) = { st with
          finished := st.finished + 1
          entries := st.entries.set i (true, applyAnswer (specEntry method s true none).2 a) } := by
        simp [step, h.open_, he]
      rw [hst]
      exact {
        method_eq := h.method_eq, timeout_eq := h.timeout_eq, open_ := h.open_, noresult := h.noresult
        length := by simp [h.length, addressed_append, addressed]
        expected := by simp [h.expected, addressed_append, addressed]
        entries := by
          intro j t b hj
          simp only [addressed_append, addressed, List.append_nil] at hj
          rw [answersFor_append]
          by_cases hij : i = j
          · subst hij
            rw [hs] at hj
            simp only [Option.some.injEq, Prod.mk.injEq] at hj
            obtain ⟨rfl, rfl⟩ := hj
            have hlt : i < st.entries.length := (List.getElem?_eq_some_iff.1 he).1
            show (st.entries.set i _)[i]? = _
            rw [List.getElem?_set_self hlt, hnone]
            cases a with
            | error msg => simp [answersFor, specEntry, applyAnswer]
            | garbled => simp [answersFor, specEntry, applyAnswer]
            | decoded r =>
              obtain ⟨h1, h2, h3, h4, h5, h6, st', h8⟩ := r
              cases st' <;> simp [answersFor, specEntry, applyAnswer]
          · show (st.entries.set i _)[j]? = _
            rw [List.getElem?_set_ne hij]
            simpa [answersFor, hij] using h.entries j t b hj
        finished := by
          simp only [addressed_append, addressed, List.append_nil, List.filter_append,
            List.length_append]
          have := h.finished
          simp; omega }

/-- Everything after the return leaves the result alone. -/
theorem result_stable (post : List Step) (st : State) (r : List Entry) (h : st.result = some r) :
    (run st post).result = some r := by
  induction post generalizing st with
  | nil => exact h
  | cons a l ih =>
    apply ih
    cases a with
    | address s acc => simp [step, h]
    | answer i b =>
      simp only [step]
      split
      · exact h
      · split
        · exact h
        · exact h
    | finish => simp [step, h]
    | expire => simp [step, h]

/-- The steps with which a call can return. -/
def IsReturn (s : Step) : Prop := s = .finish ∨ s = .expire

/-- **C38.**  However many servers are addressed, whenever and in whatever order their answers
arrive, and whatever happens afterwards: if the call returns, the result has one entry per addressed
server, in order; each entry is that server's own answer if it arrived in time, and a timeout
entry otherwise (or the notice that the session was stopped). -/
theorem C38_result (method : String) (timeout : Bool) (pre post : List Step) (ret : Step)
    (result : List Entry) (hw : Working pre) (hwf : WellFormed pre) (hret : IsReturn ret)
    (hres : (run { method := method, timeout := timeout } (pre ++ [ret])).result = some result) :
    (run { method := method, timeout := timeout } (pre ++ ret :: post)).result = some result ∧
    result.length = (addressed pre).length ∧
    ∀ i s acc, (addressed pre)[i]? = some (s, acc) →
      result[i]? = some (specEntry method s acc (answersFor i pre).head?) := by
  have h := preInv method timeout pre hw hwf
  have hstable : (run { method := method, timeout := timeout } (pre ++ ret :: post)).result =
      some result := by
    rw [show pre ++ ret :: post = (pre ++ [ret]) ++ post by simp]
    rw [show run { method := method, timeout := timeout } ((pre ++ [ret]) ++ post) =
      run (run { method := method, timeout := timeout } (pre ++ [ret])) post by simp [run]]
    exact result_stable post _ result hres
  refine ⟨hstable, ?_⟩
  rw [show run { method := method, timeout := timeout } (pre ++ [ret]) =
    step (run { method := method, timeout := timeout } pre) ret by simp [run]] at hres
  have hent : result = (run { method := method, timeout := timeout } pre).entries := by
    rcases hret with rfl | rfl
    · simp only [step] at hres
      split at hres
      · simpa [doReturn] using hres.symm
      · rw [h.noresult] at hres; cases hres
    · simp only [step] at hres
      split at hres
      · simpa [doReturn] using hres.symm
      · rw [h.noresult] at hres; cases hres
  rw [hent]
  exact ⟨h.length, h.entries⟩

theorem entries_stable (post : List Step) (st : State) (r : List Entry) (h : st.result = some r) (hb : st.blocked = true)
    (he : st.entries = r) : (run st post).entries = r := by
  induction post generalizing st with
  | nil => exact he
  | cons a l ih =>
    have hs : (step st a).result = some r ∧ (step st a).blocked = true ∧ (step st a).entries = r := by
      cases a with
      | address s acc => simp [step, h, hb, he]
      | answer i b => simp [step, h, hb, he]
      | finish => simp [step, h, hb, he]
      | expire => simp [step, h, hb, he]
    exact ih _ hs.1 hs.2.1 hs.2.2

/-- **C38 (late answers).**  The caller is handed the list itself, not a copy, and reads it after the call has returned
(ecal_service_client_impl.cpp L198-210, L593): whatever arrives meanwhile, what is read is the result. -/
theorem C38_result_kept (method : String) (timeout : Bool) (pre post : List Step) (ret : Step)
    (result : List Entry) (hw : Working pre) (hwf : WellFormed pre) (hret : IsReturn ret)
    (hres : (run { method := method, timeout := timeout } (pre ++ [ret])).result = some result) :
    (run { method := method, timeout := timeout } (pre ++ ret :: post)).entries = result := by
  have h := preInv method timeout pre hw hwf
  have hrun : run { method := method, timeout := timeout } (pre ++ [ret]) =
    step (run { method := method, timeout := timeout } pre) ret := by simp [run]
  have hd : step (run { method := method, timeout := timeout } pre) ret = doReturn (run { method := method, timeout := timeout } pre) := by
    rw [hrun] at hres
    rcases hret with rfl | rfl
    · simp only [step] at hres ⊢
      split
      · rfl
      · rename_i hn
        rw [if_neg hn, h.noresult] at hres; cases hres
    · simp only [step] at hres ⊢
      split
      · rfl
      · rename_i hn
        rw [if_neg hn, h.noresult] at hres; cases hres
  rw [hrun, hd] at hres
  rw [show pre ++ ret :: post = (pre ++ [ret]) ++ post by simp]
  rw [show run { method := method, timeout := timeout } ((pre ++ [ret]) ++ post) =
    run (run { method := method, timeout := timeout } (pre ++ [ret])) post by simp [run], hrun, hd]
  exact entries_stable post _ result hres rfl (by simpa [doReturn] using hres)

/-- **C38 (success).**  The call reports success iff some server's answer that arrived in time says
that the method was executed. -/
theorem C38_success (method : String) (timeout : Bool) (pre : List Step) (ret : Step)
    (result : List Entry) (hw : Working pre) (hwf : WellFormed pre) (hret : IsReturn ret)
    (hres : (run { method := method, timeout := timeout } (pre ++ [ret])).result = some result) :
    success result = true ↔
      ∃ i s r, (addressed pre)[i]? = some (s, true) ∧ (answersFor i pre).head? = some (.decoded r) ∧
        r.state = .executed := by
  obtain ⟨_, hlen, hent⟩ := C38_result method timeout pre [] ret result hw hwf hret hres
  unfold success
  rw [List.any_eq_true]
  constructor
  · rintro ⟨e, hm, he⟩
    obtain ⟨i, hi⟩ := List.mem_iff_getElem?.1 hm
    have hlt : i < (addressed pre).length := by
      rw [← hlen]; exact (List.getElem?_eq_some_iff.1 hi).1
    obtain ⟨⟨s, acc⟩, hs⟩ : ∃ p, (addressed pre)[i]? = some p :=
      ⟨_, List.getElem?_eq_getElem hlt⟩
    have hspec := hent i s acc hs
    rw [hi] at hspec
    simp only [Option.some.injEq] at hspec
    subst hspec
    cases ha : (answersFor i pre).head? with
    | none => rw [ha] at he; simp [specEntry] at he
    | some a =>
      rw [ha] at he
      cases a with
      | error msg => simp [specEntry] at he
      | garbled => simp [specEntry] at he
      | decoded r =>
        -- an answer exists, so the call was accepted
        have hacc : acc = true := by
          have hne : ∃ b, b ∈ answersFor i pre := by
            cases hl : answersFor i pre with
            | nil => rw [hl] at ha; simp at ha
            | cons b l => exact ⟨b, by simp⟩
          obtain ⟨p, b, hp⟩ := prefix_of_answer i pre hne
          obtain ⟨s', hs'⟩ := hwf.1 p i b hp
          obtain ⟨rest, hrest⟩ := hp
          rw [← hrest, addressed_append, addressed_append, List.append_assoc,
            List.getElem?_append_left (List.getElem?_eq_some_iff.1 hs').1, hs'] at hs
          simp only [Option.some.injEq, Prod.mk.injEq] at hs
          exact hs.2.symm
        subst hacc
        refine ⟨i, s, r, hs, ha, ?_⟩
        cases hr : r.state <;> simp [specEntry, hr] at he ⊢
  · rintro ⟨i, s, r, hs, ha, hr⟩
    have := hent i s true hs
    rw [ha] at this
    refine ⟨_, List.mem_of_getElem? this, ?_⟩
    simp [specEntry, hr]

/-- Without a timeout the call returns exactly when every addressed server has been dealt with. -/
theorem C38_waits_for_all (method : String) (timeout : Bool) (pre : List Step) (hw : Working pre)
    (hwf : WellFormed pre) :
    (run { method := method, timeout := timeout } (pre ++ [.finish])).result.isSome ↔
      ((addressed pre).filter (fun p => p.2)).length =
        (pre.filter (fun s => match s with | .answer _ _ => true | _ => false)).length := by
  have h := preInv method timeout pre hw hwf
  rw [show run { method := method, timeout := timeout } (pre ++ [.finish]) =
    step (run { method := method, timeout := timeout } pre) .finish by simp [run]]
  have hcount : ((addressed pre).filter (fun p => p.2)).length +
      ((addressed pre).filter (fun p => !p.2)).length = (addressed pre).length := by
    generalize addressed pre = l
    induction l with
    | nil => rfl
    | cons p l ih => obtain ⟨s, b⟩ := p; cases b <;> simp <;> omega
  simp only [step, h.noresult, true_and, h.expected, h.finished]
  split
  · simp [doReturn]; omega
  · rw [h.noresult]; simp; omega

theorem step_timeout (st : State) (a : Step) : (step st a).timeout = st.timeout := by
  cases a with
  | address s acc => simp only [step]; split <;> rfl
  | answer i a =>
    simp only [step]
    split
    · rfl
    · split <;> rfl
  | finish => simp only [step]; split <;> rfl
  | expire => simp only [step]; split <;> rfl

/-- Without a timeout the call never gives up: whatever the clock does, the course of events is the one
without clock. -/
theorem C38_no_timeout_never_gives_up (st : State) (h : st.timeout = false) (steps : List Step) :
    run st steps = run st (steps.filter (fun s => s ≠ .expire)) := by
  induction steps generalizing st with
  | nil => rfl
  | cons a l ih =>
    have h' : (step st a).timeout = false := by rw [step_timeout, h]
    by_cases ha : a = .expire
    · subst ha
      have : step st .expire = st := by simp [step, h]
      show run (step st .expire) l = _
      rw [this, ih st h]
      simp
    · rw [List.filter_cons_of_pos (by simpa using ha)]
      exact ih _ h'

/-- Timeout notifications: one for each server without an answer in time. -/
theorem C38_timeout_events (result : List Entry) :
    timeoutEvents true result = result.countP (fun e => !e.1) ∧ timeoutEvents false result = 0 := by
  simp [timeoutEvents, List.countP_eq_length_filter]

/-- A finding: a call refused because its session is stopped is reported to the application as a
timeout event although nothing was waited for. -/
theorem C38_violated_stopped_is_timeout :
    let st := run { method := "m", timeout := true } [.address ⟨"h", "s", "k"⟩ false, .finish]
    st.result.map (timeoutEvents true) = some 1 ∧
      st.result.map (fun r => r.map (fun e => e.2.error)) = some ["Stopped by user"] := by
  decide +kernel

/-- Two servers, the first one answers after the second, a third one is late. -/
def samplePre : List Step :=
  [.address ⟨"h1", "s", "k1"⟩ true, .address ⟨"h2", "s", "k2"⟩ true,
   .answer 1 (.decoded ⟨"h2", "s", "2", "m", "", 5, .executed, "two"⟩),
   .address ⟨"h3", "s", "k3"⟩ true, .answer 0 (.error "lost")]

example : ((run { method := "m", timeout := true } (samplePre ++ [.expire,
    .answer 2 (.decoded ⟨"h3", "s", "3", "m", "", 5, .executed, "three"⟩)])).result.map
      (fun r => (success r, r.map (fun e => (e.1, e.2.error, e.2.data))))) =
    some (true, [(true, "lost", ""), (true, "", "two"), (false, "Timeout", "")]) := by
  decide +kernel

example : Working samplePre := by
  intro s hs
  simp [samplePre] at hs
  rcases hs with rfl | rfl | rfl | rfl | rfl <;> simp

example : WellFormed samplePre := by
  refine ⟨?_, ?_⟩
  · intro pre' i a h
    match pre' with
    | [] => simp [samplePre] at h
    | [x] => simp [samplePre] at h
    | [x, y] =>
      simp [samplePre] at h
      obtain ⟨rfl, rfl, rfl, rfl⟩ := h
      exact ⟨_, rfl⟩
    | [x, y, z] => simp [samplePre] at h
    | [x, y, z, w] =>
      simp [samplePre] at h
      obtain ⟨rfl, rfl, rfl, rfl, rfl, rfl⟩ := h
      exact ⟨_, rfl⟩
    | x :: y :: z :: w :: v :: l =>
      have := h.length_le
      simp [samplePre] at this
  · intro i
    simp only [samplePre, answersFor]
    split <;> split <;> simp
    omega

end Ecal.Service.Blocking
