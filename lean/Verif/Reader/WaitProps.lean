import Verif.Reader.Wait

/-! # Properties of waiting receivers (C80) -/

namespace Ecal.Reader.Wait

variable {α : Type}

theorem run_append (s : State α) (a b : List (Step α)) :
    run s (a ++ b) = match run s a with
      | .ok s' => run s' b
      | o => o := by
  induction a generalizing s with
  | nil => simp [run]
  | cons x r ih =>
    simp only [List.cons_append, run]
    cases step s x <;> simp [ih]

/-! ## What is kept by every step -/

/-- A step keeps `P` if it succeeds. -/
theorem run_keeps (P : State α → Prop) (hP : ∀ s a s', P s → step s a = .ok s' → P s') (s : State α) (l : List (Step α))
    (s' : State α) (h : P s) (hr : run s l = .ok s') : P s' := by
  induction l generalizing s with
  | nil => simp only [run, Outcome.ok.injEq] at hr; exact hr ▸ h
  | cons a r ih =>
    simp only [run] at hr
    cases hs : step s a with
    | ok t => rw [hs] at hr; exact ih t (hP s a t h hs) hr
    | impossible => rw [hs] at hr; cases hr
    | ub => rw [hs] at hr; cases hr

theorem rouse_some (rs rs' : List (Recv α)) (i : Nat) (h : rouse rs i = some rs') :
    ∃ l, rs[i]? = some (.asleep l) ∧ rs' = rs.set i (.awake l) := by
  unfold rouse at h
  split at h
  · rename_i l hl; cases h; exact ⟨l, hl, rfl⟩
  · cases h

theorem getElem?_lt {β : Type} (l : List β) (i : Nat) (x : β) (h : l[i]? = some x) : i < l.length := by
  rcases Nat.lt_or_ge i l.length with hl | hl
  · exact hl
  · rw [List.getElem?_eq_none hl] at h; cases h

/-- A receiver sleeps while the buffer is full only if another one is on its way. -/
def Awaited (s : State α) : Prop :=
  ∀ (x : α) (i : Nat) (l : Option Nat), s.box = some x → s.recvs[i]? = some (.asleep l) → ∃ (j : Nat) (m : Option Nat), s.recvs[j]? = some (.awake m)

theorem step_awaited (s : State α) (a : Step α) (s' : State α) (h : Awaited s) (hs : step s a = .ok s') : Awaited s' := by
  intro x i l hb hi
  cases a with
  | call t =>
    simp only [step, Outcome.ok.injEq] at hs
    subst hs
    unfold enter at hb hi ⊢
    cases hc : s.created <;> cases hx : s.box <;> simp only [hc, hx] at hb hi ⊢
    all_goals (try (cases hb))
    · have hlt : i < (s.recvs ++ [Recv.done none]).length := getElem?_lt _ _ _ hi
      rcases Nat.lt_or_ge i s.recvs.length with hl | hl
      · rw [List.getElem?_append_left hl] at hi
        obtain ⟨j, m, hj⟩ := h _ i l hx hi
        exact ⟨j, m, by rw [List.getElem?_append_left (getElem?_lt _ _ _ hj)]; exact hj⟩
      · have : i = s.recvs.length := by simp at hlt; omega
        subst this
        simp at hi
  | sample y w =>
    simp only [step] at hs
    cases hc : s.created <;> simp only [hc, cond_true, cond_false, Outcome.ok.injEq] at hs
    · subst hs; exact h x i l hb hi
    · cases hcb : s.callback <;> simp only [hcb, cond_true, cond_false] at hs
      · unfold put at hs
        cases hn : notify s.recvs w with
        | none => rw [hn] at hs; cases hs
        | some rs =>
          rw [hn] at hs
          simp only [Outcome.ok.injEq] at hs
          subst hs
          simp only at hi ⊢
          unfold notify at hn
          cases ha : s.recvs.any Recv.isAsleep <;> simp only [ha, cond_true, cond_false] at hn
          · cases hn
            have hmem := List.mem_of_getElem? hi
            rw [List.any_eq_false] at ha
            exact absurd rfl (ha _ hmem)
          · obtain ⟨m, hm, rfl⟩ := rouse_some _ _ _ hn
            exact ⟨w, m, by rw [List.getElem?_set_self (getElem?_lt _ _ _ hm)]⟩
      · simp only [Outcome.ok.injEq] at hs
        subst hs; exact h x i l hb hi
  | wake w =>
    simp only [step] at hs
    cases hn : rouse s.recvs w with
    | none => rw [hn] at hs; cases hs
    | some rs =>
      rw [hn] at hs
      simp only [Outcome.ok.injEq] at hs
      subst hs
      obtain ⟨m, hm, rfl⟩ := rouse_some _ _ _ hn
      exact ⟨w, m, by simp only; rw [List.getElem?_set_self (getElem?_lt _ _ _ hm)]⟩
  | resume w =>
    simp only [step] at hs
    split at hs
    · rename_i m hm
      simp only [Outcome.ok.injEq] at hs
      subst hs
      unfold test at hb
      split at hb
      · cases hb
      · rename_i hx; simp only [hx] at hb; cases hb
    · cases hs
  | advance d => simp only [step, Outcome.ok.injEq] at hs; subst hs; exact h x i l hb hi
  | addCallback =>
    simp only [step, Outcome.ok.injEq] at hs; subst hs
    cases hc : s.created <;> simp only [hc, cond_true, cond_false] at hb hi ⊢ <;> exact h x i l hb hi
  | remCallback =>
    simp only [step, Outcome.ok.injEq] at hs; subst hs
    cases hc : s.created <;> simp only [hc, cond_true, cond_false] at hb hi ⊢ <;> exact h x i l hb hi
  | stop => simp only [step, Outcome.ok.injEq] at hs; subst hs; exact h x i l hb hi
  | destroy =>
    simp only [step] at hs
    cases ha : s.recvs.all Recv.isDone <;> simp only [ha, cond_true, cond_false, Outcome.ok.injEq] at hs
    · cases hs
    · subst hs; exact h x i l hb hi

/-- **C80, no lost wake-up.**  In every execution: when a sample lies in the receive buffer and a receiver is
waiting (asleep or on its way), there is a receiver that gets the sample as its next step, whatever else happens
to the others. -/
theorem C80_no_lost_wakeup (l : List (Step α)) (s : State α) (hr : run (init α) l = .ok s) (x : α) (hb : s.box = some x)
    (i : Nat) (m : Option Nat) (hi : s.recvs[i]? = some (.asleep m) ∨ s.recvs[i]? = some (.awake m)) :
    ∃ j s', step s (.resume j) = .ok s' ∧ s'.recvs[j]? = some (.done (some x)) ∧ s'.box = none ∧
      s'.log = s.log ++ [.handed j x] := by
  have hA : Awaited s := run_keeps Awaited step_awaited (init α) l s (by intro x i l hb; cases hb) hr
  have : ∃ (j : Nat) (k : Option Nat), s.recvs[j]? = some (.awake k) := by
    rcases hi with hi | hi
    · exact hA x i m hb hi
    · exact ⟨i, m, hi⟩
  obtain ⟨j, k, hj⟩ := this
  refine ⟨j, test s j k, ?_, ?_, ?_, ?_⟩
  · simp only [step, hj]
  · unfold test; simp only [hb]; rw [List.getElem?_set_self (getElem?_lt _ _ _ hj)]
  · unfold test; simp only [hb]
  · unfold test; simp only [hb]

example : ∃ s : State Nat, run (init Nat) [.call (-1), .call 10, .sample 7 1] = .ok s ∧ s.box = some 7 ∧
    s.recvs[0]? = some (.asleep none) := ⟨_, rfl, by decide, by decide⟩

/-! ## Each sample is handed out once, in order -/

def storedOf : Obs α → Option α
  | .stored x => some x
  | _ => none

def handedOf : Obs α → Option α
  | .handed _ x => some x
  | _ => none

/-- What was handed out, together with what is still in the buffer, is a part of what was stored. -/
def Accounted (s : State α) : Prop :=
  (s.log.filterMap handedOf ++ s.box.toList).Sublist (s.log.filterMap storedOf)

theorem filterMap_snoc {β γ : Type} (f : β → Option γ) (l : List β) (x : β) :
    (l ++ [x]).filterMap f = l.filterMap f ++ (f x).toList := by
  rw [List.filterMap_append]
  cases h : f x <;> simp [h]

theorem step_accounted (s : State α) (a : Step α) (s' : State α) (h : Accounted s) (hs : step s a = .ok s') : Accounted s' := by
  unfold Accounted at h ⊢
  cases a with
  | call t =>
    simp only [step, Outcome.ok.injEq] at hs
    subst hs
    unfold enter
    cases hc : s.created <;> cases hx : s.box <;> simp only [hx, Option.toList_none, Option.toList_some, List.append_nil] at h ⊢
    · exact h
    · exact h
    · exact h
    · rw [filterMap_snoc, filterMap_snoc]; simpa [handedOf, storedOf] using h
  | sample y w =>
    simp only [step] at hs
    cases hc : s.created <;> simp only [hc, cond_true, cond_false, Outcome.ok.injEq] at hs
    · subst hs; exact h
    · cases hcb : s.callback <;> simp only [hcb, cond_true, cond_false] at hs
      · unfold put at hs
        cases hn : notify s.recvs w with
        | none => rw [hn] at hs; cases hs
        | some rs =>
          rw [hn] at hs
          simp only [Outcome.ok.injEq] at hs
          subst hs
          simp only
          rw [filterMap_snoc, filterMap_snoc]
          simp only [handedOf, storedOf, Option.toList_none, Option.toList_some, List.append_nil]
          exact List.Sublist.append ((List.sublist_append_left _ _).trans h) (List.Sublist.refl _)
      · simp only [Outcome.ok.injEq] at hs
        subst hs
        simp only
        rw [filterMap_snoc, filterMap_snoc]
        simpa [handedOf, storedOf] using h
  | wake w =>
    simp only [step] at hs
    cases hn : rouse s.recvs w with
    | none => rw [hn] at hs; cases hs
    | some rs => rw [hn] at hs; simp only [Outcome.ok.injEq] at hs; subst hs; exact h
  | resume w =>
    simp only [step] at hs
    split at hs
    · simp only [Outcome.ok.injEq] at hs
      subst hs
      unfold test
      cases hx : s.box <;> simp only [hx, Option.toList_none, Option.toList_some, List.append_nil] at h ⊢
      · exact h
      · rw [filterMap_snoc, filterMap_snoc]; simpa [handedOf, storedOf] using h
    · cases hs
  | advance d => simp only [step, Outcome.ok.injEq] at hs; subst hs; exact h
  | addCallback => simp only [step, Outcome.ok.injEq] at hs; subst hs; cases s.created <;> exact h
  | remCallback => simp only [step, Outcome.ok.injEq] at hs; subst hs; cases s.created <;> exact h
  | stop => simp only [step, Outcome.ok.injEq] at hs; subst hs; exact h
  | destroy =>
    simp only [step] at hs
    cases ha : s.recvs.all Recv.isDone <;> simp only [ha, cond_true, cond_false, Outcome.ok.injEq] at hs
    · cases hs
    · subst hs; exact h

/-- **C80, exactly once.**  With any number of threads receiving at the same time, the samples that the calls
returned are, in the order of the returns, a part of the samples that were stored: none is handed out twice, none
is invented, none overtakes another. -/
theorem C80_each_sample_once (l : List (Step α)) (s : State α) (hr : run (init α) l = .ok s) :
    (s.log.filterMap handedOf).Sublist (s.log.filterMap storedOf) := by
  have h : Accounted s := run_keeps Accounted step_accounted (init α) l s (by simp [Accounted, init]) hr
  exact (List.sublist_append_left _ _).trans h

example : ∃ s : State Nat, run (init Nat) [.call (-1), .call (-1), .sample 7 1, .sample 8 0, .resume 0, .resume 1] = .ok s ∧
    s.log = [.stored 7, .stored 8, .handed 0 8] ∧ s.recvs = [.done (some 8), .asleep none] := ⟨_, rfl, by decide, by decide⟩

/-- The results are the handed samples: a call that returned a sample has its entry in the log, and the entry names
the call. -/
def Told (s : State α) : Prop :=
  ∀ (i : Nat) (x : α), s.recvs[i]? = some (.done (some x)) ↔ Obs.handed i x ∈ s.log

/-- The log names only calls that exist. -/
theorem told_lt (s : State α) (h : Told s) (i : Nat) (x : α) (hm : Obs.handed i x ∈ s.log) : i < s.recvs.length :=
  getElem?_lt _ _ _ ((h i x).2 hm)

theorem told_set (s : State α) (h : Told s) (i : Nat) (r : Recv α) (q : Recv α) (hi : s.recvs[i]? = some q)
    (hq : ∀ x, q ≠ .done (some x)) (hr : ∀ x, r ≠ .done (some x)) (j : Nat) (x : α) :
    (s.recvs.set i r)[j]? = some (.done (some x)) ↔ Obs.handed j x ∈ s.log := by
  by_cases hij : i = j
  · subst hij
    rw [List.getElem?_set_self (getElem?_lt _ _ _ hi)]
    constructor
    · intro hh; exact absurd (Option.some.inj hh) (hr x)
    · intro hh
      have := (h i x).2 hh
      rw [hi] at this
      exact absurd (Option.some.inj this) (hq x)
  · rw [List.getElem?_set_ne hij]; exact h j x

theorem told_snoc (rs : List (Recv α)) (log : List (Obs α)) (r : Recv α) (h : ∀ (i : Nat) (x : α), rs[i]? = some (.done (some x)) ↔ Obs.handed i x ∈ log)
    (hr : ∀ x, r ≠ .done (some x)) (j : Nat) (x : α) :
    (rs ++ [r])[j]? = some (.done (some x)) ↔ Obs.handed j x ∈ log := by
  rcases Nat.lt_or_ge j rs.length with hl | hl
  · rw [List.getElem?_append_left hl]; exact h j x
  · constructor
    · intro hh
      have hlt := getElem?_lt _ _ _ hh
      have : j = rs.length := by simp at hlt; omega
      subst this
      simp at hh
      exact absurd hh (hr x)
    · intro hh
      have := getElem?_lt _ _ _ ((h j x).2 hh)
      omega

theorem step_told (s : State α) (a : Step α) (s' : State α) (h : Told s) (hs : step s a = .ok s') : Told s' := by
  intro j x
  cases a with
  | call t =>
    simp only [step, Outcome.ok.injEq] at hs
    subst hs
    unfold enter
    cases hc : s.created <;> cases hx : s.box <;> simp only
    · exact told_snoc _ _ _ h (by intro x hh; cases hh) j x
    · exact told_snoc _ _ _ h (by intro x hh; cases hh) j x
    · refine told_snoc _ _ _ h ?_ j x
      intro x hh
      unfold begin at hh
      split at hh
      · cases hh
      · split at hh <;> cases hh
    · rename_i y
      rcases Nat.lt_or_ge j s.recvs.length with hl | hl
      · rw [List.getElem?_append_left hl, h j x, List.mem_append]
        constructor
        · exact Or.inl
        · rintro (hh | hh)
          · exact hh
          · simp at hh; omega
      · constructor
        · intro hh
          have hlt := getElem?_lt _ _ _ hh
          have : j = s.recvs.length := by simp at hlt; omega
          subst this
          simp at hh
          subst hh
          simp
        · intro hh
          rw [List.mem_append] at hh
          rcases hh with hh | hh
          · have := told_lt s h j x hh; omega
          · simp at hh
            obtain ⟨rfl, rfl⟩ := hh
            simp
  | sample y w =>
    simp only [step] at hs
    cases hc : s.created <;> simp only [hc, cond_true, cond_false, Outcome.ok.injEq] at hs
    · subst hs; exact h j x
    · cases hcb : s.callback <;> simp only [hcb, cond_true, cond_false] at hs
      · unfold put at hs
        cases hn : notify s.recvs w with
        | none => rw [hn] at hs; cases hs
        | some rs =>
          rw [hn] at hs
          simp only [Outcome.ok.injEq] at hs
          subst hs
          have hmem : Obs.handed j x ∈ s.log ++ [Obs.stored y] ↔ Obs.handed j x ∈ s.log := by simp
          rw [hmem]
          unfold notify at hn
          cases ha : s.recvs.any Recv.isAsleep <;> simp only [ha, cond_true, cond_false] at hn
          · cases hn; exact h j x
          · obtain ⟨m, hm, rfl⟩ := rouse_some _ _ _ hn
            exact told_set s h w _ _ hm (by intro x hh; cases hh) (by intro x hh; cases hh) j x
      · simp only [Outcome.ok.injEq] at hs
        subst hs
        have hmem : Obs.handed j x ∈ s.log ++ [Obs.called y] ↔ Obs.handed j x ∈ s.log := by simp
        rw [hmem]
        exact h j x
  | wake w =>
    simp only [step] at hs
    cases hn : rouse s.recvs w with
    | none => rw [hn] at hs; cases hs
    | some rs =>
      rw [hn] at hs
      simp only [Outcome.ok.injEq] at hs
      subst hs
      obtain ⟨m, hm, rfl⟩ := rouse_some _ _ _ hn
      exact told_set s h w _ _ hm (by intro x hh; cases hh) (by intro x hh; cases hh) j x
  | resume w =>
    simp only [step] at hs
    split at hs
    · rename_i m hm
      simp only [Outcome.ok.injEq] at hs
      subst hs
      unfold test
      cases hx : s.box <;> simp only
      · refine told_set s h w _ _ hm (by intro x hh; cases hh) ?_ j x
        intro x hh
        cases ho : over s.now m <;> rw [ho] at hh <;> cases hh
      · rename_i y
        by_cases hij : w = j
        · subst hij
          rw [List.getElem?_set_self (getElem?_lt _ _ _ hm)]
          simp only [Option.some.injEq, Recv.done.injEq, List.mem_append, List.mem_singleton, Obs.handed.injEq, true_and]
          constructor
          · intro hh; exact Or.inr hh.symm
          · rintro (hh | hh)
            · have := (h w x).2 hh
              rw [hm] at this; cases this
            · exact hh.symm
        · rw [List.getElem?_set_ne hij, h j x, List.mem_append]
          constructor
          · exact Or.inl
          · rintro (hh | hh)
            · exact hh
            · simp at hh; exact absurd hh.1.symm hij
    · cases hs
  | advance d => simp only [step, Outcome.ok.injEq] at hs; subst hs; exact h j x
  | addCallback => simp only [step, Outcome.ok.injEq] at hs; subst hs; cases s.created <;> exact h j x
  | remCallback => simp only [step, Outcome.ok.injEq] at hs; subst hs; cases s.created <;> exact h j x
  | stop => simp only [step, Outcome.ok.injEq] at hs; subst hs; exact h j x
  | destroy =>
    simp only [step] at hs
    cases ha : s.recvs.all Recv.isDone <;> simp only [ha, cond_true, cond_false, Outcome.ok.injEq] at hs
    · cases hs
    · subst hs; exact h j x

/-- **C80, results.**  The results of the calls and the samples handed out are the same thing: the call `i` returns
`x` exactly if `x` was taken from the buffer for `i`. -/
theorem C80_results_are_handed (l : List (Step α)) (s : State α) (hr : run (init α) l = .ok s) (i : Nat) (x : α) :
    s.recvs[i]? = some (.done (some x)) ↔ Obs.handed i x ∈ s.log :=
  run_keeps Told step_told (init α) l s (by intro i x; simp [init]) hr i x

/-! ## Time limits -/

/-- **C80, no wait.**  A receive without waiting time returns at once, with the sample or without. -/
theorem C80_poll_returns (s s' : State α) (h : step s (.call 0) = .ok s') :
    s'.recvs = s.recvs ++ [.done (bif s.created then s.box else none)] := by
  simp only [step, Outcome.ok.injEq] at h
  subst h
  unfold enter
  cases hc : s.created <;> cases hx : s.box <;> simp [begin]

/-- **C80, limit.**  A receive with a time limit that is still waiting when its time has come returns as soon as the
thread runs: it can leave the wait, and the test that follows ends the call.  If there is a sample, it gets it. -/
theorem C80_limit_returns (s : State α) (i d : Nat) (hd : d ≤ s.now) (hi : s.recvs[i]? = some (.asleep (some d))) :
    ∃ s1 s2, step s (.wake i) = .ok s1 ∧ step s1 (.resume i) = .ok s2 ∧ s2.recvs[i]? = some (.done s.box) := by
  have hl := getElem?_lt _ _ _ hi
  refine ⟨{ s with recvs := s.recvs.set i (.awake (some d)) },
    test { s with recvs := s.recvs.set i (.awake (some d)) } i (some d), ?_, ?_, ?_⟩
  · simp only [step, rouse, hi]
  · simp only [step]; rw [List.getElem?_set_self hl]
  · unfold test
    cases hx : s.box <;> simp only
    · rw [List.getElem?_set_self (by simpa using hl)]
      simp [over, hd]
    · rw [List.getElem?_set_self (by simpa using hl)]

/-- **C80, not before.**  A receive with a time limit returns without a sample only after its time: whenever the
test ends a call without a sample, the limit has been reached. -/
theorem C80_no_early_return (s s' : State α) (i : Nat) (m : Option Nat) (hi : s.recvs[i]? = some (.awake m))
    (hs : step s (.resume i) = .ok s') (hd : s'.recvs[i]? = some (.done none)) :
    s.box = none ∧ ∃ d, m = some d ∧ d ≤ s.now := by
  simp only [step, hi, Outcome.ok.injEq] at hs
  subst hs
  unfold test at hd
  cases hx : s.box <;> simp only [hx] at hd <;> rw [List.getElem?_set_self (getElem?_lt _ _ _ hi)] at hd
  · refine ⟨rfl, ?_⟩
    cases m with
    | none => simp [over] at hd
    | some d =>
      refine ⟨d, rfl, ?_⟩
      by_cases hh : d ≤ s.now
      · exact hh
      · simp [over, hh] at hd
  · cases hd

example : ∃ s s2 : State Nat, run (init Nat) [.call 10, .advance 10, .wake 0] = .ok s ∧ step s (.resume 0) = .ok s2 ∧
    s2.recvs[0]? = some (.done none) := ⟨_, _, rfl, rfl, by decide⟩

/-! ## The end of the subscriber -/

/-- A receiver without a time limit that has not returned. -/
def Waits (i : Nat) (s : State α) : Prop :=
  s.created = false ∧ s.box = none ∧ (s.recvs[i]? = some (.asleep none) ∨ s.recvs[i]? = some (.awake none))

theorem step_waits (i : Nat) (s : State α) (a : Step α) (s' : State α) (h : Waits i s) (hs : step s a = .ok s') : Waits i s' := by
  obtain ⟨hc, hb, hi⟩ := h
  have hl : i < s.recvs.length := by
    rcases hi with hi | hi <;> exact getElem?_lt _ _ _ hi
  cases a with
  | call t =>
    simp only [step, Outcome.ok.injEq] at hs; subst hs
    unfold enter
    simp only [hc, hb]
    refine ⟨rfl, rfl, ?_⟩
    simp only
    rw [List.getElem?_append_left hl]; exact hi
  | sample y w => simp only [step, hc, cond_false, Outcome.ok.injEq] at hs; subst hs; exact ⟨hc, hb, hi⟩
  | wake w =>
    simp only [step] at hs
    cases hn : rouse s.recvs w with
    | none => rw [hn] at hs; cases hs
    | some rs =>
      rw [hn] at hs
      simp only [Outcome.ok.injEq] at hs
      subst hs
      refine ⟨hc, hb, ?_⟩
      obtain ⟨m, hm, rfl⟩ := rouse_some _ _ _ hn
      by_cases hij : w = i
      · subst hij
        simp only
        rw [List.getElem?_set_self hl]
        rw [hm] at hi
        rcases hi with hi | hi
        · cases hi; exact Or.inr rfl
        · cases hi
      · simp only; rw [List.getElem?_set_ne hij]; exact hi
  | resume w =>
    simp only [step] at hs
    split at hs
    · rename_i m hm
      simp only [Outcome.ok.injEq] at hs
      subst hs
      unfold test
      simp only [hb]
      refine ⟨hc, rfl, ?_⟩
      by_cases hij : w = i
      · subst hij
        simp only
        rw [List.getElem?_set_self hl]
        rw [hm] at hi
        rcases hi with hi | hi
        · cases hi
        · cases hi; exact Or.inl rfl
      · simp only; rw [List.getElem?_set_ne hij]; exact hi
    · cases hs
  | advance d => simp only [step, Outcome.ok.injEq] at hs; subst hs; exact ⟨hc, hb, hi⟩
  | addCallback => simp only [step, hc, cond_false, Outcome.ok.injEq] at hs; subst hs; exact ⟨hc, hb, hi⟩
  | remCallback => simp only [step, hc, cond_false, Outcome.ok.injEq] at hs; subst hs; exact ⟨hc, hb, hi⟩
  | stop => simp only [step, Outcome.ok.injEq] at hs; subst hs; exact ⟨rfl, hb, hi⟩
  | destroy =>
    simp only [step] at hs
    cases ha : s.recvs.all Recv.isDone <;> simp only [ha, cond_true, cond_false, Outcome.ok.injEq] at hs
    · cases hs
    · subst hs; exact ⟨rfl, hb, hi⟩

/-- **C80 (violated by the stop).**  "After the stop of a subscriber every receive returns" is wrong: `Stop` neither
sets the flag nor notifies.  A receive without a time limit that waits when the subscriber is stopped never
returns, whatever happens afterwards. -/
theorem C80_violated_stop_leaves_receiver : ∃ (l : List (Step Nat)) (s : State Nat), run (init Nat) l = .ok s ∧
    s.created = false ∧ s.recvs[0]? = some (.asleep none) ∧
    ∀ (more : List (Step Nat)) (s' : State Nat), run s more = .ok s' → ∀ r, s'.recvs[0]? ≠ some (.done r) := by
  refine ⟨[.call (-1), .stop], _, rfl, rfl, rfl, ?_⟩
  intro more s' hr r hd
  obtain ⟨_, _, hi⟩ := run_keeps (Waits 0) (step_waits 0) _ more s' ⟨rfl, rfl, Or.inl rfl⟩ hr
  rcases hi with hi | hi <;> rw [hi] at hd <;> cases hd

/-- **C80 (violated by the destruction).**  Destroying a subscriber while a thread waits in a receive is undefined
behaviour, also for a receive with a time limit, and also if the subscriber was stopped before
(`CSubscriber::Destroy` stops it and gives it up): a stop never brings a waiting thread back. -/
theorem C80_violated_destroy_under_receiver (timeout : Int) (ht : timeout ≠ 0) :
    run (init Nat) [.call timeout, .stop, .destroy] = .ub := by
  have : begin 0 timeout = (.asleep none : Recv Nat) ∨ ∃ d, begin 0 timeout = (.asleep (some d) : Recv Nat) := by
    unfold begin
    by_cases h1 : timeout < 0
    · rw [if_pos h1]; exact Or.inl rfl
    · have : 0 < timeout := by omega
      rw [if_neg h1, if_pos this]; exact Or.inr ⟨_, rfl⟩
  simp only [run, step, enter, init]
  rcases this with h | ⟨d, h⟩ <;> rw [h] <;> rfl

/-- **C80, partial: the end.**  If every receive has returned, the subscriber can be destroyed.  Missing for the
full property: that a stop makes the waiting ones return (see the violations). -/
theorem C80_destroy_partial (s : State α) (h : ∀ r ∈ s.recvs, ∃ x, r = .done x) :
    ∃ s', step s .destroy = .ok s' ∧ s'.created = false ∧ s'.recvs = s.recvs := by
  have : s.recvs.all Recv.isDone = true := by
    rw [List.all_eq_true]; intro r hr; obtain ⟨x, rfl⟩ := h r hr; rfl
  exact ⟨{ s with created := false, callback := false }, by simp [step, this], rfl, rfl⟩

/-- **C80 (violated by a callback).**  "A waiting receiver gets the next sample" is wrong when a receive callback is
set in the meantime: the samples go to the callback and nobody is notified. -/
theorem C80_violated_callback_takes_samples (xs : List Nat) :
    run (init Nat) ([.call (-1), .addCallback] ++ xs.map (fun x => .sample x 0)) =
      .ok { created := true, callback := true, box := none, now := 0, recvs := [.asleep none], log := xs.map Obs.called } := by
  rw [run_append]
  have h0 : run (init Nat) [.call (-1), .addCallback] =
      .ok { created := true, callback := true, box := none, now := 0, recvs := [.asleep none], log := [] } := rfl
  rw [h0]
  simp only
  suffices h : ∀ pre : List (Obs Nat), run { created := true, callback := true, box := none, now := 0, recvs := [.asleep none], log := pre }
      (xs.map (fun x => Step.sample x 0)) =
      .ok { created := true, callback := true, box := none, now := 0, recvs := [.asleep none], log := pre ++ xs.map Obs.called } by
    simpa using h []
  induction xs with
  | nil => intro pre; simp [run]
  | cons y r ih =>
    intro pre
    simp only [List.map_cons, run, step, cond_true]
    rw [ih]
    simp

/-- **C80** A sample that arrives while nobody waits is kept for the next receiver. -/
theorem C80_sample_without_receiver (s : State α) (x : α) (i : Nat) (hc : s.created = true) (hb : s.callback = false)
    (hn : ∀ r ∈ s.recvs, ∀ l, r ≠ .asleep l) (t : Int) :
    ∃ s1 s2, step s (.sample x i) = .ok s1 ∧ s1.recvs = s.recvs ∧ step s1 (.call t) = .ok s2 ∧
      s2.recvs = s.recvs ++ [.done (some x)] := by
  have h0 : s.recvs.any Recv.isAsleep = false := by
    rw [List.any_eq_false]
    intro r hr
    cases r with
    | asleep l => exact absurd rfl (hn _ hr l)
    | _ => simp [Recv.isAsleep]
  refine ⟨{ s with box := some x, log := s.log ++ [.stored x] }, _, ?_, rfl, rfl, ?_⟩
  · simp [step, hc, hb, put, notify, h0]
  · simp [enter, hc]

end Ecal.Reader.Wait
