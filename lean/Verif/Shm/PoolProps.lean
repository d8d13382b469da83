import Verif.Shm.Pool

/-!
# Properties of the pool of shared memory observers (C94)

A publisher on the same host is heard only while the process has a running observer for its memory file.  The
registration layer asks for the observation again and again; each request should keep the observer running for
at least one more timeout, and after the stop of the pool nothing may run any more.
-/

namespace Ecal.Shm.Pool

theorem upd_apply {α β : Type} [DecidableEq α] (f : α → β) (a : α) (b : β) (x : α) :
    upd f a b x = if x = a then b else f x := rfl

/-- The thread is in the loop: it will look at the memory file as soon as it is signalled. -/
def Obs.InLoop (o : Obs) : Prop := o.phase = .check ∨ o.phase = .wait ∨ o.phase = .last ∨ o.phase = .access

instance (o : Obs) : Decidable o.InLoop := by unfold Obs.InLoop; infer_instance

/-! ## Runs -/

/-- `runB es s`: the state after the steps, if all of them are possible (`clear` is not used by it). -/
def runB : List Step → State → Option State
  | [], s => some s
  | e :: es, s => match e with
    | .clear => none
    | e => match step s e with
      | none => none
      | some s => runB es s

theorem runB_sound {es : List Step} {s s' : State} (h : runB es s = some s') : Run s es s' := by
  induction es generalizing s with
  | nil => cases h; exact .nil _
  | cons e es ih =>
    rw [runB.eq_def] at h
    simp only at h
    split at h
    · simp at h
    · rename_i hne
      split at h
      · simp at h
      · rename_i s1 hs
        exact .cons hs (fun hc => absurd hc (by simpa using hne)) (ih h)

theorem Run.append {s s' s'' : State} {es es' : List Step} (h : Run s es s') (h' : Run s' es' s'') :
    Run s (es ++ es') s'' := by
  induction h with
  | nil => exact h'
  | cons hs hc _ ih => exact .cons hs hc (ih h')

theorem Reach.append {s s' : State} {es : List Step} (h : Reach s) (hr : Run s es s') : Reach s' := by
  obtain ⟨es0, h0⟩ := h
  exact ⟨_, h0.append hr⟩

theorem Run.one {s s' : State} {e : Step} (h : step s e = some s') (hc : e ≠ .clear) : Run s [e] s' :=
  .cons h (fun h => absurd h hc) (.nil _)

theorem now_mono {s s' : State} {e : Step} (h : step s e = some s') : s.now ≤ s'.now := by
  cases e <;> simp only [step, observe] at h <;> repeat' split at h
  all_goals first
    | (simp at h; done)
    | (obtain rfl := Option.some.inj h; simp)

theorem run_now_mono {s s' : State} {es : List Step} (h : Run s es s') : s.now ≤ s'.now := by
  induction h with
  | nil => exact Nat.le_refl _
  | cons hs _ _ ih => exact Nat.le_trans (now_mono hs) ih

/-! ## The invariant -/

/-- What holds of every observer in the pool. -/
def Obs.Good (now : Nat) (o : Obs) : Prop :=
  o.phase ≠ .off ∧ (o.observing = true ↔ o.phase ≠ .ended) ∧ o.life ≤ now

def Inv (s : State) : Prop :=
  s.crashed = false ∧
  (s.stopper = .stopping → s.cleaner = .off) ∧
  (s.stopper ≠ .idle → s.created = true) ∧
  (s.created = true → s.stopper = .idle → s.cleaner = .waiting ∨ s.cleaner = .cleaning) ∧
  (s.created = true → s.stopper = .idle → s.cleanup = true) ∧
  (s.stopper = .joining → s.cleanup = false ∧ s.cleaner ≠ .off) ∧
  (∀ n o, s.pool n = some o → o.Good s.now)

theorem inv_init : Inv {} := by
  simp [Inv]

theorem run_good {now : Nat} {env p : Bool} {o o' : Obs} (h : o.run now env = some (o', p)) (hg : o.Good now) :
    o'.Good now := by
  unfold Obs.Good at *
  unfold Obs.run at h
  repeat' split at h
  all_goals first
    | (simp at h; done)
    | (obtain ⟨rfl, rfl⟩ := Prod.mk.inj (Option.some.inj h)
       grind)

/-- The observer after a request. -/
def requested (now t : Nat) : Option Obs → Obs
  | none => { life := now, observing := true, phase := .check, timeout := t }
  | some o => if o.observing then { o with life := now }
    else { o with observing := true, phase := .check, pending := false, timeout := t }

theorem fresh_start (now timeout : Nat) :
    (fresh now).start timeout = .ok (requested now timeout none) := by
  simp [Obs.start, fresh, requested]

/-- What `ObserveFile` does in a reachable state. -/
theorem observe_eq {s : State} {c : Nat} {n : String} {t : Nat} (hi : Inv s) :
    observe s c n t = some { s with
      calls := upd s.calls c (.done true)
      pool := upd s.pool n (some (requested s.now t (s.pool n))) } := by
  unfold observe
  cases hp : s.pool n with
  | none => simp [hp, fresh_start]
  | some o =>
    obtain ⟨h1, h2, h3⟩ := hi.2.2.2.2.2.2 n o hp
    by_cases ho : o.observing = true
    · simp [hp, ho, requested]
    · have hph : o.phase = .ended := by grind
      have ho' : o.observing = false := by simpa using ho
      simp [hp, ho', Obs.signal, Obs.join, Obs.start, hph, requested]

theorem inv_step {s s' : State} {e : Step} (hi : Inv s) (h : step s e = some s')
    (hc : e = .clear → s.stopper = .stopping ∧ Quiet s) : Inv s' := by
  have hi0 := hi
  obtain ⟨h1, h2, h3, h4, h5, h6, h7⟩ := hi
  cases e with
  | tick d =>
    obtain rfl := Option.some.inj h
    refine ⟨h1, h2, h3, h4, h5, h6, fun n o ho => ?_⟩
    have := h7 n o ho
    exact ⟨this.1, this.2.1, Nat.le_trans this.2.2 (Nat.le_add_right _ _)⟩
  | enter c n t =>
    simp only [step] at h
    repeat' split at h
    all_goals first
      | (simp at h; done)
      | (obtain rfl := Option.some.inj h; exact ⟨h1, h2, h3, h4, h5, h6, h7⟩)
  | observe c =>
    simp only [step] at h
    split at h
    · simp at h
    split at h
    · rename_i n t _
      rw [observe_eq hi0] at h
      obtain rfl := Option.some.inj h
      refine ⟨h1, h2, h3, h4, h5, h6, fun m o ho => ?_⟩
      simp only [upd_apply] at ho
      by_cases hm : m = n
      · subst hm
        rw [if_pos rfl] at ho
        cases hp : s.pool m with
        | none => rw [hp] at ho; cases ho; exact ⟨by simp [requested], by simp [requested], by simp [requested]⟩
        | some q =>
          rw [hp] at ho
          have hq := h7 m q hp
          simp only [Obs.Good, requested] at *
          grind
      · rw [if_neg hm] at ho; exact h7 m o ho
    · simp at h
  | thread n env =>
    simp only [step] at h
    split at h
    · simp at h
    split at h
    · simp at h
    rename_i o hp _ o' p hr
    obtain rfl := Option.some.inj h
    refine ⟨h1, h2, h3, h4, h5, h6, fun m q hq => ?_⟩
    simp only [upd_apply] at hq
    by_cases hm : m = n
    · rw [if_pos hm] at hq; cases hq; exact run_good hr (h7 n o hp)
    · rw [if_neg hm] at hq; exact h7 m q hq
  | start =>
    simp only [step] at h
    repeat' split at h
    all_goals first
      | (simp at h; done)
      | (obtain rfl := Option.some.inj h; unfold Inv; grind)
  | stop =>
    simp only [step] at h
    repeat' split at h
    all_goals first
      | (simp at h; done)
      | (obtain rfl := Option.some.inj h; unfold Inv; grind)
  | joinCleaner =>
    simp only [step] at h
    split at h
    · obtain rfl := Option.some.inj h; unfold Inv; grind
    · simp at h
  | signal n =>
    simp only [step] at h
    split at h
    · split at h
      · simp at h
      · rename_i o hp
        obtain rfl := Option.some.inj h
        refine ⟨h1, h2, h3, h4, h5, h6, fun m q hq => ?_⟩
        simp only [upd_apply] at hq
        by_cases hm : m = n
        · rw [if_pos hm] at hq; cases hq
          have := h7 n o hp
          simp only [Obs.Good, Obs.signal] at *
          split <;> grind
        · rw [if_neg hm] at hq; exact h7 m q hq
    · simp at h
  | clear =>
    obtain rfl := Option.some.inj h
    have := hc rfl
    simp only [Inv]
    grind
  | wake =>
    simp only [step] at h
    repeat' split at h
    all_goals first
      | (simp at h; done)
      | (obtain rfl := Option.some.inj h; unfold Inv; grind)
  | clean =>
    simp only [step] at h
    split at h
    · obtain rfl := Option.some.inj h
      refine ⟨h1, ?_, h3, ?_, h5, ?_, fun m q hq => ?_⟩
      · grind
      · grind
      · grind
      · simp only [Option.filter_eq_some_iff] at hq
        exact h7 m q hq.1
    · simp at h

theorem inv_run {s s' : State} {es : List Step} (hi : Inv s) (h : Run s es s') : Inv s' := by
  induction h with
  | nil => exact hi
  | cons hs hc _ ih => exact ih (inv_step hi hs hc)

theorem inv_reach {s : State} (h : Reach s) : Inv s := by
  obtain ⟨es, h⟩ := h
  exact inv_run inv_init h

/-! ## Requests -/

/-- The process is never terminated by a thread object that is overwritten while it is still joinable. -/
theorem C94_never_terminates {s : State} (h : Reach s) : s.crashed = false := (inv_reach h).1

/-- A request that found the pool started never blocks once it has the lock (the thread of a finished observer is
joined at once), and it reports success. -/
theorem C94_request_answered {s : State} (h : Reach s) (c : Nat) (n : String) (t : Nat)
    (hc : s.calls c = .admitted n t) (hl : s.stopper ≠ .stopping) :
    ∃ s' o, step s (.observe c) = some s' ∧ s'.calls c = .done true ∧ s'.pool n = some o ∧ o.observing = true := by
  have hi := inv_reach h
  have hs : step s (.observe c) = observe s c n t := by
    simp only [step, if_neg hl, hc]
  rw [hs, observe_eq hi]
  refine ⟨_, _, rfl, by simp [upd_apply], by simp only [upd_apply, if_pos]; rfl, ?_⟩
  cases hp : s.pool n with
  | none => simp [requested]
  | some o => by_cases ho : o.observing = true <;> simp [requested, ho]

/-- The observer of `n` has had a life signal at `T` or later, is in the loop and was not told to stop. -/
def Alive (n : String) (T timeout : Nat) (s : State) : Prop :=
  ∃ o, s.pool n = some o ∧ o.InLoop ∧ o.observing = true ∧ o.doStop = false ∧ T ≤ o.life ∧ o.timeout = timeout

theorem alive_step {s s' : State} {e : Step} {n : String} {T t : Nat} (hi : Inv s) (h : step s e = some s')
    (ha : Alive n T t s) (hT : T ≤ s.now) (hn : s'.now < T + t) (hs : s.stopper = .idle) (he : e ≠ .stop)
    (hc : e ≠ .clear) : Alive n T t s' ∧ s'.stopper = .idle := by
  obtain ⟨o, hp, hl, ho, hd, hT', ht⟩ := ha
  cases e with
  | tick d =>
    obtain rfl := Option.some.inj h
    exact ⟨⟨o, hp, hl, ho, hd, hT', ht⟩, hs⟩
  | enter c n t =>
    simp only [step] at h
    repeat' split at h
    all_goals first
      | (simp at h; done)
      | (obtain rfl := Option.some.inj h; exact ⟨⟨o, hp, hl, ho, hd, hT', ht⟩, hs⟩)
  | observe c =>
    simp only [step] at h
    split at h
    · simp at h
    split at h
    · rename_i m tm _
      rw [observe_eq hi] at h
      obtain rfl := Option.some.inj h
      refine ⟨?_, hs⟩
      by_cases hm : n = m
      · subst hm
        refine ⟨{ o with life := s.now }, ?_, hl, ho, hd, hT, ht⟩
        simp [upd_apply, hp, ho, requested]
      · refine ⟨o, ?_, hl, ho, hd, hT', ht⟩
        simp [upd_apply, hm, hp]
    · simp at h
  | thread m env =>
    simp only [step] at h
    split at h
    · simp at h
    split at h
    · simp at h
    rename_i q hq _ q' p hr
    obtain rfl := Option.some.inj h
    refine ⟨?_, hs⟩
    by_cases hm : n = m
    · subst hm
      rw [hp] at hq
      cases hq
      refine ⟨q', by simp [upd_apply], ?_⟩
      have hlt : s.now - o.life < o.timeout := by
        simp only at hn
        omega
      unfold Obs.run at hr
      unfold Obs.InLoop at *
      repeat' split at hr
      all_goals first
        | (simp at hr; done)
        | (obtain ⟨rfl, rfl⟩ := Prod.mk.inj (Option.some.inj hr)
           grind)
    · exact ⟨o, by simp [upd_apply, hm, hp], hl, ho, hd, hT', ht⟩
  | start =>
    simp only [step] at h
    repeat' split at h
    all_goals first
      | (simp at h; done)
      | (obtain rfl := Option.some.inj h; exact ⟨⟨o, hp, hl, ho, hd, hT', ht⟩, hs⟩)
  | stop => exact absurd rfl he
  | joinCleaner =>
    simp only [step] at h
    split at h
    · rename_i hj; rw [hs] at hj; simp at hj
    · simp at h
  | signal m =>
    simp only [step] at h
    rw [if_neg (by simp [hs])] at h
    simp at h
  | clear => exact absurd rfl hc
  | wake =>
    simp only [step] at h
    repeat' split at h
    all_goals first
      | (simp at h; done)
      | (obtain rfl := Option.some.inj h; exact ⟨⟨o, hp, hl, ho, hd, hT', ht⟩, hs⟩)
  | clean =>
    simp only [step] at h
    split at h
    · obtain rfl := Option.some.inj h
      exact ⟨⟨o, by simp [hp, ho], hl, ho, hd, hT', ht⟩, hs⟩
    · simp at h

theorem alive_run {s s' : State} {es : List Step} {n : String} {T t : Nat} (h : Run s es s') (hi : Inv s)
    (ha : Alive n T t s) (hT : T ≤ s.now) (hn : s'.now < T + t) (hs : s.stopper = .idle) (he : Step.stop ∉ es) :
    Alive n T t s' ∧ s'.stopper = .idle := by
  induction h with
  | nil => exact ⟨ha, hs⟩
  | @cons s s1 s2 e es h hc hr ih =>
    have hne : e ≠ .clear := by
      intro hce
      have := (hc hce).1
      rw [hs] at this
      exact absurd this (by decide)
    have h1 : s1.now < T + t := Nat.lt_of_le_of_lt (run_now_mono hr) hn
    obtain ⟨ha', hs'⟩ := alive_step hi h ha hT h1 hs (fun h => he (by simp [h])) hne
    exact ih (inv_step hi h hc) ha' (Nat.le_trans hT (now_mono h)) hn hs' (fun h => he (by simp [h]))

/-- A request for a new memory file or for one whose observer is in its loop. -/
theorem observe_alive {s s1 : State} {c : Nat} {n : String} {t : Nat} (hi : Inv s)
    (hc : s.calls c = .admitted n t) (hs : s.stopper = .idle)
    (hp : ∀ o, s.pool n = some o → o.InLoop ∧ o.doStop = false ∧ o.timeout = t)
    (h1 : step s (.observe c) = some s1) :
    Alive n s.now t s1 ∧ s1.stopper = .idle ∧ s1.now = s.now ∧ Inv s1 := by
  have hi1 := inv_step hi h1 (fun h => by simp at h)
  have he : step s (.observe c) = observe s c n t := by
    have : s.stopper ≠ .stopping := by rw [hs]; decide
    simp only [step, if_neg this, hc]
  rw [he, observe_eq hi] at h1
  obtain rfl := Option.some.inj h1
  refine ⟨?_, hs, rfl, hi1⟩
  cases hpn : s.pool n with
  | none => exact ⟨requested s.now t none, by simp [upd_apply], by simp [Obs.InLoop, requested], rfl, rfl,
      Nat.le_refl _, rfl⟩
  | some o =>
    obtain ⟨hl, hd, ht⟩ := hp o hpn
    have hg := hi.2.2.2.2.2.2 n o hpn
    have ho : o.observing = true := by
      unfold Obs.InLoop at hl
      unfold Obs.Good at hg
      grind
    exact ⟨{ o with life := s.now }, by simp [upd_apply, ho, requested], hl, ho, hd, Nat.le_refl _, ht⟩

/-- A request for a memory file that is new, or whose observer is in its loop, keeps an observer in its loop for
the whole timeout, whatever the other threads do, unless the pool is stopped.  Missing for the full property: the
request may also find an observer that is finished or about to finish (the violations below). -/
theorem C94_request_keeps_alive_partial {s s1 s2 : State} {c : Nat} {n : String} {t : Nat} {es : List Step}
    (h : Reach s) (hc : s.calls c = .admitted n t) (hs : s.stopper = .idle)
    (hp : ∀ o, s.pool n = some o → o.InLoop ∧ o.doStop = false ∧ o.timeout = t)
    (h1 : step s (.observe c) = some s1) (hr : Run s1 es s2) (he : Step.stop ∉ es) (hn : s2.now < s.now + t) :
    ∃ o, s2.pool n = some o ∧ o.InLoop := by
  obtain ⟨ha, hs1, hn1, hi1⟩ := observe_alive (inv_reach h) hc hs hp h1
  obtain ⟨⟨o, ho, hl, _⟩, _⟩ := alive_run hr hi1 ha (by omega) hn hs1 he
  exact ⟨o, ho, hl⟩

/-- A state whose pool observes "a" (for the examples). -/
def demo (es : List Step) : State := (runB es {}).getD {}

example : Reach (demo [.start, .enter 0 "a" 1000]) ∧
    (demo [.start, .enter 0 "a" 1000]).calls 0 = .admitted "a" 1000 ∧
    (demo [.start, .enter 0 "a" 1000]).pool "a" = none ∧
    (step (demo [.start, .enter 0 "a" 1000]) (.observe 0)).isSome = true :=
  ⟨⟨[.start, .enter 0 "a" 1000], runB_sound rfl⟩, rfl, rfl, rfl⟩

/-- Requests that come again within the timeout: each segment starts with a request for `n` (already admitted) by
some caller and lasts less than the timeout. -/
inductive Renewed (n : String) (t : Nat) : State → State → Prop where
  | refl (s : State) : Renewed n t s s
  | seg {s s1 s2 s3 : State} {c : Nat} {es : List Step} (hc : s.calls c = .admitted n t)
      (h1 : step s (.observe c) = some s1) (hr : Run s1 es s2) (he : Step.stop ∉ es) (hn : s2.now < s.now + t)
      (hq : Renewed n t s2 s3) : Renewed n t s s3

/-- As long as requests come within the timeout of each other, the observer started by the first one never leaves
its loop. -/
theorem C94_renewed {s s' : State} {n : String} {t : Nat} (h : Reach s) (hs : s.stopper = .idle)
    (hp : ∀ o, s.pool n = some o → o.InLoop ∧ o.doStop = false ∧ o.timeout = t) (hr : Renewed n t s s') :
    ∀ o, s'.pool n = some o → o.InLoop ∧ o.doStop = false ∧ o.timeout = t := by
  induction hr with
  | refl => exact hp
  | @seg s s1 s2 s3 c es hc h1 hr he hn hq ih =>
    obtain ⟨ha, hs1, hn1, hi1⟩ := observe_alive (inv_reach h) hc hs hp h1
    have t2 := alive_run hr hi1 ha (by omega) (by omega) hs1 he
    obtain ⟨⟨o, ho, hl, _, hd, _, ht⟩, hs2⟩ := t2
    have hr2 : Reach s2 := (h.append (Run.one h1 (by simp))).append hr
    refine ih hr2 hs2 (fun q hq => ?_)
    rw [ho] at hq
    cases hq
    exact ⟨hl, hd, ht⟩

/-- An observer in its loop processes a signalled content: with a signal and the lock of the memory file, at most
five steps of its thread — provided its last life signal has not expired. -/
theorem C94_alive_processes {s : State} {n : String} {o : Obs} (hp : s.pool n = some o) (hl : o.InLoop)
    (hd : o.doStop = false) (hn : s.now - o.life < o.timeout) :
    ∃ k s', k ≤ 5 ∧ Run s (List.replicate k (.thread n true)) s' ∧ s'.seen = s.seen ++ [n] ∧
      ∃ o', s'.pool n = some o' ∧ o'.InLoop := by
  -- from the processing
  have acc : ∀ (s : State) (o : Obs), s.pool n = some o → o.phase = .access →
      ∃ s', Run s (List.replicate 1 (.thread n true)) s' ∧ s'.seen = s.seen ++ [n] ∧
        ∃ o', s'.pool n = some o' ∧ o'.InLoop := by
    intro s o hp hph
    refine ⟨_, Run.one (s' := { s with pool := upd s.pool n (some { o with phase := .check, pending := false }),
                                       seen := s.seen ++ [n] }) ?_ (by simp), rfl, _, by simp [upd_apply]; rfl, ?_⟩
    · simp [step, hp, Obs.run, hph]
    · simp [Obs.InLoop]
  have lst : ∀ (s : State) (o : Obs), s.pool n = some o → o.phase = .last → o.doStop = false →
      ∃ s', Run s (List.replicate 2 (.thread n true)) s' ∧ s'.seen = s.seen ++ [n] ∧
        ∃ o', s'.pool n = some o' ∧ o'.InLoop := by
    intro s o hp hph hd
    obtain ⟨s', hr, h2, h3⟩ := acc { s with pool := upd s.pool n (some { o with phase := .access }) }
      { o with phase := .access } (by simp [upd_apply]) rfl
    refine ⟨s', .cons (s' := { s with pool := upd s.pool n (some { o with phase := .access }) }) ?_ (by simp) hr, h2, h3⟩
    simp [step, hp, Obs.run, hph, hd]
  have wt : ∀ (s : State) (o : Obs), s.pool n = some o → o.phase = .wait → o.doStop = false →
      ∃ s', Run s (List.replicate 3 (.thread n true)) s' ∧ s'.seen = s.seen ++ [n] ∧
        ∃ o', s'.pool n = some o' ∧ o'.InLoop := by
    intro s o hp hph hd
    obtain ⟨s', hr, h2, h3⟩ :=
      lst { s with pool := upd s.pool n (some { o with phase := .last, pending := true, life := s.now }) }
        { o with phase := .last, pending := true, life := s.now } (by simp [upd_apply]) rfl hd
    refine ⟨s', .cons (s' := { s with pool := upd s.pool n (some { o with phase := .last, pending := true, life := s.now }) })
      ?_ (by simp) hr, h2, h3⟩
    simp [step, hp, Obs.run, hph]
  rcases hl with hph | hph | hph | hph
  · by_cases hpe : o.pending = true
    · obtain ⟨s', hr, h2, h3⟩ := lst { s with pool := upd s.pool n (some { o with phase := .last }) }
        { o with phase := .last } (by simp [upd_apply]) rfl hd
      refine ⟨3, s', by omega, .cons (s' := { s with pool := upd s.pool n (some { o with phase := .last }) })
        ?_ (by simp) hr, h2, h3⟩
      simp [step, hp, Obs.run, hph, hn, hd, hpe]
    · obtain ⟨s', hr, h2, h3⟩ := wt { s with pool := upd s.pool n (some { o with phase := .wait }) }
        { o with phase := .wait } (by simp [upd_apply]) rfl hd
      refine ⟨4, s', by omega, .cons (s' := { s with pool := upd s.pool n (some { o with phase := .wait }) })
        ?_ (by simp) hr, h2, h3⟩
      simp [step, hp, Obs.run, hph, hn, hd, hpe]
  · obtain ⟨s', h⟩ := wt s o hp hph hd; exact ⟨3, s', by omega, h⟩
  · obtain ⟨s', h⟩ := lst s o hp hph hd; exact ⟨2, s', by omega, h⟩
  · obtain ⟨s', h⟩ := acc s o hp hph; exact ⟨1, s', by omega, h⟩

/-! ## The cleanup -/

/-- The cleanup removes finished observers only, and all of them; a later request then starts a new observer. -/
theorem C94_cleanup {s s' : State} (h : Reach s) (hs : step s .clean = some s') (n : String) (o : Obs)
    (hp : s.pool n = some o) : s'.pool n = if o.phase = .ended then none else some o := by
  have hg := (inv_reach h).2.2.2.2.2.2 n o hp
  simp only [step] at hs
  split at hs
  · obtain rfl := Option.some.inj hs
    unfold Obs.Good at hg
    by_cases he : o.phase = .ended
    · have : o.observing = false := by grind
      simp [hp, this, he]
    · have : o.observing = true := by grind
      simp [hp, this, he]
  · simp at hs

/-! ## The observer that cannot be restarted -/

/-- The observer of `n` is gone or on its way out, and nobody asks for it. -/
def Dead (n : String) (s : State) : Prop :=
  (∀ o, s.pool n = some o → (o.phase = .check ∧ o.timeout ≤ s.now - o.life ∨ o.phase = .leaving ∨ o.phase = .ended)) ∧
  ∀ c t, s.calls c ≠ .admitted n t

theorem dead_step {s s' : State} {e : Step} {n : String} (hi : Inv s) (h : step s e = some s') (hd : Dead n s)
    (he : ∀ c t, e ≠ .enter c n t) : Dead n s' ∧ s'.seen.count n = s.seen.count n := by
  obtain ⟨hd, hq⟩ := hd
  cases e with
  | tick d =>
    obtain rfl := Option.some.inj h
    refine ⟨⟨fun o ho => ?_, hq⟩, rfl⟩
    rcases hd o ho with ⟨h1, h2⟩ | h | h
    · exact .inl ⟨h1, by simp only; omega⟩
    · exact .inr (.inl h)
    · exact .inr (.inr h)
  | enter c m t =>
    have hm : m ≠ n := fun hm => he c t (by rw [hm])
    simp only [step] at h
    repeat' split at h
    all_goals first
      | (simp at h; done)
      | (obtain rfl := Option.some.inj h
         refine ⟨⟨hd, fun c' t' => ?_⟩, rfl⟩
         simp only [upd_apply]
         split
         · simp [hm]
         · exact hq c' t')
  | observe c =>
    simp only [step] at h
    split at h
    · simp at h
    split at h
    · rename_i m t hc
      have hm : n ≠ m := fun hm => hq c t (by rw [hc, hm])
      rw [observe_eq hi] at h
      obtain rfl := Option.some.inj h
      refine ⟨⟨fun o ho => ?_, fun c' t' => ?_⟩, rfl⟩
      · simp only [upd_apply, if_neg hm] at ho
        exact hd o ho
      · simp only [upd_apply]
        split
        · simp
        · exact hq c' t'
    · simp at h
  | thread m env =>
    simp only [step] at h
    split at h
    · simp at h
    split at h
    · simp at h
    rename_i q hp _ q' p hr
    obtain rfl := Option.some.inj h
    by_cases hm : n = m
    · subst hm
      have hdq := hd q hp
      have hp' : p = false := by
        unfold Obs.run at hr
        repeat' split at hr
        all_goals first
          | (simp at hr; done)
          | (obtain ⟨rfl, rfl⟩ := Prod.mk.inj (Option.some.inj hr); grind)
      subst hp'
      refine ⟨⟨fun o ho => ?_, hq⟩, rfl⟩
      simp only [upd_apply, if_pos] at ho
      cases ho
      unfold Obs.run at hr
      repeat' split at hr
      all_goals first
        | (simp at hr; done)
        | (obtain ⟨rfl, _⟩ := Prod.mk.inj (Option.some.inj hr); grind)
    · refine ⟨⟨fun o ho => ?_, hq⟩, ?_⟩
      · simp only [upd_apply, if_neg hm] at ho
        exact hd o ho
      · simp only
        split
        · simp [List.count_append, Ne.symm hm]
        · rfl
  | start =>
    simp only [step] at h
    repeat' split at h
    all_goals first
      | (simp at h; done)
      | (obtain rfl := Option.some.inj h; exact ⟨⟨hd, hq⟩, rfl⟩)
  | stop =>
    simp only [step] at h
    repeat' split at h
    all_goals first
      | (simp at h; done)
      | (obtain rfl := Option.some.inj h; exact ⟨⟨hd, hq⟩, rfl⟩)
  | joinCleaner =>
    simp only [step] at h
    split at h
    · obtain rfl := Option.some.inj h; exact ⟨⟨hd, hq⟩, rfl⟩
    · simp at h
  | signal m =>
    simp only [step] at h
    split at h
    · split at h
      · simp at h
      · rename_i q hp
        obtain rfl := Option.some.inj h
        refine ⟨⟨fun o ho => ?_, hq⟩, rfl⟩
        simp only [upd_apply] at ho
        by_cases hm : n = m
        · subst hm
          rw [if_pos rfl] at ho
          cases ho
          have := hd q hp
          unfold Obs.signal
          split <;> exact this
        · rw [if_neg hm] at ho
          exact hd o ho
    · simp at h
  | clear =>
    obtain rfl := Option.some.inj h
    exact ⟨⟨fun o ho => by simp at ho, hq⟩, rfl⟩
  | wake =>
    simp only [step] at h
    repeat' split at h
    all_goals first
      | (simp at h; done)
      | (obtain rfl := Option.some.inj h; exact ⟨⟨hd, hq⟩, rfl⟩)
  | clean =>
    simp only [step] at h
    split at h
    · obtain rfl := Option.some.inj h
      refine ⟨⟨fun o ho => ?_, hq⟩, rfl⟩
      simp only [Option.filter_eq_some_iff] at ho
      exact hd o ho.1
    · simp at h

theorem dead_run {s s' : State} {es : List Step} {n : String} (h : Run s es s') (hi : Inv s) (hd : Dead n s)
    (he : ∀ c t, Step.enter c n t ∉ es) : Dead n s' ∧ s'.seen.count n = s.seen.count n := by
  induction h with
  | nil => exact ⟨hd, rfl⟩
  | cons h hc hr ih =>
    obtain ⟨h1, h2⟩ := dead_step hi h hd (fun c t hce => he c t (by simp [hce]))
    obtain ⟨h3, h4⟩ := ih (inv_step hi h hc) h1 (fun c t hm => he c t (by simp [hm]))
    exact ⟨h3, h4.trans h2⟩

/-- Violated: **a successful request does not start the observation**.  An observer that ended because of its timeout
stays in the pool until the next cleanup (once per second).  A request in that time restarts it, but the time
of the last life signal is left as it was (L390-391, L99-119): the new thread leaves its loop at the first check.
Whatever happens afterwards — the publisher may send and signal — no content of the memory file is processed until
the next request. -/
theorem C94_violated_restart_is_useless {s s1 s2 : State} {c : Nat} {n : String} {t : Nat} {o : Obs} {es : List Step}
    (h : Reach s) (hc : s.calls c = .admitted n t) (hp : s.pool n = some o) (ho : o.observing = false)
    (ht : t ≤ s.now - o.life) (hother : ∀ c' t', c' ≠ c → s.calls c' ≠ .admitted n t')
    (h1 : step s (.observe c) = some s1) (hr : Run s1 es s2) (he : ∀ c t, Step.enter c n t ∉ es) :
    s1.calls c = .done true ∧ s2.seen.count n = s.seen.count n := by
  have hi := inv_reach h
  have hi1 := inv_step hi h1 (fun h => by simp at h)
  simp only [step] at h1
  split at h1
  · simp at h1
  simp only [hc] at h1
  rw [observe_eq hi] at h1
  obtain rfl := Option.some.inj h1
  refine ⟨by simp [upd_apply], ?_⟩
  have hd := dead_run (n := n) hr hi1 ⟨fun q hq => ?_, fun c' t' => ?_⟩ he
  · exact hd.2
  · simp only [upd_apply, if_pos, hp, requested, ho] at hq
    cases hq
    exact .inl ⟨rfl, ht⟩
  · simp only [upd_apply]
    split
    · simp
    · rename_i hne; exact hother c' t' hne

/-- The history of the example: observed at time 0 with a timeout of 1000, nothing heard until 1000, requested again
at 1300. -/
def lateRequest : List Step :=
  [.start, .enter 0 "a" 1000, .observe 0, .thread "a" false, .tick 1000, .thread "a" false, .thread "a" false,
   .thread "a" false, .tick 300, .enter 0 "a" 1000]

example : Reach (demo lateRequest) ∧ (demo lateRequest).calls 0 = .admitted "a" 1000 ∧
    (∃ o, (demo lateRequest).pool "a" = some o ∧ o.observing = false ∧ 1000 ≤ (demo lateRequest).now - o.life) ∧
    (step (demo lateRequest) (.observe 0)).isSome = true :=
  ⟨⟨lateRequest, runB_sound rfl⟩, rfl, ⟨_, rfl, by decide, by decide⟩, rfl⟩

/-- Violated: **a request can come too late for an observer that still counts as observing**.  Between the last
check of its loop and the end of its thread the flag is still set: the request renews the life signal and reports
success, the observer ends nevertheless. -/
theorem C94_violated_request_while_leaving :
    ∃ s s1, Reach s ∧ s.calls 0 = .admitted "a" 1000 ∧ step s (.observe 0) = some s1 ∧ s1.calls 0 = .done true ∧
      ∀ s2, step s1 (.thread "a" true) = some s2 →
        (s2.pool "a").map (·.phase) = some .ended ∧ s2.now = s.now := by
  refine ⟨demo [.start, .enter 0 "a" 1000, .observe 0, .thread "a" false, .tick 1000, .thread "a" false,
      .thread "a" false, .enter 0 "a" 1000], _,
      ⟨[.start, .enter 0 "a" 1000, .observe 0, .thread "a" false, .tick 1000, .thread "a" false,
      .thread "a" false, .enter 0 "a" 1000], runB_sound rfl⟩, rfl, rfl, rfl, fun s2 h => ?_⟩
  cases h
  exact ⟨rfl, rfl⟩

/-! ## The stop -/

/-- The threads of all observers have ended when `Stop` returns, and nothing is left in the pool. -/
theorem C94_stop_empties {s s' : State} {es : List Step} (hr : Run s [.clear] s') (_ : Run {} es s) :
    Quiet s ∧ (∀ n, s'.pool n = none) ∧ s'.created = false := by
  cases hr with
  | cons h hc hr =>
    cases hr
    obtain rfl := Option.some.inj h
    exact ⟨(hc rfl).2, fun _ => rfl, rfl⟩

/-- How many steps a thread that was told to stop still has. -/
def Obs.left (o : Obs) : Nat :=
  match o.phase with
  | .off | .ended => 0
  | .leaving => 1
  | .check | .last => 2
  | .wait | .access => 3

/-- An observer that was told to stop ends after at most three steps of its thread, whatever is signalled. -/
theorem C94_stop_ends_observer {now : Nat} {env p : Bool} {o o' : Obs} (hd : o.doStop = true)
    (h : o.run now env = some (o', p)) : o'.left < o.left ∧ o'.doStop = true ∧ o.left ≤ 3 := by
  unfold Obs.run at h
  unfold Obs.left
  repeat' split at h
  all_goals first
    | (simp at h; done)
    | (obtain ⟨rfl, rfl⟩ := Prod.mk.inj (Option.some.inj h)
       simp_all)

/-- … and its thread can always take its next step until it has ended. -/
theorem C94_observer_not_stuck (o : Obs) (now : Nat) (env : Bool) (h1 : o.phase ≠ .off) (h2 : o.phase ≠ .ended) :
    (o.run now env).isSome = true := by
  unfold Obs.run
  repeat' split
  all_goals first | rfl | contradiction

/-- How many steps a thread without signals still has after its time is over. -/
def Obs.rest (o : Obs) : Nat :=
  match o.phase with
  | .off | .ended => 0
  | .leaving => 1
  | .check => 2
  | .wait | .access => 3
  | .last => 4

/-- An observer whose last request and last signal are older than its timeout ends after at most four steps of its thread,
if no further signal arrives (`hw`); what time it is at each step does not matter. -/
theorem C94_unused_observer_ends {now : Nat} {env p : Bool} {o o' : Obs} (ht : o.life + o.timeout ≤ now)
    (hw : o.phase = .wait → env = false) (h : o.run now env = some (o', p)) :
    o'.rest < o.rest ∧ o'.life = o.life ∧ o'.timeout = o.timeout ∧ o.rest ≤ 4 := by
  unfold Obs.run at h
  unfold Obs.rest
  repeat' split at h
  all_goals first
    | (simp at h; done)
    | (obtain ⟨rfl, rfl⟩ := Prod.mk.inj (Option.some.inj h)
       simp_all
       try omega)

example : ({ phase := .check, observing := true, life := 3, timeout := 5 } : Obs).run 8 false =
    some ({ phase := .leaving, observing := true, life := 3, timeout := 5 }, false) := by decide

/-- Nothing of the pool is left and nobody is in the middle of a request. -/
def Gone (s : State) : Prop :=
  s.created = false ∧ s.stopper = .idle ∧ (∀ n, s.pool n = none) ∧ ∀ c n t, s.calls c ≠ .admitted n t

theorem gone_step {s s' : State} {e : Step} (h : step s e = some s') (hg : Gone s) (he : e ≠ .start) :
    Gone s' ∧ s'.seen = s.seen := by
  obtain ⟨g1, g2, g3, g4⟩ := hg
  cases e with
  | enter c m t =>
    simp only [step, g1] at h
    repeat' split at h
    all_goals first
      | (simp at h; done)
      | (obtain rfl := Option.some.inj h
         refine ⟨⟨rfl, g2, g3, fun c' n' t' => ?_⟩, rfl⟩
         simp only [upd_apply]
         split
         · simp
         · exact g4 c' n' t')
      | (rename_i hn; simp at hn; done)
  | observe c =>
    simp only [step] at h
    split at h
    · simp at h
    split at h
    · rename_i hc; exact absurd hc (g4 _ _ _)
    · simp at h
  | thread m env => simp [step, g3 m] at h
  | start => exact absurd rfl he
  | stop =>
    simp [step, g1, g2] at h
    subst h
    exact ⟨⟨g1, g2, g3, g4⟩, rfl⟩
  | joinCleaner => simp [step, g2] at h
  | signal m => simp [step, g2] at h
  | clear =>
    obtain rfl := Option.some.inj h
    exact ⟨⟨rfl, rfl, fun _ => rfl, g4⟩, rfl⟩
  | tick d =>
    obtain rfl := Option.some.inj h
    exact ⟨⟨g1, g2, g3, g4⟩, rfl⟩
  | wake =>
    simp only [step] at h
    repeat' split at h
    all_goals first
      | (simp at h; done)
      | (obtain rfl := Option.some.inj h; exact ⟨⟨g1, g2, g3, g4⟩, rfl⟩)
  | clean =>
    simp only [step] at h
    split at h
    · obtain rfl := Option.some.inj h
      exact ⟨⟨g1, g2, fun n => by simp [g3 n], g4⟩, rfl⟩
    · simp at h

/-- After `Stop` no content is processed any more and every request is refused, until the pool is started again —
provided no request was under way when `Stop` returned (that this is needed is the violation below). -/
theorem C94_silent_after_stop_partial {s s1 s2 : State} {es : List Step} (hr : Run s [.clear] s1)
    (hc : ∀ c n t, s.calls c ≠ .admitted n t) (h2 : Run s1 es s2) (he : Step.start ∉ es) :
    s2.seen = s.seen ∧ (∀ n, s2.pool n = none) ∧ ∀ c n t, s2.calls c ≠ .admitted n t := by
  have hg : Gone s1 ∧ s1.seen = s.seen := by
    cases hr with
    | cons h _ hr =>
      cases hr
      obtain rfl := Option.some.inj h
      exact ⟨⟨rfl, rfl, fun _ => rfl, hc⟩, rfl⟩
  obtain ⟨hg, hs⟩ := hg
  clear hr
  suffices hh : Gone s2 ∧ s2.seen = s1.seen from ⟨hh.2.trans hs, hh.1.2.2.1, hh.1.2.2.2⟩
  clear hs hc
  induction h2 with
  | nil => exact ⟨hg, rfl⟩
  | cons h _ _ ih =>
    obtain ⟨h1, h2⟩ := gone_step h hg (fun h => he (by simp [h]))
    obtain ⟨h3, h4⟩ := ih (fun h => he (by simp [h])) h1
    exact ⟨h3, h4.trans h2⟩

/-- A complete life of a pool with one observer, up to the moment before `Stop` returns. -/
def stopping : List Step :=
  [.start, .enter 0 "a" 1000, .observe 0, .thread "a" false, .stop, .wake, .joinCleaner, .signal "a",
   .thread "a" true, .thread "a" true, .thread "a" true]

theorem stopping_quiet : Quiet (demo stopping) := by
  intro n o h
  by_cases hn : n = "a"
  · subst hn; cases h; right; rfl
  · have : (demo stopping).pool n = none := by
      show (if n = "a" then _ else if n = "a" then _ else if n = "a" then _ else if n = "a" then _ else
        if n = "a" then _ else if n = "a" then _ else none) = none
      simp [hn]
    rw [this] at h
    simp at h

example : Reach (demo stopping) ∧ Run (demo stopping) [.clear] (demo stopping |> fun s =>
    { s with pool := fun _ => none, created := false, stopper := .idle }) :=
  ⟨⟨stopping, runB_sound rfl⟩, .cons rfl (fun _ => ⟨rfl, stopping_quiet⟩) (.nil _)⟩

/-- As `stopping`, but a second request has passed the test of `m_created` when the pool is stopped. -/
def lateCaller : List Step :=
  [.start, .enter 1 "b" 1000, .stop, .wake, .joinCleaner]

/-- Violated: **an observer can be started after the pool was stopped**.  The test whether the pool is running
(L370) is made before the lock is taken (L374): a request that passed it waits for `Stop` to release the lock, starts a
new observer in the stopped pool and reports success; its thread processes contents after `Stop` has returned. -/
theorem C94_violated_observer_after_stop :
    ∃ s s1 s2, Reach s ∧ Run s [.clear] s1 ∧ s1.created = false ∧
      Run s1 [.observe 1, .thread "b" true, .thread "b" true, .thread "b" true, .thread "b" true] s2 ∧
      s2.calls 1 = .done true ∧ s.seen = [] ∧ s2.seen = ["b"] ∧ s2.created = false := by
  refine ⟨demo lateCaller, _, _, ⟨lateCaller, runB_sound rfl⟩, .cons rfl (fun _ => ⟨rfl, ?_⟩) (.nil _), rfl,
    runB_sound rfl, rfl, rfl, rfl, rfl⟩
  intro n o h
  cases h

/-- **`Stop` gets past the cleanup thread**: from every reachable state in which `Stop` waits for the cleanup thread, at most three
further steps of these two threads (the thread finishes its cleaning, leaves its loop, is joined) bring `Stop` to the observers. -/
theorem C94_stop_gets_past_cleaner {s : State} (h : Reach s) (hs : s.stopper = .joining) :
    ∃ es s', es.length ≤ 3 ∧ (∀ e ∈ es, e = .clean ∨ e = .wake ∨ e = .joinCleaner) ∧ Run s es s' ∧ s'.stopper = .stopping := by
  obtain ⟨-, -, -, -, -, h6, -⟩ := inv_reach h
  obtain ⟨hc, ho⟩ := h6 hs
  have e3 : ∀ t : State, t.stopper = .joining → t.cleaner = .ended →
      ∃ s', Run t [.joinCleaner] s' ∧ s'.stopper = .stopping := fun t a b =>
    ⟨{ t with cleaner := .off, stopper := .stopping }, Run.one (by simp [step, a, b]) nofun, rfl⟩
  have e2 : ∀ t : State, t.stopper = .joining → t.cleaner = .waiting → t.cleanup = false →
      ∃ s', Run t [.wake, .joinCleaner] s' ∧ s'.stopper = .stopping := by
    intro t a b c
    obtain ⟨s', r, q⟩ := e3 { t with cleaner := .ended } a rfl
    exact ⟨s', .cons (by simp [step, b, c]) nofun r, q⟩
  cases hcl : s.cleaner with
  | off => exact absurd hcl ho
  | ended =>
    obtain ⟨s', r, q⟩ := e3 s hs hcl
    exact ⟨_, s', by simp, by simp, r, q⟩
  | waiting =>
    obtain ⟨s', r, q⟩ := e2 s hs hcl hc
    exact ⟨_, s', by simp, by simp, r, q⟩
  | cleaning =>
    obtain ⟨s', r, q⟩ := e2 { s with pool := fun n => (s.pool n).filter (·.observing), cleaner := .waiting } hs rfl hc
    exact ⟨[.clean, .wake, .joinCleaner], s', by simp, by simp, .cons (by simp [step, hcl, hs]) nofun r, q⟩

example : Reach (demo [.start, .wake, .stop]) ∧ (demo [.start, .wake, .stop]).stopper = .joining :=
  ⟨⟨[.start, .wake, .stop], runB_sound (by rfl)⟩, by decide⟩

end Ecal.Shm.Pool
