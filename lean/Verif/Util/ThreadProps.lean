import Verif.Util.Thread

/-! # Properties of the background thread (C70) -/

namespace Ecal.Util.Thread

theorem run_append (as bs : List Step) (s : St) :
    run s (as ++ bs) = (run s as).bind (fun s' => run s' bs) := by
  induction as generalizing s with
  | nil => rfl
  | cons a r ih =>
    simp only [List.cons_append, run]
    cases step s a with
    | ok s' => exact ih s'
    | blocked => rfl
    | terminate => rfl
    | selfJoin => rfl

/-- Invariant: callbacks are counted one by one, at most one is open; a stop under way has raised the
flag. -/
def Inv (s : St) : Prop :=
  s.begun = s.ended + (if s.thr = .inCallback then 1 else 0) ∧ (s.joining = true → s.stop = true)

theorem inv_step (s s' : St) (a : Step) (h : Inv s) (hs : step s a = .ok s') : Inv s' := by
  obtain ⟨thr, stop, trig, joining, begun, ended⟩ := s
  obtain ⟨h1, h2⟩ := h
  cases a <;> cases thr <;> cases stop <;> cases trig <;> cases joining <;> simp_all [step, leave, Inv] <;>
    subst hs <;> simp <;> omega

theorem inv_run (as : List Step) (s s' : St) (h : Inv s) (hr : run s as = some s') : Inv s' := by
  induction as generalizing s with
  | nil => simp only [run, Option.some.injEq] at hr; exact hr ▸ h
  | cons a r ih =>
    simp only [run] at hr
    cases hs : step s a with
    | ok s1 => rw [hs] at hr; exact ih s1 (inv_step s s1 a h hs) hr
    | blocked => rw [hs] at hr; cases hr
    | terminate => rw [hs] at hr; cases hr
    | selfJoin => rw [hs] at hr; cases hr

theorem inv_init : Inv {} := ⟨rfl, by simp⟩

/-- C70: callbacks never overlap. -/
theorem C70_no_overlap (as : List Step) (s : St) (h : run {} as = some s) :
    s.begun = s.ended ∨ s.begun = s.ended + 1 := by
  have := (inv_run as {} s inv_init h).1
  by_cases hc : s.thr = .inCallback
  · rw [if_pos hc] at this; exact Or.inr this
  · rw [if_neg hc] at this; exact Or.inl this

/-- What a trigger leaves behind: the flag, or a callback that began afterwards. -/
def Served (n : Nat) (s : St) : Prop := s.trig = true ∨ n < s.begun

theorem served_step (n : Nat) (s s' : St) (a : Step) (h : Served n s) (hn : n ≤ s.begun)
    (hs : step s a = .ok s') : Served n s' ∧ n ≤ s'.begun := by
  obtain ⟨thr, stop, trig, joining, begun, ended⟩ := s
  cases a <;> cases thr <;> cases stop <;> cases trig <;> cases joining <;> simp_all [step, leave, Served] <;>
    subst hs <;> simp <;> omega

theorem served_run (n : Nat) (as : List Step) (s s' : St) (h : Served n s) (hn : n ≤ s.begun)
    (hr : run s as = some s') : Served n s' ∧ n ≤ s'.begun := by
  induction as generalizing s with
  | nil => simp only [run, Option.some.injEq] at hr; exact hr ▸ ⟨h, hn⟩
  | cons a r ih =>
    simp only [run] at hr
    cases hs : step s a with
    | ok s1 =>
      rw [hs] at hr
      obtain ⟨h1, h2⟩ := served_step n s s1 a h hn hs
      exact ih s1 h1 h2 hr
    | blocked => rw [hs] at hr; cases hr
    | terminate => rw [hs] at hr; cases hr
    | selfJoin => rw [hs] at hr; cases hr

/-- C70: after a trigger, a callback begins no later than at the next time the thread leaves its wait
without having been stopped — whatever happened in between, and also when the trigger came during a
callback. -/
theorem C70_trigger_served (as bs : List Step) (s0 s1 s2 s3 : St) (t : Step)
    (ht : t = .trigger ∨ t = .selfTrigger) (h0 : run {} as = some s0) (h1 : step s0 t = .ok s1)
    (w : Step) (hw : w = .wake ∨ w = .timeout)
    (h2 : run s1 bs = some s2) (h3 : step s2 w = .ok s3) (hs : s2.stop = false) :
    s0.begun < s3.begun := by
  have hb : Served s0.begun s1 ∧ s0.begun ≤ s1.begun := by
    obtain ⟨thr, stop, trig, joining, begun, ended⟩ := s0
    rcases ht with rfl | rfl <;> cases thr <;> cases joining <;> simp_all [step, leave, Served] <;> subst h1 <;> simp
  obtain ⟨_, h5⟩ := served_run s0.begun bs s1 s2 hb.1 hb.2 h2
  obtain ⟨thr, stop, trig, joining, begun, ended⟩ := s2
  rcases hw with rfl | rfl <;> cases thr <;> cases trig <;> simp_all [step, leave] <;> subst h3 <;> simp only <;> omega

/-- C70: and while a trigger is not yet served its flag stays set, so that the thread's wait ends at
once. -/
theorem C70_trigger_not_lost (as bs : List Step) (s0 s1 s2 : St) (h0 : run {} as = some s0)
    (h1 : step s0 .trigger = .ok s1) (h2 : run s1 bs = some s2) (hn : s2.begun = s0.begun) :
    s2.trig = true := by
  have hb : Served s0.begun s1 ∧ s0.begun ≤ s1.begun := by
    obtain ⟨thr, stop, trig, joining, begun, ended⟩ := s0
    cases thr <;> cases joining <;> simp_all [step, Served] <;> subst h1 <;> simp
  rcases (served_run s0.begun bs s1 s2 hb.1 hb.2 h2).1 with h | h
  · exact h
  · omega

theorem stopped_step (s s' : St) (a : Step) (h : s.stop = true) (hs : step s a = .ok s') :
    s'.stop = true ∧ s'.begun = s.begun := by
  obtain ⟨thr, stop, trig, joining, begun, ended⟩ := s
  cases a <;> cases thr <;> cases joining <;> simp_all [step, leave] <;> subst hs <;> simp

theorem stopped_run (as : List Step) (s s' : St) (h : s.stop = true) (hr : run s as = some s') :
    s'.stop = true ∧ s'.begun = s.begun := by
  induction as generalizing s with
  | nil => simp only [run, Option.some.injEq] at hr; exact hr ▸ ⟨h, rfl⟩
  | cons a r ih =>
    simp only [run] at hr
    cases hs : step s a with
    | ok s1 =>
      rw [hs] at hr
      obtain ⟨h1, h2⟩ := stopped_step s s1 a h hs
      obtain ⟨h3, h4⟩ := ih s1 h1 hr
      exact ⟨h3, h4.trans h2⟩
    | blocked => rw [hs] at hr; cases hr
    | terminate => rw [hs] at hr; cases hr
    | selfJoin => rw [hs] at hr; cases hr

/-- C70: once `stop` has been called no callback begins any more; when it has returned none is running. -/
theorem C70_stopped (as bs : List Step) (s0 s1 s2 s3 : St) (h0 : run {} as = some s0)
    (h1 : step s0 .stopBegin = .ok s1) (h2 : run s1 bs = some s2) (h3 : step s2 .stopEnd = .ok s3) :
    s3.begun = s0.begun ∧ s3.ended = s3.begun ∧ s3.thr = .off := by
  have hs1 : s1.stop = true ∧ s1.begun = s0.begun := by
    obtain ⟨thr, stop, trig, joining, begun, ended⟩ := s0
    cases joining <;> simp_all [step]
    subst h1; simp
  have hi : Inv s3 := inv_step _ _ _ (inv_run bs _ _ (inv_step _ _ _ (inv_run as _ _ inv_init h0) h1) h2) h3
  obtain ⟨h4, h5⟩ := stopped_run bs s1 s2 hs1.1 h2
  have h6 : s3.thr = .off ∧ s3.begun = s2.begun := by
    obtain ⟨thr, stop, trig, joining, begun, ended⟩ := s2
    cases thr <;> cases joining <;> simp_all [step] <;> subst h3 <;> simp
  refine ⟨by rw [h6.2, h5, hs1.2], ?_, h6.1⟩
  have := hi.1
  rw [h6.1] at this
  simpa using this.symm

/-- C70: `stop` never waits for ever (given that callbacks return): at most the current callback has to
end and the thread to look at the flag. -/
theorem C70_stop_returns (as : List Step) (s : St) (h : run {} as = some s) (hj : s.joining = true) :
    ∃ bs s', bs.length ≤ 3 ∧ run s bs = some s' ∧ s'.joining = false := by
  have hi := inv_run as {} s inv_init h
  have hst := hi.2 hj
  obtain ⟨thr, stop, trig, joining, begun, ended⟩ := s
  simp only at hj hst
  subst hj hst
  cases thr with
  | off => exact ⟨[.stopEnd], _, by simp, rfl, rfl⟩
  | waiting => exact ⟨[.wake, .stopEnd], _, by simp, by simp [run, step, leave]; rfl, rfl⟩
  | inCallback => exact ⟨[.finish, .wake, .stopEnd], _, by simp, by simp [run, step, leave]; rfl, rfl⟩
  | ended => exact ⟨[.stopEnd], _, by simp, rfl, rfl⟩

/-- C70: no callback without a reason: each one answers a trigger or a timeout of its own. -/
theorem C70_no_spurious (as : List Step) (s : St) (h : run {} as = some s) :
    s.begun ≤ as.countP (fun a => a == .trigger || a == .selfTrigger || a == .timeout) := by
  have key : ∀ (as : List Step) (s s' : St), run s as = some s' →
      s'.begun + (if s'.trig = true then 1 else 0) ≤
        s.begun + (if s.trig = true then 1 else 0) +
          as.countP (fun a => a == .trigger || a == .selfTrigger || a == .timeout) := by
    intro as
    induction as with
    | nil =>
      intro s s' h
      simp only [run, Option.some.injEq] at h
      subst h; simp
    | cons a r ih =>
      intro s s' h
      simp only [run] at h
      cases hs : step s a with
      | ok s1 =>
        rw [hs] at h
        have h1 := ih s1 s' h
        have h2 : s1.begun + (if s1.trig = true then 1 else 0) ≤ s.begun + (if s.trig = true then 1 else 0) +
            [a].countP (fun a => a == .trigger || a == .selfTrigger || a == .timeout) := by
          obtain ⟨thr, stop, trig, joining, begun, ended⟩ := s
          cases a <;> cases thr <;> cases stop <;> cases trig <;> cases joining <;>
            simp_all [step, leave] <;> subst hs <;> simp
        have h3 : (a :: r) = [a] ++ r := rfl
        rw [h3, List.countP_append]
        omega
      | blocked => rw [hs] at h; cases h
      | terminate => rw [hs] at h; cases h
      | selfJoin => rw [hs] at h; cases h
  have := key as {} s h
  simp only [Bool.false_eq_true, if_false] at this
  split at this <;> omega

/-- C70 is violated by starting again after a stop: the flag is never lowered, no callback ever runs. -/
theorem C70_violated_restart (as : List Step) (s : St)
    (h : run {} ([.start, .timeout, .finish, .stopBegin, .wake, .stopEnd, .start] ++ as) = some s) :
    s.begun = 1 := by
  rw [run_append] at h
  have e : run {} [.start, .timeout, .finish, .stopBegin, .wake, .stopEnd, .start] =
      some { thr := .waiting, stop := true, begun := 1, ended := 1 } := rfl
  rw [e] at h
  exact (stopped_run as _ _ rfl h).2

/-- … such runs exist, for instance with a trigger after the restart. -/
example : run {} ([.start, .timeout, .finish, .stopBegin, .wake, .stopEnd, .start] ++ [.trigger, .wake]) =
    some { thr := .ended, stop := true, trig := true, begun := 1, ended := 1 } := rfl

/-- C70 is violated by stopping from inside the callback: the thread joins itself. -/
theorem C70_violated_self_stop : ∃ s, run {} [.start, .timeout] = some s ∧ step s .selfStop = .selfJoin :=
  ⟨_, rfl, rfl⟩

/-- C70 is violated by starting twice: the program is terminated. -/
theorem C70_violated_second_start : ∃ s, run {} [.start] = some s ∧ step s .start = .terminate :=
  ⟨_, rfl, rfl⟩

/-- The hypotheses of the C70 theorems are met. -/
example :
    ∃ s0 s1 s2 s3, run {} [.start, .timeout] = some s0 ∧ step s0 .trigger = .ok s1 ∧
      run s1 [.trigger, .finish] = some s2 ∧ step s2 .wake = .ok s3 ∧ s2.stop = false ∧ s3.begun = 2 :=
  ⟨_, _, _, _, rfl, rfl, rfl, rfl, rfl, rfl⟩
example :
    ∃ s0 s1 s2 s3, run {} [.start, .timeout] = some s0 ∧ step s0 .stopBegin = .ok s1 ∧
      run s1 [.finish, .wake] = some s2 ∧ step s2 .stopEnd = .ok s3 := ⟨_, _, _, _, rfl, rfl, rfl, rfl⟩

end Ecal.Util.Thread
