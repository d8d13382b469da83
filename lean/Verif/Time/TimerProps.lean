import Verif.Time.Timer

/-! # C51: timer callbacks stop with Stop -/

namespace Ecal.Time.Timer

structure Inv (st : State) : Prop where
  quiet    : st.ctl = .idle → st.running = false → st.thr = .absent
  present  : (st.running = true ∨ st.ctl ≠ .idle) → st.thr ≠ .absent
  fresh    : st.ctl ≠ .joining → st.stop = false
  looping  : st.ctl ≠ .joining → st.thr ≠ .exiting ∧ st.thr ≠ .done
  stopping : st.ctl = .joining → st.thr ≠ .done → st.stop = true
  run      : st.ctl = .joining → st.running = true
  begin    : st.ctl = .starting → st.running = false
  finished : st.thr = .done → st.stop = false

theorem inv_init : Inv {} := by constructor <;> simp

theorem inv_step {st : State} (h : Inv st) (a : Step) : Inv (step st a).1 := by
  obtain ⟨run, stop, ctl, thr, cr⟩ := st
  obtain ⟨h1, h2, h3, h4, h5, h6, h7, h8⟩ := h
  simp only at h1 h2 h3 h4 h5 h6 h7 h8
  cases cr with
  | true => exact ⟨h1, h2, h3, h4, h5, h6, h7, h8⟩
  | false =>
    cases a with
    | callStart t =>
      simp only [step, Bool.false_eq_true, if_false]
      by_cases hc : ctl ≠ .idle
      · rw [if_pos hc]; exact ⟨h1, h2, h3, h4, h5, h6, h7, h8⟩
      · rw [if_neg hc]
        by_cases hr : run = true ∨ t < 0
        · rw [if_pos hr]; exact ⟨h1, h2, h3, h4, h5, h6, h7, h8⟩
        · rw [if_neg hr]
          have hr' : run = false := by
            cases run with
            | false => rfl
            | true => exact absurd (Or.inl rfl) hr
          constructor <;> simp [hr']
    | retStart =>
      simp only [step, Bool.false_eq_true, if_false]
      cases ctl <;> cases thr <;> simp_all <;> constructor <;> simp_all
    | callStop =>
      simp only [step, Bool.false_eq_true, if_false]
      cases ctl <;> cases run <;> cases thr <;> simp_all <;> constructor <;> simp_all
    | retStop =>
      simp only [step, Bool.false_eq_true, if_false]
      cases ctl <;> cases thr <;> simp_all <;> constructor <;> simp_all
    | thread =>
      simp only [step, threadStep, Bool.false_eq_true, if_false]
      cases stop <;> cases ctl <;> cases thr <;> simp_all <;> constructor <;> simp_all
    | cbStop =>
      simp only [step, Bool.false_eq_true, if_false]
      split <;> exact ⟨h1, h2, h3, h4, h5, h6, h7, h8⟩

theorem inv_run (steps : List Step) : ∀ st : State, Inv st → Inv (run st steps).1 := by
  induction steps with
  | nil => intro st h; exact h
  | cons a l ih => intro st h; exact ih _ (inv_step h a)

def isStart : Step → Bool
  | .callStart _ => true
  | _ => false

/-- Without a thread and without a `Start` nothing happens. -/
theorem silent (steps : List Step) (hs : ∀ a ∈ steps, isStart a = false) :
    ∀ st : State, st.ctl = .idle → st.running = false → st.thr = .absent →
      Obs.callback ∉ (run st steps).2 := by
  induction steps with
  | nil => intro st _ _ _; simp [run]
  | cons a l ih =>
    intro st hc hr ht
    have h3 : (run st (a :: l)).2 = (step st a).2.toList ++ (run (step st a).1 l).2 := rfl
    have key : (step st a).1 = st ∧ (step st a).2 ≠ some .callback := by
      cases a with
      | callStart t => exact absurd (hs _ (List.mem_cons_self ..)) (by simp [isStart])
      | retStart => simp [step, hc]
      | callStop => simp only [step, hc, hr]; split <;> simp
      | retStop => simp [step, hc]
      | thread => simp [step, threadStep, ht]
      | cbStop => simp [step, ht]
    rw [h3, key.1]
    intro hm
    rcases List.mem_append.mp hm with hm | hm
    · rw [Option.mem_toList] at hm
      exact key.2 hm
    · exact ih (fun b hb => hs b (List.mem_cons_of_mem _ hb)) st hc hr ht hm

/-- **C51** No callback begins after `Stop` returned: for every history that ends with `Stop` returning and
every continuation without a new `Start`, in every interleaving with the timer thread. -/
theorem C51_no_callback_after_stop (before after : List Step) (hafter : ∀ a ∈ after, isStart a = false)
    (hstop : (step (run {} before).1 .retStop).2 = some (.stopped true)) :
    Obs.callback ∉ (run (step (run {} before).1 .retStop).1 after).2 := by
  have hinv := inv_step (inv_run before {} inv_init) .retStop
  generalize (run {} before).1 = st at hstop hinv ⊢
  have hq : (step st .retStop).1.ctl = .idle ∧ (step st .retStop).1.running = false := by
    simp only [step] at hstop ⊢
    by_cases hcr : st.crashed = true
    · rw [if_pos hcr] at hstop; cases hstop
    · rw [if_neg hcr] at hstop ⊢
      by_cases hc : st.ctl = .joining ∧ st.thr = .done
      · rw [if_pos hc]; exact ⟨rfl, rfl⟩
      · rw [if_neg hc] at hstop; cases hstop
  exact silent after hafter _ hq.1 hq.2 (hinv.quiet hq.1 hq.2)

/-- The hypothesis is met by a run with two callbacks. -/
example : (step (run {} [.callStart 10, .thread, .thread, .retStart, .thread, .thread, .thread, .thread,
    .callStop, .thread, .thread, .thread, .thread, .thread]).1 .retStop).2 = some (.stopped true) := by
  decide +kernel

/-- **C51** Also before the first `Start` there is no callback. -/
theorem C51_no_callback_before_start (steps : List Step) (hs : ∀ a ∈ steps, isStart a = false) :
    Obs.callback ∉ (run {} steps).2 := silent steps hs {} rfl rfl rfl

/-- **C51** A running timer cannot be started twice: `Start` is refused and changes nothing. -/
theorem C51_no_second_start (st : State) (t : Int) (hr : st.running = true) (hc : st.ctl = .idle)
    (hcr : st.crashed = false) :
    step st (.callStart t) = (st, some (.started false)) := by
  simp [step, hr, hc, hcr]

/-- **C51** A negative period is refused. -/
theorem C51_negative_period (st : State) (t : Int) (ht : t < 0) (hc : st.ctl = .idle) (hcr : st.crashed = false) :
    step st (.callStart t) = (st, some (.started false)) := by
  simp [step, ht, hc, hcr]

/-- **C51** Restart works: in every reachable state in which the timer is not running, `Start` is accepted,
and the thread's next three moves begin a callback. -/
theorem C51_restart_works (before : List Step) (t : Int) (ht : 0 ≤ t)
    (hc : (run {} before).1.ctl = .idle) (hr : (run {} before).1.running = false)
    (hcr : (run {} before).1.crashed = false) :
    (run (run {} before).1 [.callStart t, .retStart, .thread, .thread, .thread]).2 =
      [.started true, .callback] := by
  generalize (run {} before).1 = st at *
  obtain ⟨rn, stop, ctl, thr, cr⟩ := st
  simp only at hc hr hcr
  subst hc hr hcr
  have : ¬ (t < 0) := by omega
  simp [run, step, threadStep, this]

example : let st := (run {} [.callStart 10, .retStart, .thread, .callStop, .thread, .thread, .retStop]).1
    st.ctl = .idle ∧ st.running = false ∧ st.crashed = false := by decide +kernel

/-- Number of callbacks begun. -/
def callbacks (l : List Obs) : Nat := (l.filter (fun o => o == .callback)).length

/-- Steps during a `Stop` call: only the timer thread moves. -/
theorem while_joining (n : Nat) : ∀ st : State, Inv st → st.ctl = .joining → st.crashed = false →
    callbacks (run st (List.replicate n .thread)).2 ≤ (if st.thr = .go then 1 else 0) := by
  induction n with
  | zero => intro st _ _ _; simp [run, callbacks]
  | succ n ih =>
    intro st hi hc hcr
    rw [List.replicate_succ]
    have h3 : (run st (Step.thread :: List.replicate n .thread)).2 =
      (step st .thread).2.toList ++ (run (step st .thread).1 (List.replicate n .thread)).2 := rfl
    have hi' := inv_step hi .thread
    have hc' : (step st .thread).1.ctl = .joining := by
      simp only [step, hcr, threadStep]; cases st.thr <;> simp [hc]
    have hcr' : (step st .thread).1.crashed = false := by
      simp only [step, hcr, threadStep]; cases st.thr <;> simp [hcr]
    have h4 := ih _ hi' hc' hcr'
    have h5 : ∀ a b : List Obs, callbacks (a ++ b) = callbacks a + callbacks b := by
      intro a b; simp [callbacks]
    rw [h3, h5]
    have hstop := hi.stopping hc
    obtain ⟨rn, stop, ctl, thr, cr⟩ := st
    simp only at hc hcr hstop
    subst hc hcr
    cases thr with
    | absent => simpa [step, threadStep, callbacks] using h4
    | delay => simpa [step, threadStep, callbacks] using h4
    | test =>
      have : stop = true := hstop (by simp)
      subst this
      simpa [step, threadStep, callbacks] using h4
    | go =>
      have e : (step ⟨rn, stop, .joining, .go, false⟩ .thread).1.thr = .inCb := rfl
      rw [e, if_neg (by decide)] at h4
      have h6 : callbacks [Obs.callback] = 1 := rfl
      show callbacks [Obs.callback] + _ ≤ (if Thr.go = Thr.go then 1 else 0)
      rw [if_pos rfl]
      omega
    | inCb => simpa [step, threadStep, callbacks] using h4
    | sleep => simpa [step, threadStep, callbacks] using h4
    | exiting => simpa [step, threadStep, callbacks] using h4
    | done => simpa [step, threadStep, callbacks] using h4

/-- **C51** Once `Stop` was called at most one more callback begins (the one whose loop test was already
passed), however long `Stop` takes to return. -/
theorem C51_at_most_one_callback_during_stop (before : List Step) (n : Nat)
    (hc : (run {} before).1.ctl = .joining) (hcr : (run {} before).1.crashed = false) :
    callbacks (run (run {} before).1 (List.replicate n .thread)).2 ≤ 1 := by
  have := while_joining n _ (inv_run before {} inv_init) hc hcr
  split at this <;> omega

example : (run {} [.callStart 10, .retStart, .thread, .thread, .callStop]).1.ctl = .joining ∧
    callbacks (run (run {} [.callStart 10, .retStart, .thread, .thread, .callStop]).1
      (List.replicate 9 .thread)).2 = 1 := by decide +kernel

/-- **C51** `Stop` is not blocked: after it was called, six moves of the timer thread suffice to let it
return (each of them takes as long as the user's callback or one period). -/
theorem C51_stop_returns (before : List Step) (hc : (run {} before).1.ctl = .joining)
    (hcr : (run {} before).1.crashed = false) :
    (run (run {} before).1 [.thread, .thread, .thread, .thread, .thread, .thread]).1.thr = .done := by
  have hi := inv_run before {} inv_init
  generalize (run {} before).1 = st at *
  have h1 := hi.present (Or.inr (by rw [hc]; simp))
  have h2 := hi.stopping hc
  obtain ⟨rn, stop, ctl, thr, cr⟩ := st
  simp only at hc hcr h1 h2
  subst hc hcr
  cases thr <;> simp_all [run, step, threadStep]

/-- **C51, violation**: calling `Stop` from the callback of a running timer does not stop the timer but
terminates the process. -/
theorem C51_violated_stop_in_callback :
    (run {} [.callStart 10, .retStart, .thread, .thread, .thread, .cbStop]).1.crashed = true := by
  decide +kernel

/-- **C51, violation**: in the window before `Start` has set its flag the same call is ignored and the
timer goes on. -/
theorem C51_violated_stop_in_first_callback_ignored :
    (run {} [.callStart 10, .thread, .thread, .thread, .cbStop, .retStart, .thread, .thread, .thread, .thread]).2 =
      [.callback, .started true, .callback] := by
  decide +kernel

end Ecal.Time.Timer
