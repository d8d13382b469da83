import Verif.Sync.Event

/-! # C48: events are neither lost nor duplicated -/

namespace Ecal.Sync.Event

open Ecal

/-- Number of waits that reported success. -/
def successes (rs : List (Nat × Bool)) : Nat := (rs.filter (fun r => r.2)).length

def isSet : Step → Bool
  | .set _ => true
  | _ => false

/-- Number of `set` calls in a history. -/
def sets (steps : List Step) : Nat := (steps.filter isSet).length

def flag (b : Bool) : Nat := if b then 1 else 0

/-! ### Named event -/

/-- **C48** A wait that reports success consumed a set: the event was set and no longer is. -/
theorem C48_success_consumes (st : Named) (a : Step) (w : Nat) (h : (step st a).2 = some (w, true)) :
    st.set = true ∧ (step st a).1.set = false := by
  cases a with
  | set p => simp only [step] at h; split at h <;> cases h
  | wait x =>
    simp only [step] at h ⊢
    by_cases h1 : st.dead = true ∨ (st.waiting.find x).isSome = true
    · rw [if_pos h1] at h; cases h
    · rw [if_neg h1] at h ⊢
      by_cases h2 : st.set = true
      · rw [if_pos h2]; exact ⟨h2, rfl⟩
      · rw [if_neg h2] at h; cases h
  | trywait x =>
    simp only [step] at h ⊢
    by_cases h1 : st.dead = true ∨ (st.waiting.find x).isSome = true
    · rw [if_pos h1] at h; cases h
    · rw [if_neg h1] at h ⊢
      by_cases h2 : st.set = true
      · rw [if_pos h2]; exact ⟨h2, rfl⟩
      · rw [if_neg h2] at h; simp at h
  | wake x =>
    simp only [step] at h ⊢
    by_cases h1 : st.dead = true ∨ st.waiting.find x = none
    · rw [if_pos h1] at h; cases h
    · rw [if_neg h1] at h ⊢
      by_cases h2 : st.set = true
      · rw [if_pos h2]; exact ⟨h2, rfl⟩
      · rw [if_neg h2] at h; cases h
  | timeout x => simp only [step] at h; split at h <;> simp at h
  | init => simp [step] at h
  | dieInside => simp [step] at h

example : (step { set := true } (.wait 1)).2 = some (1, true) := by decide

/-- **C48** A wait that reports a time-out leaves the event as it was. -/
theorem C48_timeout_consumes_nothing (st : Named) (a : Step) (w : Nat) (h : (step st a).2 = some (w, false)) :
    (step st a).1.set = st.set := by
  cases a with
  | set p => simp only [step] at h; split at h <;> cases h
  | wait x =>
    simp only [step] at h
    by_cases h1 : st.dead = true ∨ (st.waiting.find x).isSome = true
    · rw [if_pos h1] at h; cases h
    · rw [if_neg h1] at h
      by_cases h2 : st.set = true
      · rw [if_pos h2] at h; simp at h
      · rw [if_neg h2] at h; cases h
  | trywait x =>
    simp only [step] at h ⊢
    by_cases h1 : st.dead = true ∨ (st.waiting.find x).isSome = true
    · rw [if_pos h1] at h; cases h
    · rw [if_neg h1] at h ⊢
      by_cases h2 : st.set = true
      · rw [if_pos h2] at h; simp at h
      · rw [if_neg h2]
  | wake x =>
    simp only [step] at h
    by_cases h1 : st.dead = true ∨ st.waiting.find x = none
    · rw [if_pos h1] at h; cases h
    · rw [if_neg h1] at h
      by_cases h2 : st.set = true
      · rw [if_pos h2] at h; simp at h
      · rw [if_neg h2] at h; cases h
  | timeout x => simp only [step]; split <;> rfl
  | init => simp [step] at h
  | dieInside => simp [step] at h

example : (step { set := true, waiting := [(1, false)] } (.timeout 1)).2 = some (1, false) := by decide

/-- What one step can do to the flag. -/
theorem flag_step (st : Named) (a : Step) :
    successes (step st a).2.toList + flag (step st a).1.set ≤ flag st.set + (if isSet a then 1 else 0) := by
  cases hr : (step st a).2 with
  | some r =>
    obtain ⟨w, b⟩ := r
    cases b with
    | true =>
      obtain ⟨h1, h2⟩ := C48_success_consumes st a w hr
      simp [successes, flag, h1, h2]
    | false =>
      have h1 := C48_timeout_consumes_nothing st a w hr
      simp [successes, h1]
  | none =>
    have h0 : successes (Option.toList (none : Option (Nat × Bool))) = 0 := rfl
    rw [h0]
    cases a with
    | set p =>
      simp only [step]
      split <;> simp [flag, isSet] <;> split <;> omega
    | wait x =>
      simp only [step] at hr ⊢
      by_cases h1 : st.dead = true ∨ (st.waiting.find x).isSome = true
      · rw [if_pos h1]; simp [isSet]
      · rw [if_neg h1] at hr ⊢
        by_cases h2 : st.set = true
        · rw [if_pos h2] at hr; cases hr
        · rw [if_neg h2]; simp [isSet]
    | trywait x =>
      simp only [step] at hr ⊢
      by_cases h1 : st.dead = true ∨ (st.waiting.find x).isSome = true
      · rw [if_pos h1]; simp [isSet]
      · rw [if_neg h1] at hr ⊢
        by_cases h2 : st.set = true
        · rw [if_pos h2] at hr; cases hr
        · rw [if_neg h2] at hr; cases hr
    | wake x =>
      simp only [step] at hr ⊢
      by_cases h1 : st.dead = true ∨ st.waiting.find x = none
      · rw [if_pos h1]; simp [isSet]
      · rw [if_neg h1] at hr ⊢
        by_cases h2 : st.set = true
        · rw [if_pos h2] at hr; cases hr
        · rw [if_neg h2]; simp [isSet]
    | timeout x =>
      simp only [step]
      split <;> simp [isSet]
    | init => simp [step, flag]
    | dieInside => simp [step, isSet]

theorem successes_append (a b : List (Nat × Bool)) : successes (a ++ b) = successes a + successes b := by
  simp [successes]

theorem successes_le_aux (steps : List Step) :
    ∀ st : Named, successes (run st steps).2 + flag (run st steps).1.set ≤ flag st.set + sets steps := by
  induction steps with
  | nil => intro st; simp [run, successes, sets]
  | cons a l ih =>
    intro st
    have h1 := flag_step st a
    have h2 := ih (step st a).1
    have h3 : sets (a :: l) = (if isSet a then 1 else 0) + sets l := by
      unfold sets
      rw [List.filter_cons]
      split
      · simp [Nat.add_comm]
      · simp
    have h4 : (run st (a :: l)).2 = (step st a).2.toList ++ (run (step st a).1 l).2 := rfl
    have h5 : (run st (a :: l)).1 = (run (step st a).1 l).1 := rfl
    rw [h3, h4, h5, successes_append]
    omega

/-- **C48** No set releases two waits: in every history the successful waits are at most as many as the
sets (and one set is still unused if the event is set at the end). -/
theorem C48_no_duplication (steps : List Step) :
    successes (run {} steps).2 + flag (run {} steps).1.set ≤ sets steps := by
  have := successes_le_aux steps {}
  simpa [flag] using this

/-- Steps of a history without re-initialisation. -/
def NoInit (steps : List Step) : Prop := Step.init ∉ steps

theorem set_survives_step (st : Named) (a : Step) (ha : a ≠ .init) (hs : st.set = true)
    (hn : ∀ w, (step st a).2 ≠ some (w, true)) : (step st a).1.set = true := by
  cases a with
  | set p => simp only [step]; split <;> simp [hs]
  | wait x =>
    have := hn x
    simp only [step] at this ⊢
    by_cases h1 : st.dead = true ∨ (st.waiting.find x).isSome = true
    · rw [if_pos h1]; exact hs
    · rw [if_neg h1, if_pos hs] at this
      exact absurd rfl this
  | trywait x =>
    have := hn x
    simp only [step] at this ⊢
    by_cases h1 : st.dead = true ∨ (st.waiting.find x).isSome = true
    · rw [if_pos h1]; exact hs
    · rw [if_neg h1, if_pos hs] at this
      exact absurd rfl this
  | wake x =>
    have := hn x
    simp only [step] at this ⊢
    by_cases h1 : st.dead = true ∨ st.waiting.find x = none
    · rw [if_pos h1]; exact hs
    · rw [if_neg h1, if_pos hs] at this
      exact absurd rfl this
  | timeout x => simp only [step]; split <;> exact hs
  | init => exact absurd rfl ha
  | dieInside => exact hs

/-- **C48** A set is kept until some wait succeeds: whatever happens in between (time-outs, failed
checks, further sets, new waiters), as long as no wait reported success the event is still set. -/
theorem C48_set_kept_until_consumed (steps : List Step) (hni : NoInit steps) :
    ∀ st : Named, st.set = true → (∀ w, (w, true) ∉ (run st steps).2) → (run st steps).1.set = true := by
  induction steps with
  | nil => intro st hs _; exact hs
  | cons a l ih =>
    intro st hs hn
    have ha : a ≠ .init := by rintro rfl; exact hni (List.mem_cons_self ..)
    have h4 : (run st (a :: l)).2 = (step st a).2.toList ++ (run (step st a).1 l).2 := rfl
    have h5 : (run st (a :: l)).1 = (run (step st a).1 l).1 := rfl
    rw [h5]
    apply ih (fun h => hni (List.mem_cons_of_mem _ h))
    · apply set_survives_step st a ha hs
      intro w hw
      apply hn w
      rw [h4, hw]
      simp
    · intro w hw
      apply hn w
      rw [h4]
      exact List.mem_append_right _ hw

/-- **C48** … and the next wait (of a living event) succeeds at once. -/
theorem C48_wait_on_set_event_succeeds (st : Named) (w : Nat) (hs : st.set = true) (hd : st.dead = false)
    (hw : st.waiting.find w = none) :
    (step st (.wait w)).2 = some (w, true) ∧ (step st (.trywait w)).2 = some (w, true) := by
  simp [step, hs, hd, hw]

example : ∀ w, (w, true) ∉ (run { set := true, waiting := [(1, false)] } [.timeout 1, .set 2]).2 := by
  intro w hw
  have h : (run { set := true, waiting := [(1, false)] } [.timeout 1, .set 2]).2 = [(1, false)] := by
    decide +kernel
  rw [h] at hw
  simp at hw

/-! ### No lost wake-up -/

/-- If the event is set while somebody sleeps, a sleeper has been given a signal and will take it. -/
structure WInv (st : Named) : Prop where
  keys : (AMap.keys st.waiting).Nodup
  wake : st.set = true → ∀ w b, st.waiting.find w = some b → ∃ k, st.waiting.find k = some true

theorem signal_keys {ws : AMap Nat Bool} (h : (AMap.keys ws).Nodup) (p : Nat) : (AMap.keys (signal ws p)).Nodup := by
  unfold signal
  split
  · exact AMap.nodup_set h _ _
  · split
    · exact AMap.nodup_set h _ _
    · exact h

theorem signal_wakes {ws : AMap Nat Bool} (p : Nat) {w : Nat} {b : Bool}
    (hw : (signal ws p).find w = some b) : ∃ k, (signal ws p).find k = some true := by
  unfold signal at hw ⊢
  split
  · exact ⟨p, AMap.find_set_self _ _ _⟩
  · split
    · rename_i q _
      exact ⟨q.1, AMap.find_set_self _ _ _⟩
    · rename_i h1 _ h2
      rw [if_neg h1] at hw
      simp only [h2] at hw
      refine ⟨w, ?_⟩
      have hm := AMap.mem_of_find hw
      have := List.find?_eq_none.mp h2 _ hm
      simp only [Bool.not_eq_true, Bool.not_eq_false'] at this
      rw [hw, this]

theorem winv_step {st : Named} (h : WInv st) (a : Step) (ha : a ≠ .init) : WInv (step st a).1 := by
  cases a with
  | set p =>
    simp only [step]
    by_cases h1 : st.dead = true
    · rw [if_pos h1]; exact h
    · rw [if_neg h1]
      exact { keys := signal_keys h.keys p, wake := fun _ w b hw => signal_wakes p hw }
  | wait x =>
    simp only [step]
    by_cases h1 : st.dead = true ∨ (st.waiting.find x).isSome = true
    · rw [if_pos h1]; exact h
    · rw [if_neg h1]
      by_cases h2 : st.set = true
      · rw [if_pos h2]; exact { keys := h.keys, wake := fun hs => by cases hs }
      · rw [if_neg h2]
        exact { keys := AMap.nodup_set h.keys _ _, wake := fun hs => absurd hs h2 }
  | trywait x =>
    simp only [step]
    by_cases h1 : st.dead = true ∨ (st.waiting.find x).isSome = true
    · rw [if_pos h1]; exact h
    · rw [if_neg h1]
      by_cases h2 : st.set = true
      · rw [if_pos h2]; exact { keys := h.keys, wake := fun hs => by cases hs }
      · rw [if_neg h2]; exact h
  | wake x =>
    simp only [step]
    by_cases h1 : st.dead = true ∨ st.waiting.find x = none
    · rw [if_pos h1]; exact h
    · rw [if_neg h1]
      by_cases h2 : st.set = true
      · rw [if_pos h2]
        exact { keys := AMap.nodup_erase h.keys _, wake := fun hs => by cases hs }
      · rw [if_neg h2]
        exact { keys := AMap.nodup_set h.keys _ _, wake := fun hs => absurd hs h2 }
  | timeout x =>
    simp only [step]
    by_cases h1 : st.dead = true ∨ st.waiting.find x ≠ some false
    · rw [if_pos h1]; exact h
    · rw [if_neg h1]
      have hx : st.waiting.find x = some false :=
        Classical.byContradiction fun hn => h1 (Or.inr hn)
      refine { keys := AMap.nodup_erase h.keys _, wake := ?_ }
      intro hs w b hw
      simp only [AMap.find_erase] at hw ⊢
      by_cases hxw : x = w
      · rw [if_pos hxw] at hw; cases hw
      · rw [if_neg hxw] at hw
        obtain ⟨k, hk⟩ := h.wake hs w b hw
        have : x ≠ k := by rintro rfl; rw [hx] at hk; cases hk
        exact ⟨k, by rw [if_neg this]; exact hk⟩
  | init => exact absurd rfl ha
  | dieInside => exact { keys := h.keys, wake := h.wake }

theorem winv_run (steps : List Step) (hni : NoInit steps) : ∀ st : Named, WInv st → WInv (run st steps).1 := by
  induction steps with
  | nil => intro st h; exact h
  | cons a l ih =>
    intro st h
    exact ih (fun hh => hni (List.mem_cons_of_mem _ hh)) _
      (winv_step h a (by rintro rfl; exact hni (List.mem_cons_self ..)))

/-- **C48** No wake-up is lost: in every history, if the event is set while a waiter sleeps, some sleeper
has been signalled, and its wake-up succeeds. -/
theorem C48_no_lost_wakeup (steps : List Step) (hni : NoInit steps) (w : Nat) (b : Bool)
    (hs : (run {} steps).1.set = true) (hd : (run {} steps).1.dead = false)
    (hw : (run {} steps).1.waiting.find w = some b) :
    ∃ k, (run {} steps).1.waiting.find k = some true ∧
      (step (run {} steps).1 (.wake k)).2 = some (k, true) := by
  have h0 : WInv {} := { keys := List.nodup_nil, wake := fun hs => by cases hs }
  obtain ⟨k, hk⟩ := (winv_run steps hni {} h0).wake hs w b hw
  exact ⟨k, hk, by simp [step, hk, hs, hd]⟩

example : let st := (run {} [.wait 1, .wait 2, .set 2]).1
    st.set = true ∧ st.dead = false ∧ st.waiting.find 1 = some false ∧ st.waiting.find 2 = some true := by
  decide +kernel

/-! ### Violations (named event) -/

/-- The full statement: with enough waits every set releases one. -/
def EverySetReleases : Prop :=
  ∀ steps : List Step, NoInit steps → (run {} steps).1.dead = false →
    successes (run {} steps).2 + flag (run {} steps).1.set = sets steps

/-- **C48, violation**: two sets before the next wait release only one wait. -/
theorem C48_violated_sets_merge :
    (run {} [.set 0, .set 0, .trywait 1, .trywait 2]).2 = [(1, true), (2, false)] := by decide +kernel

/-- **C48, violation** of the full statement: not every set releases a waiter (two sets release one). -/
theorem C48_violated : ¬ EverySetReleases := by
  intro h
  have := h [.set 0, .set 0, .trywait 1, .trywait 2] (by unfold NoInit; decide) (by decide +kernel)
  revert this
  decide +kernel

/-- **C48, violation**: a set issued before the creating process has finished the initialisation is lost. -/
theorem C48_violated_init_race :
    (run {} [.set 0, .init, .trywait 1]).2 = [(1, false)] := by decide +kernel

theorem dead_no_results_step (st : Named) (a : Step) (ha : a ≠ .init) (hd : st.dead = true) :
    (step st a).2 = none ∧ (step st a).1.dead = true := by
  cases a <;> simp_all [step]

/-- **C48, violation**: after a process died inside a critical section of the event no wait ever returns,
not even one with a time-out or with time-out 0. -/
theorem C48_violated_dead_process_blocks (steps : List Step) (hni : NoInit steps) :
    ∀ st : Named, st.dead = true → (run st steps).2 = [] := by
  induction steps with
  | nil => intro st _; rfl
  | cons a l ih =>
    intro st hd
    obtain ⟨h1, h2⟩ := dead_no_results_step st a (by rintro rfl; exact hni (List.mem_cons_self ..)) hd
    have h4 : (run st (a :: l)).2 = (step st a).2.toList ++ (run (step st a).1 l).2 := rfl
    rw [h4, h1, ih (fun hh => hni (List.mem_cons_of_mem _ hh)) _ h2]
    rfl

/-! ### Unnamed event -/

def isCSet : CStep → Bool
  | .set => true
  | _ => false

def csets (steps : List CStep) : Nat := (steps.filter isCSet).length

theorem csets_cons (a : CStep) (l : List CStep) : csets (a :: l) = (if isCSet a then 1 else 0) + csets l := by
  unfold csets
  rw [List.filter_cons]
  split
  · simp [Nat.add_comm]
  · simp

theorem cstep_count (st : Counting) (a : CStep) (hn : st.n + 1 < 2 ^ 32) :
    successes (cstep st a).2.toList + (cstep st a).1.n = st.n + (if isCSet a then 1 else 0) := by
  cases a with
  | set =>
    have : (st.n + 1) % 2 ^ 32 = st.n + 1 := Nat.mod_eq_of_lt hn
    simp only [cstep, isCSet, this]
    simp [successes]
  | wait w =>
    simp only [cstep]
    by_cases h1 : w ∈ st.waiting
    · rw [if_pos h1]; simp [successes, isCSet]
    · rw [if_neg h1]
      by_cases h2 : st.n > 0
      · rw [if_pos h2]; simp [successes, isCSet]; omega
      · rw [if_neg h2]; simp [successes, isCSet]
  | wake w =>
    simp only [cstep]
    by_cases h1 : w ∈ st.waiting ∧ st.n > 0
    · rw [if_pos h1]; simp [successes, isCSet]; omega
    · rw [if_neg h1]; simp [successes, isCSet]
  | timeout w =>
    simp only [cstep]
    by_cases h1 : w ∈ st.waiting
    · rw [if_pos h1]
      by_cases h2 : st.n > 0
      · rw [if_pos h2]; simp [successes, isCSet]; omega
      · rw [if_neg h2]; simp [successes, isCSet]
    · rw [if_neg h1]; simp [successes, isCSet]

theorem crun_count (steps : List CStep) :
    ∀ st : Counting, st.n + csets steps < 2 ^ 32 →
      successes (crun st steps).2 + (crun st steps).1.n = st.n + csets steps := by
  induction steps with
  | nil => intro st _; simp [crun, successes, csets]
  | cons a l ih =>
    intro st hn
    rw [csets_cons] at hn ⊢
    have h4 : (crun st (a :: l)).2 = (cstep st a).2.toList ++ (crun (cstep st a).1 l).2 := rfl
    have h5 : (crun st (a :: l)).1 = (crun (cstep st a).1 l).1 := rfl
    rw [h4, h5, successes_append]
    by_cases ha : isCSet a = true
    · simp only [ha, if_true] at hn ⊢
      have h1 := cstep_count st a (by omega)
      simp only [ha, if_true] at h1
      have h2 := ih (cstep st a).1 (by omega)
      omega
    · simp only [ha] at hn ⊢
      cases a with
      | set => exact absurd rfl ha
      | wait w =>
        have h1 : successes (cstep st (.wait w)).2.toList + (cstep st (.wait w)).1.n = st.n := by
          by_cases h1 : w ∈ st.waiting
          · simp [cstep, h1, successes]
          · by_cases h2 : st.n > 0
            · simp [cstep, h1, h2, successes]; omega
            · simp [cstep, h1, h2, successes]
        have h2 := ih (cstep st (.wait w)).1 (by simp at hn; omega)
        simp; omega
      | wake w =>
        have h1 : successes (cstep st (.wake w)).2.toList + (cstep st (.wake w)).1.n = st.n := by
          by_cases h1 : w ∈ st.waiting ∧ st.n > 0
          · simp [cstep, h1, successes]; omega
          · simp only [cstep, if_neg h1]; simp [successes]
        have h2 := ih (cstep st (.wake w)).1 (by simp at hn; omega)
        simp; omega
      | timeout w =>
        have h1 : successes (cstep st (.timeout w)).2.toList + (cstep st (.timeout w)).1.n = st.n := by
          by_cases h1 : w ∈ st.waiting
          · by_cases h2 : st.n > 0
            · simp [cstep, h1, h2, successes]; omega
            · simp [cstep, h1, h2, successes]
          · simp [cstep, h1, successes]
        have h2 := ih (cstep st (.timeout w)).1 (by simp at hn; omega)
        simp; omega

/-- **C48** (unnamed event) Exactly: every set is consumed by one successful wait or still available, as
long as fewer than 2^32 sets were issued. -/
theorem C48_unnamed_exact_partial (steps : List CStep) (hn : csets steps < 2 ^ 32) :
    successes (crun {} steps).2 + (crun {} steps).1.n = csets steps := by
  have := crun_count steps {} (by simpa using hn)
  simpa using this

example : successes (crun {} [.set, .set, .wait 1, .wait 2, .wait 3]).2 = 2 := by decide +kernel

/-- **C48** (unnamed event) A wait that reports a time-out found no set. -/
theorem C48_unnamed_timeout (st : Counting) (a : CStep) (w : Nat) (h : (cstep st a).2 = some (w, false)) :
    st.n = 0 ∧ (cstep st a).1.n = 0 := by
  cases a with
  | set => simp [cstep] at h
  | wait x =>
    simp only [cstep] at h
    by_cases h1 : x ∈ st.waiting
    · rw [if_pos h1] at h; cases h
    · rw [if_neg h1] at h
      by_cases h2 : st.n > 0
      · rw [if_pos h2] at h; simp at h
      · rw [if_neg h2] at h; cases h
  | wake x =>
    simp only [cstep] at h
    split at h <;> simp at h
  | timeout x =>
    simp only [cstep] at h ⊢
    by_cases h1 : x ∈ st.waiting
    · rw [if_pos h1] at h ⊢
      by_cases h2 : st.n > 0
      · rw [if_pos h2] at h; simp at h
      · rw [if_neg h2]; simp only; omega
    · rw [if_neg h1] at h; cases h

theorem crun_sets (k : Nat) : ∀ st : Counting, st.n < 2 ^ 32 →
    (crun st (List.replicate k .set)).1.n = (st.n + k) % 2 ^ 32 ∧
      (crun st (List.replicate k .set)).1.waiting = st.waiting := by
  induction k with
  | zero => intro st h; simp [crun]; omega
  | succ k ih =>
    intro st h
    rw [List.replicate_succ]
    have h5 : (crun st (CStep.set :: List.replicate k .set)).1 =
        (crun (cstep st .set).1 (List.replicate k .set)).1 := rfl
    rw [h5]
    have hlt : (cstep st .set).1.n < 2 ^ 32 := Nat.mod_lt _ (by decide)
    obtain ⟨h1, h2⟩ := ih _ hlt
    refine ⟨?_, by rw [h2]; rfl⟩
    rw [h1]
    have : (cstep st .set).1.n = (st.n + 1) % 2 ^ 32 := rfl
    rw [this]
    omega

/-- **C48, violation** (unnamed event): 2^32 sets without a wait leave the event unset. -/
theorem C48_violated_counter_wraps :
    (crun {} (List.replicate (2 ^ 32) .set)).1.n = 0 := by
  have := (crun_sets (2 ^ 32) {} (by decide)).1
  rw [this]
  decide

/-- **C48 (a new initialisation makes the event usable again).**  Whatever happened before, even the death of a process inside
the event, after the initialisation a set lets the next waiter through, and without a set it is not let through. -/
theorem C48_usable_after_init (st : Named) (w pick : Nat) (hw : st.waiting.find w = none) :
    (step (step (step st .init).1 (.set pick)).1 (.trywait w)).2 = some (w, true) ∧
      (step (step st .init).1 (.trywait w)).2 = some (w, false) := by
  have hm : ∀ ws : AMap Nat Bool, ws.find w = none → AMap.find (ws.map (fun p => (p.1, false))) w = none := by
    intro ws
    induction ws with
    | nil => intro _; rfl
    | cons p ws ih =>
      intro h
      simp only [AMap.find, List.map_cons] at h ⊢
      grind
  have h1 := hm _ hw
  have h2 : AMap.find (signal (st.waiting.map (fun p => (p.1, false))) pick) w = none := by
    unfold signal
    split
    · rename_i hp
      rw [AMap.find_set, h1]
      split
      · rename_i e; subst e; rw [h1] at hp; cases hp
      · rfl
    · split
      · rename_i p hp
        have hmem := List.mem_of_find?_eq_some hp
        rw [AMap.find_set, h1]
        split
        · rename_i e
          subst e
          exact absurd (List.mem_map_of_mem (f := Prod.fst) hmem) ((AMap.find_none_iff _ _).1 h1)
        · rfl
      · exact h1
  simp [step, h1, h2]

example : AMap.find ({ dead := true, waiting := [(1, true)] } : Named).waiting 2 = none := by decide

end Ecal.Sync.Event
