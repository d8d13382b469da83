import Verif.Service.Pool

/-! # Properties of nested service calls (C77) -/

namespace Ecal.Service.Pool

/-- A callback that waits for another call without a time limit. -/
def Call.stuck : Call → Bool
  | .blocked _ false => true
  | _ => false

/-- Steps a call still needs at most. -/
def Call.rank : Call → Nat
  | .pending => 3
  | .blocked _ _ => 3
  | .running => 2
  | .answered => 1
  | .finished => 0

def measure (cs : List Call) : Nat := (cs.map Call.rank).sum

theorem rank_le (c : Call) : c.rank ≤ 3 := by cases c <;> simp [Call.rank]

theorem measure_le (cs : List Call) : measure cs ≤ 3 * cs.length := by
  induction cs with
  | nil => simp [measure]
  | cons c r ih =>
    have := rank_le c
    simp only [measure, List.map_cons, List.sum_cons, List.length_cons] at ih ⊢
    omega

theorem measure_set (cs : List Call) (i : Nat) (x y : Call) (h : cs[i]? = some x) (hr : y.rank < x.rank) :
    measure (cs.set i y) < measure cs := by
  induction cs generalizing i with
  | nil => simp at h
  | cons c r ih =>
    cases i with
    | zero =>
      simp only [List.getElem?_cons_zero, Option.some.injEq] at h
      subst h
      simp only [measure, List.set_cons_zero, List.map_cons, List.sum_cons]
      omega
    | succ i =>
      simp only [List.getElem?_cons_succ] at h
      have := ih i h
      simp only [measure, List.set_cons_succ, List.map_cons, List.sum_cons] at this ⊢
      omega

theorem measure_map (cs : List Call) (j : Nat) : measure (cs.map (unblock j)) ≤ measure cs := by
  induction cs with
  | nil => simp [measure]
  | cons c r ih =>
    have : (unblock j c).rank ≤ c.rank := by
      cases c with
      | blocked k t => simp only [unblock]; split <;> simp [Call.rank]
      | _ => simp [unblock]
    simp only [measure, List.map_cons, List.sum_cons] at ih ⊢
    omega

theorem inner_measure (cs cs' : List Call) (a : Step) (ha : a.inner = true) (hs : step cs a = some cs') :
    measure cs' < measure cs := by
  cases a with
  | call => cases ha
  | nest i t => cases ha
  | serve i =>
    simp only [step] at hs
    split at hs
    · rename_i h; obtain rfl := Option.some.inj hs; exact measure_set cs i _ _ h.1 (by decide)
    · cases hs
  | ret i =>
    simp only [step] at hs
    split at hs
    · rename_i h; obtain rfl := Option.some.inj hs; exact measure_set cs i _ _ h (by decide)
    · cases hs
  | deliver i =>
    simp only [step] at hs
    split at hs
    · rename_i h
      obtain rfl := Option.some.inj hs
      exact Nat.lt_of_le_of_lt (measure_map _ i) (measure_set cs i _ _ h.1 (by decide))
    · cases hs
  | giveUp i =>
    simp only [step] at hs
    split at hs
    · rename_i c h; obtain rfl := Option.some.inj hs; exact measure_set cs i _ _ h (by simp [Call.rank])
    · cases hs

theorem getElem?_set_ne' (cs : List Call) (i k : Nat) (y x : Call) (h : (cs.set i y)[k]? = some x) :
    (k = i ∧ x = y) ∨ (k ≠ i ∧ cs[k]? = some x) := by
  by_cases e : k = i
  · subst e
    rw [List.getElem?_set] at h
    simp only [if_true] at h
    split at h
    · exact Or.inl ⟨rfl, (Option.some.inj h).symm⟩
    · cases h
  · rw [List.getElem?_set_ne (Ne.symm e)] at h
    exact Or.inr ⟨e, h⟩

theorem getElem?_set_some (cs : List Call) (i k : Nat) (y x : Call) (h : cs[k]? = some x) :
    ∃ z, (cs.set i y)[k]? = some z ∧ ((k = i ∧ z = y) ∨ (k ≠ i ∧ z = x)) := by
  by_cases e : k = i
  · subst e
    have hl : k < cs.length := (List.getElem?_eq_some_iff.1 h).1
    exact ⟨y, by simp [hl], Or.inl ⟨rfl, rfl⟩⟩
  · exact ⟨x, by rw [List.getElem?_set_ne (Ne.symm e)]; exact h, Or.inr ⟨e, rfl⟩⟩

/-- A callback that waits, waits for a later call that is not finished. -/
def Inv (cs : List Call) : Prop :=
  ∀ (i c : Nat) (t : Bool), cs[i]? = some (Call.blocked c t) → i < c ∧ ∃ x : Call, cs[c]? = some x ∧ x ≠ .finished

theorem inv_set (cs : List Call) (i : Nat) (y : Call) (h : Inv cs) (hy : y ≠ .finished)
    (hb : ∀ c t, y ≠ .blocked c t) : Inv (cs.set i y) := by
  intro k c t hk
  rcases getElem?_set_ne' cs i k y _ hk with ⟨_, e⟩ | ⟨_, e⟩
  · exact absurd e.symm (hb c t)
  · obtain ⟨h1, x, h2, h3⟩ := h k c t e
    refine ⟨h1, ?_⟩
    obtain ⟨z, z1, z2⟩ := getElem?_set_some cs i c y x h2
    refine ⟨z, z1, ?_⟩
    rcases z2 with ⟨_, e⟩ | ⟨_, e⟩
    · rw [e]; exact hy
    · rw [e]; exact h3

theorem unblock_finished (j : Nat) (x : Call) (h : x ≠ .finished) : unblock j x ≠ .finished := by
  cases x with
  | blocked k t => simp only [unblock]; split <;> simp
  | finished => exact absurd rfl h
  | _ => simp [unblock]

theorem unblock_blocked (j c : Nat) (t : Bool) (x : Call) (h : unblock j x = .blocked c t) :
    x = .blocked c t ∧ c ≠ j := by
  cases x with
  | blocked k t' =>
    simp only [unblock] at h
    split at h
    · cases h
    · rename_i hk
      cases h
      exact ⟨rfl, hk⟩
  | _ => simp [unblock] at h

theorem inv_step (cs cs' : List Call) (a : Step) (h : Inv cs) (hs : step cs a = some cs') : Inv cs' := by
  cases a with
  | call =>
    obtain rfl := Option.some.inj hs
    intro k c t hk
    rw [List.getElem?_append] at hk
    split at hk
    · obtain ⟨h1, x, h2, h3⟩ := h k c t hk
      exact ⟨h1, x, by rw [List.getElem?_append_left ((List.getElem?_eq_some_iff.1 h2).1)]; exact h2, h3⟩
    · rename_i hlt
      cases hm : k - cs.length with
      | zero => rw [hm] at hk; cases hk
      | succ n => rw [hm] at hk; cases hk
  | serve i =>
    simp only [step] at hs
    split at hs
    · obtain rfl := Option.some.inj hs; exact inv_set cs i _ h (by simp) (by simp)
    · cases hs
  | ret i =>
    simp only [step] at hs
    split at hs
    · obtain rfl := Option.some.inj hs; exact inv_set cs i _ h (by simp) (by simp)
    · cases hs
  | giveUp i =>
    simp only [step] at hs
    split at hs
    · obtain rfl := Option.some.inj hs; exact inv_set cs i _ h (by simp) (by simp)
    · cases hs
  | deliver i =>
    simp only [step] at hs
    split at hs
    · obtain rfl := Option.some.inj hs
      intro k c t hk
      rw [List.getElem?_map, Option.map_eq_some_iff] at hk
      obtain ⟨x, hx, hu⟩ := hk
      obtain ⟨rfl, hci⟩ := unblock_blocked i c t x hu
      rcases getElem?_set_ne' cs i k _ _ hx with ⟨_, e⟩ | ⟨_, e⟩
      · cases e
      · obtain ⟨h1, y, h2, h3⟩ := h k c t e
        refine ⟨h1, unblock i y, ?_, unblock_finished i y h3⟩
        rw [List.getElem?_map, List.getElem?_set_ne (Ne.symm hci), h2]
        rfl
    · cases hs
  | nest i t =>
    simp only [step] at hs
    split at hs
    · rename_i hr
      obtain rfl := Option.some.inj hs
      have hil : i < cs.length := (List.getElem?_eq_some_iff.1 hr).1
      intro k c t' hk
      by_cases hkl : k < cs.length
      · rw [List.getElem?_append_left (by simpa using hkl)] at hk
        rcases getElem?_set_ne' cs i k _ _ hk with ⟨e1, e⟩ | ⟨_, e⟩
        · cases e
          refine ⟨by omega, .pending, ?_, by simp⟩
          rw [List.getElem?_append_right (by simp)]
          simp
        · obtain ⟨h1, y, h2, h3⟩ := h k c t' e
          refine ⟨h1, ?_⟩
          have hcl : c < cs.length := (List.getElem?_eq_some_iff.1 h2).1
          obtain ⟨z, z1, z2⟩ := getElem?_set_some cs i c (.blocked cs.length t) y h2
          refine ⟨z, by rw [List.getElem?_append_left (by simpa using hcl)]; exact z1, ?_⟩
          rcases z2 with ⟨_, e⟩ | ⟨_, e⟩
          · rw [e]; simp
          · rw [e]; exact h3
      · rw [List.getElem?_append_right (by simpa using hkl)] at hk
        simp only [List.length_set] at hk
        cases hm : k - cs.length with
        | zero => rw [hm] at hk; cases hk
        | succ n => rw [hm] at hk; cases hk
    · cases hs

theorem inv_run (as : List Step) (cs cs' : List Call) (h : Inv cs) (hr : run cs as = some cs') : Inv cs' := by
  induction as generalizing cs with
  | nil => simp only [run, Option.some.injEq] at hr; exact hr ▸ h
  | cons a r ih =>
    simp only [run, Option.bind_eq_some_iff] at hr
    obtain ⟨c1, h1, h2⟩ := hr
    exact ih c1 (inv_step cs c1 a h h1) h2

/-- With no callback running or waiting with a limit, the occupied threads are those of stuck callbacks. -/
theorem used_stuck (cs : List Call) (h1 : ∀ c ∈ cs, c ≠ .running) (h2 : ∀ c ∈ cs, ∀ k, c ≠ .blocked k true) :
    used cs = cs.countP Call.stuck := by
  unfold used
  refine List.countP_congr ?_
  intro c hc
  cases c with
  | running => exact absurd rfl (h1 _ hc)
  | blocked k t =>
    cases t with
    | true => exact absurd rfl (h2 _ hc k)
    | false => simp [Call.busy, Call.stuck]
  | _ => simp [Call.busy, Call.stuck]

theorem progress (cs : List Call) (hi : Inv cs) (hf : cs.countP Call.stuck < threads) (hn : ∃ c ∈ cs, c ≠ .finished) :
    ∃ a cs', a.inner = true ∧ step cs a = some cs' := by
  by_cases h1 : ∃ i : Nat, cs[i]? = some Call.running
  · obtain ⟨i, h⟩ := h1
    exact ⟨.ret i, _, rfl, by simp only [step, h, if_true]; rfl⟩
  by_cases h2 : ∃ (i k : Nat), cs[i]? = some (Call.blocked k true)
  · obtain ⟨i, k, h⟩ := h2
    exact ⟨.giveUp i, _, rfl, by simp only [step, h]; rfl⟩
  have hu : used cs < threads := by
    rw [used_stuck cs]
    · exact hf
    · intro c hc e
      obtain ⟨i, hl, e'⟩ := List.getElem_of_mem hc
      exact h1 ⟨i, by rw [List.getElem?_eq_getElem hl, e', e]⟩
    · intro c hc k e
      obtain ⟨i, hl, e'⟩ := List.getElem_of_mem hc
      exact h2 ⟨i, k, by rw [List.getElem?_eq_getElem hl, e', e]⟩
  by_cases h3 : ∃ i : Nat, cs[i]? = some Call.pending
  · obtain ⟨i, h⟩ := h3
    exact ⟨.serve i, _, rfl, by simp only [step, h, hu, and_self, if_true]; rfl⟩
  by_cases h4 : ∃ i : Nat, cs[i]? = some Call.answered
  · obtain ⟨i, h⟩ := h4
    exact ⟨.deliver i, _, rfl, by simp only [step, h, hu, and_self, if_true]; rfl⟩
  exfalso
  have key : ∀ (d i : Nat) (c : Call), cs.length - i = d → cs[i]? = some c → c = .finished := by
    intro d
    induction d using Nat.strongRecOn with
    | ind d ih =>
      intro i c hd hc
      cases c with
      | pending => exact absurd ⟨i, hc⟩ h3
      | running => exact absurd ⟨i, hc⟩ h1
      | answered => exact absurd ⟨i, hc⟩ h4
      | finished => rfl
      | blocked k t =>
        obtain ⟨e1, x, e2, e3⟩ := hi i k t hc
        have hl : i < cs.length := (List.getElem?_eq_some_iff.1 hc).1
        have hk : k < cs.length := (List.getElem?_eq_some_iff.1 e2).1
        exact absurd (ih (cs.length - k) (by omega) k x rfl e2) e3
  obtain ⟨c, hc, hne⟩ := hn
  obtain ⟨i, hl, e'⟩ := List.getElem_of_mem hc
  exact hne (key _ i c rfl (by rw [List.getElem?_eq_getElem hl, e']))

theorem stuck_set (cs : List Call) (i : Nat) (y : Call) (hy : y.stuck = false) :
    (cs.set i y).countP Call.stuck ≤ cs.countP Call.stuck := by
  induction cs generalizing i with
  | nil => simp
  | cons c r ih =>
    cases i with
    | zero => simp only [List.set_cons_zero, List.countP_cons, hy, Bool.false_eq_true, if_false]; omega
    | succ i =>
      have := ih i
      simp only [List.set_cons_succ, List.countP_cons]
      omega

theorem stuck_map (cs : List Call) (j : Nat) : (cs.map (unblock j)).countP Call.stuck ≤ cs.countP Call.stuck := by
  induction cs with
  | nil => simp
  | cons c r ih =>
    have : (if (unblock j c).stuck = true then 1 else 0) ≤ (if c.stuck = true then 1 else 0) := by
      cases c with
      | blocked k t => simp only [unblock]; split <;> cases t <;> simp [Call.stuck]
      | _ => simp only [unblock]; exact Nat.le_refl _
    simp only [List.map_cons, List.countP_cons]
    omega

theorem inner_stuck (cs cs' : List Call) (a : Step) (ha : a.inner = true) (hs : step cs a = some cs') :
    cs'.countP Call.stuck ≤ cs.countP Call.stuck := by
  cases a with
  | call => cases ha
  | nest i t => cases ha
  | serve i =>
    simp only [step] at hs
    split at hs
    · obtain rfl := Option.some.inj hs; exact stuck_set cs i _ rfl
    · cases hs
  | ret i =>
    simp only [step] at hs
    split at hs
    · obtain rfl := Option.some.inj hs; exact stuck_set cs i _ rfl
    · cases hs
  | giveUp i =>
    simp only [step] at hs
    split at hs
    · obtain rfl := Option.some.inj hs; exact stuck_set cs i _ rfl
    · cases hs
  | deliver i =>
    simp only [step] at hs
    split at hs
    · obtain rfl := Option.some.inj hs
      exact Nat.le_trans (stuck_map _ i) (stuck_set cs i _ rfl)
    · cases hs

theorem inner_run (bs : List Step) (cs cs' : List Call) (hb : ∀ b ∈ bs, b.inner = true) (hr : run cs bs = some cs') :
    bs.length + measure cs' ≤ measure cs ∧ cs'.countP Call.stuck ≤ cs.countP Call.stuck := by
  induction bs generalizing cs with
  | nil =>
    simp only [run, Option.some.injEq] at hr
    subst hr
    simp
  | cons a r ih =>
    simp only [run, Option.bind_eq_some_iff] at hr
    obtain ⟨c1, h1, h2⟩ := hr
    have ha := hb a List.mem_cons_self
    obtain ⟨e1, e2⟩ := ih c1 (fun b hm => hb b (List.mem_cons_of_mem _ hm)) h2
    have m1 := inner_measure cs c1 a ha h1
    have m2 := inner_stuck cs c1 a ha h1
    simp only [List.length_cons]
    exact ⟨by omega, by omega⟩

/-- C77 (partial: fewer than four callbacks wait for other calls without a time limit): when no new calls are made,
the process comes to rest after at most three steps per call, in whatever order its threads work, and at rest
every call has been answered and every caller has its response. -/
theorem C77_answered_partial (as bs : List Step) (cs cs' : List Call) (h : run [] as = some cs)
    (hf : cs.countP Call.stuck < 4) (hb : ∀ b ∈ bs, b.inner = true) (hr : run cs bs = some cs') :
    bs.length ≤ 3 * cs.length ∧
    ((∀ a, a.inner = true → step cs' a = none) → ∀ c ∈ cs', c = .finished) := by
  obtain ⟨h1, h2⟩ := inner_run bs cs cs' hb hr
  refine ⟨Nat.le_trans (by omega) (measure_le cs), ?_⟩
  intro hrest c hc
  have hi : Inv cs' := inv_run bs cs cs' (inv_run as [] cs (fun i c t h => by simp at h) h) hr
  by_cases e : c = .finished
  · exact e
  · obtain ⟨a, cs2, e1, e2⟩ := progress cs' hi (by unfold threads; omega) ⟨c, hc, e⟩
    rw [hrest a e1] at e2
    cases e2

/-- C77: when every nested call has a time limit all calls are answered, however many there are. -/
theorem C77_with_limits (as bs : List Step) (cs cs' : List Call) (h : run [] as = some cs)
    (hl : ∀ i, .nest i false ∉ as) (hb : ∀ b ∈ bs, b.inner = true) (hr : run cs bs = some cs') :
    bs.length ≤ 3 * cs.length ∧
    ((∀ a, a.inner = true → step cs' a = none) → ∀ c ∈ cs', c = .finished) := by
  have key : ∀ (as : List Step) (cs cs' : List Call), (∀ i, .nest i false ∉ as) → cs.countP Call.stuck = 0 →
      run cs as = some cs' → cs'.countP Call.stuck = 0 := by
    intro as
    induction as with
    | nil =>
      intro cs cs' _ h0 hr
      simp only [run, Option.some.injEq] at hr
      exact hr ▸ h0
    | cons a r ih =>
      intro cs cs' hl h0 hr
      simp only [run, Option.bind_eq_some_iff] at hr
      obtain ⟨c1, h1, h2⟩ := hr
      refine ih c1 cs' (fun i e => hl i (List.mem_cons_of_mem _ e)) ?_ h2
      by_cases ha : a.inner = true
      · have := inner_stuck cs c1 a ha h1; omega
      · cases a with
        | call =>
          obtain rfl := Option.some.inj h1
          simp [List.countP_append, h0, Call.stuck]
        | nest i t =>
          cases t with
          | false => exact absurd List.mem_cons_self (hl i)
          | true =>
            simp only [step] at h1
            split at h1
            · obtain rfl := Option.some.inj h1
              have := stuck_set cs i (.blocked cs.length true) rfl
              simp only [List.countP_append, List.countP_singleton, Call.stuck]
              simp
              intro a ha
              have h0' : (cs.set i (.blocked cs.length true)).countP Call.stuck = 0 := by omega
              rw [List.countP_eq_zero] at h0'
              simpa using h0' a ha
            · cases h1
        | _ => simp [Step.inner] at ha
  have h0 := key as [] cs hl rfl h
  exact C77_answered_partial as bs cs cs' h (by omega) hb hr

/-- Three clients whose requests make a further call are served. -/
example : ∃ cs, run [] [.call, .call, .call, .serve 0, .serve 1, .serve 2, .nest 0 false, .nest 1 false, .nest 2 false]
    = some cs ∧ cs.countP Call.stuck = 3 ∧ cs.length = 6 := ⟨_, rfl, rfl, rfl⟩

example : ∃ cs, run [] [.call, .call, .call, .call, .serve 0, .serve 1, .serve 2, .serve 3,
    .nest 0 true, .nest 1 true, .nest 2 true, .nest 3 true] = some cs ∧ used cs = 4 ∧ cs.countP Call.stuck = 0 :=
  ⟨_, rfl, rfl, rfl⟩

/-- All threads wait. -/
def Dead (cs : List Call) : Prop :=
  4 ≤ cs.countP Call.stuck ∧ ∀ c ∈ cs, c = .pending ∨ c = .finished ∨ c.stuck = true

theorem dead_used (cs : List Call) (h : Dead cs) : ¬ used cs < threads := by
  have : cs.countP Call.stuck ≤ used cs := by
    refine List.countP_mono_left ?_
    intro c _ hc
    cases c with
    | blocked k t => rfl
    | _ => cases hc
  have := h.1
  unfold threads
  omega

theorem dead_step (cs cs' : List Call) (a : Step) (h : Dead cs) (hs : step cs a = some cs') :
    a = .call ∧ cs' = cs ++ [.pending] := by
  have hu := dead_used cs h
  have hm : ∀ (i : Nat) (c : Call), cs[i]? = some c → c = .pending ∨ c = .finished ∨ c.stuck = true :=
    fun i c hc => h.2 c (List.mem_of_getElem? hc)
  cases a with
  | call => exact ⟨rfl, (Option.some.inj hs).symm⟩
  | serve i => simp [step, hu] at hs
  | deliver i => simp [step, hu] at hs
  | ret i =>
    simp only [step] at hs
    split at hs
    · rename_i hr; rcases hm i _ hr with e | e | e <;> cases e
    · cases hs
  | nest i t =>
    simp only [step] at hs
    split at hs
    · rename_i hr; rcases hm i _ hr with e | e | e <;> cases e
    · cases hs
  | giveUp i =>
    simp only [step] at hs
    split at hs
    · rename_i k hr; rcases hm i _ hr with e | e | e <;> cases e
    · cases hs

theorem dead_run (bs : List Step) (cs cs' : List Call) (h : Dead cs) (hr : run cs bs = some cs') :
    ∃ n, cs' = cs ++ List.replicate n .pending := by
  induction bs generalizing cs with
  | nil => simp only [run, Option.some.injEq] at hr; exact ⟨0, by simp [hr]⟩
  | cons a r ih =>
    simp only [run, Option.bind_eq_some_iff] at hr
    obtain ⟨c1, h1, h2⟩ := hr
    obtain ⟨rfl, rfl⟩ := dead_step cs c1 a h h1
    have hd : Dead (cs ++ [.pending]) := by
      refine ⟨by rw [List.countP_append]; have := h.1; omega, ?_⟩
      intro c hc
      rcases List.mem_append.1 hc with e | e
      · exact h.2 c e
      · exact Or.inl (List.mem_singleton.1 e)
    obtain ⟨n, hn⟩ := ih _ hd h2
    exact ⟨n + 1, by rw [hn, List.append_assoc]; rfl⟩

/-- C77 is violated: when four callbacks make a blocking call at the same time all io threads of the process
wait for each other; none of these calls, and no call made later, is ever answered. -/
theorem C77_violated_parallel :
    ∃ cs, run [] [.call, .call, .call, .call, .serve 0, .serve 1, .serve 2, .serve 3,
        .nest 0 false, .nest 1 false, .nest 2 false, .nest 3 false] = some cs ∧
      ∀ bs cs', run cs bs = some cs' → ∃ n, cs' = cs ++ List.replicate n .pending :=
  ⟨_, rfl, fun bs cs' h => dead_run bs _ cs' ⟨by decide, by decide⟩ h⟩

/-- C77 is violated: so does a single call whose callbacks call each other four levels deep. -/
theorem C77_violated_depth :
    ∃ cs, run [] [.call, .serve 0, .nest 0 false, .serve 1, .nest 1 false, .serve 2, .nest 2 false, .serve 3,
        .nest 3 false] = some cs ∧
      ∀ bs cs', run cs bs = some cs' → ∃ n, cs' = cs ++ List.replicate n .pending :=
  ⟨_, rfl, fun bs cs' h => dead_run bs _ cs' ⟨by decide, by decide⟩ h⟩

end Ecal.Service.Pool
