import Verif.Capi.Lock

/-! # Properties of callbacks of the C interface (C79) -/

namespace Ecal.Capi.Lock

theorem count_set (p : Call → Bool) (cs : List Call) (i : Nat) (x y : Call) (h : cs[i]? = some x) :
    (cs.set i y).countP p + (if p x then 1 else 0) = cs.countP p + (if p y then 1 else 0) := by
  induction cs generalizing i with
  | nil => simp at h
  | cons c r ih =>
    cases i with
    | zero =>
      simp only [List.getElem?_cons_zero, Option.some.injEq] at h
      subst h
      simp only [List.set_cons_zero, List.countP_cons]
      omega
    | succ i =>
      simp only [List.getElem?_cons_succ] at h
      have := ih i h
      simp only [List.set_cons_succ, List.countP_cons]
      omega

theorem count_map (cs : List Call) (j : Nat) :
    (cs.map (unblock j)).countP Call.holds = cs.countP Call.holds ∧
    (cs.map (unblock j)).countP Call.busy = cs.countP Call.busy := by
  have : ∀ c, (unblock j c).holds = c.holds ∧ (unblock j c).busy = c.busy := by
    intro c
    cases c with
    | blocked k => simp only [unblock]; split <;> exact ⟨rfl, rfl⟩
    | _ => exact ⟨rfl, rfl⟩
  induction cs with
  | nil => exact ⟨rfl, rfl⟩
  | cons c r ih =>
    simp only [List.map_cons, List.countP_cons, (this c).1, (this c).2, ih.1, ih.2, and_self]

theorem holds_step (cs cs' : List Call) (a : Step) (h : cs.countP Call.holds ≤ 1) (hs : step cs a = some cs') :
    cs'.countP Call.holds ≤ 1 := by
  cases a with
  | call => obtain rfl := Option.some.inj hs; simpa [List.countP_append, Call.holds] using h
  | serve i =>
    simp only [step] at hs
    split at hs
    · rename_i hc
      obtain rfl := Option.some.inj hs
      have := count_set Call.holds cs i _ .atLock hc.1
      simp only [Call.holds] at this
      simp at this
      omega
    · cases hs
  | enter i =>
    simp only [step] at hs
    split at hs
    · rename_i hc
      obtain rfl := Option.some.inj hs
      have := count_set Call.holds cs i _ .running hc.1
      simp [Call.holds] at this
      omega
    · cases hs
  | nest i =>
    simp only [step] at hs
    split at hs
    · rename_i hc
      obtain rfl := Option.some.inj hs
      have := count_set Call.holds cs i _ (.blocked cs.length) hc
      simp [Call.holds] at this
      simp [List.countP_append, Call.holds]
      omega
    · cases hs
  | ret i =>
    simp only [step] at hs
    split at hs
    · rename_i hc
      obtain rfl := Option.some.inj hs
      have := count_set Call.holds cs i _ .answered hc
      simp [Call.holds] at this
      omega
    · cases hs
  | deliver i =>
    simp only [step] at hs
    split at hs
    · rename_i hc
      obtain rfl := Option.some.inj hs
      have := count_set Call.holds cs i _ .finished hc.1
      simp [Call.holds] at this
      rw [(count_map _ i).1]
      omega
    · cases hs

/-- C79: no two method callbacks of the C interface are ever under way at the same time. -/
theorem C79_exclusive (as : List Step) (cs : List Call) (h : run [] as = some cs) : cs.countP Call.holds ≤ 1 := by
  have key : ∀ (as : List Step) (cs cs' : List Call), cs.countP Call.holds ≤ 1 → run cs as = some cs' →
      cs'.countP Call.holds ≤ 1 := by
    intro as
    induction as with
    | nil =>
      intro cs cs' h0 hr
      simp only [run, Option.some.injEq] at hr
      exact hr ▸ h0
    | cons a r ih =>
      intro cs cs' h0 hr
      simp only [run, Option.bind_eq_some_iff] at hr
      obtain ⟨c1, h1, h2⟩ := hr
      exact ih c1 cs' (holds_step cs c1 a h0 h1) h2
  exact key as [] cs (by simp) h

/-- Without nested calls no callback waits. -/
theorem no_blocked (as : List Step) (cs cs' : List Call) (hn : ∀ i, .nest i ∉ as) (h : ∀ c ∈ cs, ∀ k, c ≠ .blocked k)
    (hr : run cs as = some cs') : ∀ c ∈ cs', ∀ k, c ≠ .blocked k := by
  induction as generalizing cs with
  | nil => simp only [run, Option.some.injEq] at hr; exact hr ▸ h
  | cons a r ih =>
    simp only [run, Option.bind_eq_some_iff] at hr
    obtain ⟨c1, h1, h2⟩ := hr
    refine ih c1 (fun i e => hn i (List.mem_cons_of_mem _ e)) ?_ h2
    have hset : ∀ (i : Nat) (y : Call), (∀ k, y ≠ .blocked k) → ∀ c ∈ cs.set i y, ∀ k, c ≠ .blocked k := by
      intro i y hy c hc
      rcases List.mem_or_eq_of_mem_set hc with e | e
      · exact h c e
      · rw [e]; exact hy
    cases a with
    | call =>
      obtain rfl := Option.some.inj h1
      intro c hc
      rcases List.mem_append.1 hc with e | e
      · exact h c e
      · rw [List.mem_singleton.1 e]; simp
    | serve i =>
      simp only [step] at h1
      split at h1
      · obtain rfl := Option.some.inj h1; exact hset i _ (by simp)
      · cases h1
    | enter i =>
      simp only [step] at h1
      split at h1
      · obtain rfl := Option.some.inj h1; exact hset i _ (by simp)
      · cases h1
    | nest i => exact absurd List.mem_cons_self (hn i)
    | ret i =>
      simp only [step] at h1
      split at h1
      · obtain rfl := Option.some.inj h1; exact hset i _ (by simp)
      · cases h1
    | deliver i =>
      simp only [step] at h1
      split at h1
      · obtain rfl := Option.some.inj h1
        intro c hc k
        obtain ⟨x, hx, rfl⟩ := List.mem_map.1 hc
        have := hset i .finished (by simp) x hx
        cases x with
        | blocked j => exact absurd rfl (this j)
        | _ => simp [unblock]
      · cases h1

/-- C79 (partial: callbacks make no service calls themselves): as long as a call is not finished the process can go on:
a response is processed, a callback returns or begins, or a request is taken. -/
theorem C79_served_partial (as : List Step) (cs : List Call) (hn : ∀ i, .nest i ∉ as) (h : run [] as = some cs)
    (hf : ∃ c ∈ cs, c ≠ .finished) :
    ∃ a cs', (∃ i, a = .serve i ∨ a = .enter i ∨ a = .ret i ∨ a = .deliver i) ∧ step cs a = some cs' := by
  have hnb := no_blocked as [] cs hn (by simp) h
  have idx : ∀ c ∈ cs, ∃ i : Nat, cs[i]? = some c := by
    intro c hc
    obtain ⟨i, hl, e⟩ := List.getElem_of_mem hc
    exact ⟨i, by rw [List.getElem?_eq_getElem hl, e]⟩
  by_cases h1 : Call.running ∈ cs
  · obtain ⟨i, hi⟩ := idx _ h1
    exact ⟨.ret i, _, ⟨i, by simp⟩, by simp only [step, hi, if_true]; rfl⟩
  have hh : cs.countP Call.holds = 0 := by
    rw [List.countP_eq_zero]
    intro c hc
    cases c with
    | running => exact absurd hc h1
    | blocked k => exact absurd rfl (hnb _ hc k)
    | _ => simp [Call.holds]
  by_cases h2 : Call.atLock ∈ cs
  · obtain ⟨i, hi⟩ := idx _ h2
    exact ⟨.enter i, _, ⟨i, by simp⟩, by simp only [step, hi, hh, and_self, if_true]; rfl⟩
  have hb : cs.countP Call.busy < threads := by
    have : cs.countP Call.busy = 0 := by
      rw [List.countP_eq_zero]
      intro c hc
      cases c with
      | running => exact absurd hc h1
      | atLock => exact absurd hc h2
      | blocked k => exact absurd rfl (hnb _ hc k)
      | _ => simp [Call.busy]
    unfold threads
    omega
  obtain ⟨c, hc, hne⟩ := hf
  obtain ⟨i, hi⟩ := idx _ hc
  cases c with
  | running => exact absurd hc h1
  | atLock => exact absurd hc h2
  | blocked k => exact absurd rfl (hnb _ hc k)
  | finished => exact absurd rfl hne
  | pending => exact ⟨.serve i, _, ⟨i, by simp⟩, by simp only [step, hi, hb, and_self, if_true]; rfl⟩
  | answered => exact ⟨.deliver i, _, ⟨i, by simp⟩, by simp only [step, hi, hb, and_self, if_true]; rfl⟩

example : ∃ cs, run [] [.call, .call, .serve 0, .serve 1, .enter 1] = some cs ∧ cs = [.atLock, .running] := ⟨_, rfl, rfl⟩

/-- The call waits for its callback's own call, which cannot begin. -/
def Dead (cs : List Call) : Prop :=
  cs[0]? = some (.blocked 1) ∧ ∀ i c, cs[i + 1]? = some c → c = Call.pending ∨ c = Call.atLock

theorem dead_step (cs cs' : List Call) (a : Step) (h : Dead cs) (hs : step cs a = some cs') : Dead cs' := by
  obtain ⟨h0, h1⟩ := h
  have hm : ∀ (i : Nat) (c : Call), cs[i]? = some c → (i = 0 ∧ c = .blocked 1) ∨ c = .pending ∨ c = .atLock := by
    intro i c hc
    cases i with
    | zero => rw [h0] at hc; exact Or.inl ⟨rfl, (Option.some.inj hc).symm⟩
    | succ i => exact Or.inr (h1 i c hc)
  have hh : cs.countP Call.holds ≠ 0 := by
    intro e
    rw [List.countP_eq_zero] at e
    exact absurd rfl (e _ (List.mem_of_getElem? h0))
  cases a with
  | call =>
    obtain rfl := Option.some.inj hs
    have hl : 0 < cs.length := (List.getElem?_eq_some_iff.1 h0).1
    refine ⟨by rw [List.getElem?_append_left hl]; exact h0, ?_⟩
    intro i c hc
    rw [List.getElem?_append] at hc
    split at hc
    · exact h1 i c hc
    · cases hk : i + 1 - cs.length with
      | zero =>
        rw [hk] at hc
        exact Or.inl (Option.some.inj hc).symm
      | succ n => rw [hk] at hc; cases hc
  | serve i =>
    simp only [step] at hs
    split at hs
    · rename_i hc
      obtain rfl := Option.some.inj hs
      have hi : i ≠ 0 := by intro e; subst e; rw [h0] at hc; cases hc.1
      refine ⟨by rw [List.getElem?_set_ne hi]; exact h0, ?_⟩
      intro k c hk
      by_cases e : i = k + 1
      · subst e
        rw [List.getElem?_set] at hk
        simp only [if_true] at hk
        split at hk
        · exact Or.inr (Option.some.inj hk).symm
        · cases hk
      · rw [List.getElem?_set_ne e] at hk
        exact h1 k c hk
    · cases hs
  | enter i => simp [step, hh] at hs
  | nest i =>
    simp only [step] at hs
    split at hs
    · rename_i hc; rcases hm i _ hc with ⟨_, e⟩ | e | e <;> cases e
    · cases hs
  | ret i =>
    simp only [step] at hs
    split at hs
    · rename_i hc; rcases hm i _ hc with ⟨_, e⟩ | e | e <;> cases e
    · cases hs
  | deliver i =>
    simp only [step] at hs
    split at hs
    · rename_i hc; rcases hm i _ hc.1 with ⟨_, e⟩ | e | e <;> cases e
    · cases hs

/-- C79 is violated: a C method callback that calls a C service of the same process without a time limit waits for a
callback that waits for the lock it holds: neither this call nor any other C service of the process is ever
answered again. -/
theorem C79_violated_nested :
    ∃ cs, run [] [.call, .serve 0, .enter 0, .nest 0] = some cs ∧
      ∀ bs cs', run cs bs = some cs' → ∀ i : Nat, cs'[i]? ≠ some Call.answered ∧ cs'[i]? ≠ some Call.finished := by
  refine ⟨_, rfl, ?_⟩
  have key : ∀ (bs : List Step) (cs cs' : List Call), Dead cs → run cs bs = some cs' → Dead cs' := by
    intro bs
    induction bs with
    | nil =>
      intro cs cs' h0 hr
      simp only [run, Option.some.injEq] at hr
      exact hr ▸ h0
    | cons a r ih =>
      intro cs cs' h0 hr
      simp only [run, Option.bind_eq_some_iff] at hr
      obtain ⟨c1, h1, h2⟩ := hr
      exact ih c1 cs' (dead_step cs c1 a h0 h1) h2
  intro bs cs' hr i
  have hd : Dead [.blocked 1, .pending] := by
    refine ⟨rfl, ?_⟩
    intro i c hc
    cases i with
    | zero => exact Or.inl (Option.some.inj hc).symm
    | succ i => cases hc
  obtain ⟨k0, k1⟩ := key bs _ cs' hd hr
  cases i with
  | zero => rw [k0]; simp
  | succ i =>
    cases hc : cs'[i + 1]? with
    | none => simp
    | some c => rcases k1 i c hc with e | e <;> simp [e]

/-- **C79** The callbacks of C services, running or waiting for the lock, never occupy more than the four io
threads. -/
theorem C79_at_most_four_threads (as : List Step) (cs : List Call) (h : run [] as = some cs) :
    (cs.filter (fun c => match c with
      | .atLock => true | .running => true | .blocked _ => true
      | .pending => false | .answered => false | .finished => false)).length ≤ 4 := by
  have hb : (fun c : Call => match c with
      | .atLock => true | .running => true | .blocked _ => true
      | .pending => false | .answered => false | .finished => false) = Call.busy := by
    funext c; cases c <;> rfl
  rw [hb, ← List.countP_eq_length_filter]
  have key : ∀ (as : List Step) (cs cs' : List Call), cs.countP Call.busy ≤ 4 → run cs as = some cs' →
      cs'.countP Call.busy ≤ 4 := by
    intro as
    induction as with
    | nil => intro cs cs' hc hr; simp only [run, Option.some.injEq] at hr; exact hr ▸ hc
    | cons a r ih =>
      intro cs cs' hc hr
      simp only [run, Option.bind_eq_some_iff] at hr
      obtain ⟨c1, h1, h2⟩ := hr
      refine ih c1 cs' ?_ h2
      cases a with
      | call => obtain rfl := Option.some.inj h1; simpa [List.countP_append, Call.busy] using hc
      | serve i =>
        simp only [step] at h1
        split at h1
        · next hh =>
          obtain rfl := Option.some.inj h1
          have := count_set Call.busy cs i .pending .atLock hh.1
          have h4 := hh.2
          simp [Call.busy, threads] at this h4
          omega
        · cases h1
      | enter i =>
        simp only [step] at h1
        split at h1
        · next hh =>
          obtain rfl := Option.some.inj h1
          have := count_set Call.busy cs i .atLock .running hh.1
          simp [Call.busy] at this
          omega
        · cases h1
      | nest i =>
        simp only [step] at h1
        split at h1
        · next hh =>
          obtain rfl := Option.some.inj h1
          have := count_set Call.busy cs i .running (.blocked cs.length) hh
          simp [Call.busy] at this
          simp only [List.countP_append, List.countP_singleton, Call.busy, Bool.false_eq_true, if_false]
          omega
        · cases h1
      | ret i =>
        simp only [step] at h1
        split at h1
        · next hh =>
          obtain rfl := Option.some.inj h1
          have := count_set Call.busy cs i .running .answered hh
          simp [Call.busy] at this
          omega
        · cases h1
      | deliver i =>
        simp only [step] at h1
        split at h1
        · next hh =>
          obtain rfl := Option.some.inj h1
          have := count_set Call.busy cs i .answered .finished hh.1
          simp [Call.busy] at this
          rw [(count_map _ i).2]
          omega
        · cases h1
  exact key as [] cs (by simp) h

example : ∃ cs, run [] [.call, .call, .call, .call, .serve 0, .serve 1, .serve 2, .serve 3, .enter 2] = some cs ∧
    cs = [.atLock, .atLock, .running, .atLock] := ⟨_, rfl, rfl⟩

end Ecal.Capi.Lock
