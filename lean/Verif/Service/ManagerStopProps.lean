import Verif.Service.ManagerStop

/-! # C85: stopping the service threads -/

namespace Ecal.Service.MgrStop

/-! ## Vocabulary of the statements -/

def Reachable (s : State) : Prop := ∃ ls, run init ls = .ok s

/-- The call of `stop` by thread `t` can return. -/
def CanReturn (s : State) (t : Tid) : Prop := ∃ ls s', run s ls = .ok s' ∧ s'.pc t = .call

/-- A service thread waits for the mutex of the manager, in a callback. -/
def Waits (s : State) (n : Nat) : Prop := n ∈ s.live ∧ (s.pc (.io n) = .checked ∨ s.pc (.io n) = .stopWait)

/-! ## Invariant -/

structure Inv (s : State) : Prop where
  own : ∀ t, s.owner = some t ↔ (s.pc t = .holding ∨ s.pc t = .joining)
  join : ∀ t, s.pc t = .joining → s.stopped = true
  quiet : s.stopped = true → s.live = [] ∨ ∃ t, s.pc t = .joining
  io : ∀ n, s.pc (.io n) ≠ .idle → n ∈ s.live
  num : ∀ n ∈ s.live, n < s.next

theorem inv_init : Inv init := by
  constructor <;> simp [init]

theorem upd_apply (f : Tid → Pc) (t u : Tid) (p : Pc) : upd f t p u = if u = t then p else f u := rfl

theorem exists_io (s : State) (n : Nat) : exists' s (.io n) = true ↔ n ∈ s.live := by simp [exists']

theorem create_pc (s : State) : (create s).pc = s.pc := by unfold create; split <;> rfl

theorem inv_create (s : State) (h : Inv s) : Inv (create s) := by
  unfold create
  by_cases hc : s.stopped = false ∧ s.live = []
  · rw [if_pos hc]
    refine ⟨h.own, h.join, ?_, ?_, ?_⟩
    · intro hs; simp only at hs; rw [hc.1] at hs; cases hs
    · intro n hn
      have := h.io n hn
      rw [hc.2] at this; cases this
    · intro n hn
      simp only [List.mem_map, List.mem_range] at hn
      obtain ⟨a, ha, rfl⟩ := hn
      simp only; omega
  · rw [if_neg hc]; exact h

theorem inv_step (s s' : State) (l : Label) (h : Inv s) (hs : step s l = .ok s') : Inv s' := by
  have hown := h.own
  have hjoin := h.join
  have hquiet := h.quiet
  have hio := h.io
  have hnum := h.num
  cases l with
  | enter t =>
    simp only [step] at hs
    split at hs
    · rename_i hc
      obtain rfl := Out.ok.inj hs
      have he := hc.1
      constructor
      · intro u; simp only [upd]; grind
      · intro u; simp only [upd]; grind
      · intro hst
        rcases hquiet hst with h1 | ⟨u, hu⟩
        · exact Or.inl h1
        · refine Or.inr ⟨u, ?_⟩
          simp only [upd]; grind
      · intro n hn
        simp only [upd] at hn
        by_cases hnt : Tid.io n = t
        · subst hnt; exact (exists_io s n).1 he
        · rw [if_neg hnt] at hn; exact hio n hn
      · exact hnum
    · cases hs
  | leave t =>
    simp only [step] at hs
    split at hs
    · obtain rfl := Out.ok.inj hs
      constructor
      · intro u; simp only [upd]; grind
      · intro u; simp only [upd]; grind
      · intro hst
        rcases hquiet hst with h1 | ⟨u, hu⟩
        · exact Or.inl h1
        · refine Or.inr ⟨u, ?_⟩
          simp only [upd]; grind
      · intro n hn; simp only [upd] at hn; grind
      · exact hnum
    · cases hs
  | quick t =>
    simp only [step] at hs
    split at hs
    · split at hs
      · obtain rfl := Out.ok.inj hs; exact h
      · obtain rfl := Out.ok.inj hs
        constructor
        · intro u; simp only [upd]; grind
        · intro u; simp only [upd]; grind
        · intro hst
          rcases hquiet hst with h1 | ⟨u, hu⟩
          · exact Or.inl h1
          · refine Or.inr ⟨u, ?_⟩
            simp only [upd]; grind
        · intro n hn; simp only [upd] at hn; grind
        · exact hnum
    · cases hs
  | lock t =>
    simp only [step] at hs
    split at hs
    · obtain rfl := Out.ok.inj hs
      constructor
      · intro u; simp only [upd]; grind
      · intro u; simp only [upd]; grind
      · intro hst
        rcases hquiet hst with h1 | ⟨u, hu⟩
        · exact Or.inl h1
        · refine Or.inr ⟨u, ?_⟩
          simp only [upd]; grind
      · intro n hn; simp only [upd] at hn; grind
      · exact hnum
    · cases hs
  | finish t =>
    simp only [step] at hs
    split at hs
    · obtain rfl := Out.ok.inj hs
      refine inv_create _ ?_
      constructor
      · intro u; simp only [upd]; grind
      · intro u; simp only [upd]; grind
      · intro hst
        rcases hquiet hst with h1 | ⟨u, hu⟩
        · exact Or.inl h1
        · refine Or.inr ⟨u, ?_⟩
          simp only [upd]; grind
      · intro n hn; simp only [upd] at hn; grind
      · exact hnum
    · cases hs
  | stop t =>
    simp only [step] at hs
    split at hs
    · obtain rfl := Out.ok.inj hs
      constructor
      · intro u; simp only [upd]; grind
      · intro u; simp only [upd]; grind
      · intro hst
        rcases hquiet hst with h1 | ⟨u, hu⟩
        · exact Or.inl h1
        · refine Or.inr ⟨u, ?_⟩
          simp only [upd]; grind
      · intro n hn; simp only [upd] at hn; grind
      · exact hnum
    · cases hs
  | stopLock t =>
    simp only [step] at hs
    split at hs
    · obtain rfl := Out.ok.inj hs
      constructor
      · intro u; simp only [upd]; grind
      · intro u; simp
      · intro _; exact Or.inr ⟨t, by simp [upd]⟩
      · intro n hn; simp only [upd] at hn; grind
      · exact hnum
    · cases hs
  | join t =>
    simp only [step] at hs
    split at hs
    · cases t with
      | io n => cases hs
      | app n =>
        simp only at hs
        split at hs
        · rename_i hl
          obtain rfl := Out.ok.inj hs
          constructor
          · intro u; simp only [upd]; grind
          · intro u; simp only [upd]; grind
          · intro _; exact Or.inl hl
          · intro m hm; simp only [upd] at hm; grind
          · exact hnum
        · cases hs
    · cases hs
  | exit n =>
    simp only [step] at hs
    split at hs
    · obtain rfl := Out.ok.inj hs
      refine ⟨hown, hjoin, ?_, ?_, ?_⟩
      · intro hst
        rcases hquiet hst with h1 | h1
        · exact Or.inl (by simp [h1])
        · exact Or.inr h1
      · intro m hm
        have := hio m hm
        simp only [List.mem_filter, decide_eq_true_eq]
        refine ⟨this, ?_⟩
        rintro rfl
        rename_i hc
        exact hm hc.2.1
      · intro m hm
        exact hnum m (List.mem_filter.1 hm).1
    · cases hs
  | reset =>
    simp only [step] at hs
    split at hs
    · rename_i ho
      obtain rfl := Out.ok.inj hs
      refine ⟨hown, ?_, by simp, hio, hnum⟩
      intro t ht
      have := (hown t).2 (Or.inr ht)
      rw [ho] at this; cases this
    · cases hs

theorem inv_run (ls : List Label) (s s' : State) (h : Inv s) (hs : run s ls = .ok s') : Inv s' := by
  induction ls generalizing s with
  | nil => simp only [run, Out.ok.injEq] at hs; subst hs; exact h
  | cons l ls ih =>
    simp only [run] at hs
    cases h1 : step s l with
    | ok t => rw [h1] at hs; exact ih t (inv_step s t l h h1) hs
    | blocked => rw [h1] at hs; cases hs
    | terminated => rw [h1] at hs; cases hs

theorem inv_reachable (s : State) (h : Reachable s) : Inv s := by
  obtain ⟨ls, hl⟩ := h
  exact inv_run ls init s inv_init hl

theorem run_append (s t : State) (l₁ l₂ : List Label) (h : run s l₁ = .ok t) : run s (l₁ ++ l₂) = run t l₂ := by
  induction l₁ generalizing s with
  | nil => simp only [run, Out.ok.injEq] at h; subst h; rfl
  | cons l ls ih =>
    simp only [run, List.cons_append] at h ⊢
    cases hs : step s l with
    | ok s' => rw [hs] at h; exact ih s' h
    | blocked => rw [hs] at h; cases h
    | terminated => rw [hs] at h; cases h

/-- While a thread is in `stop`, a waiting service thread waits. -/
theorem wait_step (s s' : State) (l : Label) (t : Tid) (n : Nat) (h : Inv s) (ht : s.pc t = .joining) (hw : Waits s n)
    (hs : step s l = .ok s') : s'.pc t = .joining ∧ Waits s' n := by
  have ho := (h.own t).2 (Or.inr ht)
  obtain ⟨hl, hp⟩ := hw
  have hne : Tid.io n ≠ t := by rintro rfl; rw [ht] at hp; simp at hp
  have hst := h.join t ht
  have hlive : s.live ≠ [] := by intro h; rw [h] at hl; cases hl
  cases l <;> simp only [step] at hs
  case join u =>
    cases u <;> simp only at hs <;> grind
  case finish u =>
    have : s.pc u = .holding → False := by
      intro hu
      have := (h.own u).2 (Or.inl hu)
      rw [ho] at this
      obtain rfl := Option.some.inj this
      rw [ht] at hu; cases hu
    split at hs
    · exact absurd ‹_› this
    · cases hs
  case exit m =>
    split at hs
    · rename_i hc
      obtain rfl := Out.ok.inj hs
      refine ⟨ht, ?_, hp⟩
      simp only [List.mem_filter, decide_eq_true_eq]
      refine ⟨hl, ?_⟩
      rintro rfl
      rw [hc.2.1] at hp; simp at hp
    · cases hs
  all_goals
    (repeat' split at hs) <;>
      first
      | (obtain rfl := Out.ok.inj hs
         simp only [Waits, upd_apply]
         grind)
      | cases hs

theorem wait_run (ls : List Label) (s s' : State) (t : Tid) (n : Nat) (h : Inv s) (ht : s.pc t = .joining) (hw : Waits s n)
    (hs : run s ls = .ok s') : s'.pc t = .joining := by
  induction ls generalizing s with
  | nil => simp only [run, Out.ok.injEq] at hs; subst hs; exact ht
  | cons l ls ih =>
    simp only [run] at hs
    cases h1 : step s l with
    | ok u =>
      rw [h1] at hs
      have := wait_step s u l t n h ht hw h1
      exact ih u (inv_step s u l h h1) this.1 this.2 hs
    | blocked => rw [h1] at hs; cases hs
    | terminated => rw [h1] at hs; cases hs

/-- All service threads can end. -/
theorem drain (k : Nat) (s : State) (hk : s.live.length = k) (a : Nat) (h : Inv s) (ht : s.pc (.app a) = .joining)
    (hn : ∀ n, ¬ Waits s n) : ∃ ls s', run s ls = .ok s' ∧ s'.live = [] ∧ s'.pc (.app a) = .joining := by
  induction k using Nat.strongRecOn generalizing s with
  | _ k ih =>
    cases hl : s.live with
    | nil => exact ⟨[], s, rfl, hl, ht⟩
    | cons n r =>
      have hst := h.join _ ht
      have ho := (h.own _).2 (Or.inr ht)
      have hmem : n ∈ s.live := by rw [hl]; exact List.mem_cons_self
      -- the thread is between two callbacks, possibly after the end of the callback
      have hidle : ∃ ls s1, run s ls = .ok s1 ∧ s1.pc (.io n) = .idle ∧ s1.live = s.live ∧ s1.pc (.app a) = .joining ∧
          (∀ m, ¬ Waits s1 m) ∧ s1.stopped = true := by
        cases hp : s.pc (.io n) with
        | idle => exact ⟨[], s, rfl, hp, rfl, ht, hn, hst⟩
        | call =>
          refine ⟨[.leave (.io n)], { s with pc := upd s.pc (.io n) .idle }, by simp [run, step, hp], by simp [upd], rfl, ?_, ?_, hst⟩
          · simp [upd, ht]
          · intro m hm
            apply hn m
            refine ⟨hm.1, ?_⟩
            have := hm.2
            simp only [upd] at this
            by_cases hmn : m = n
            · simp [hmn] at this
            · simpa [hmn] using this
        | checked => exact absurd ⟨hmem, Or.inl hp⟩ (hn n)
        | stopWait => exact absurd ⟨hmem, Or.inr hp⟩ (hn n)
        | holding =>
          have := (h.own (.io n)).2 (Or.inl hp)
          rw [ho] at this; cases this
        | joining =>
          have := (h.own (.io n)).2 (Or.inr hp)
          rw [ho] at this; cases this
      obtain ⟨l₁, s1, hr1, hp1, hl1, ht1, hn1, hst1⟩ := hidle
      let s2 : State := { s1 with live := s1.live.filter (· ≠ n) }
      have hr2 : run s1 [.exit n] = .ok s2 := by
        have : n ∈ s1.live := by rw [hl1]; exact hmem
        simp only [run, step, if_pos (show n ∈ s1.live ∧ s1.pc (.io n) = .idle ∧ s1.stopped = true from ⟨this, hp1, hst1⟩)]
        rfl
      have hr : run s (l₁ ++ [.exit n]) = .ok s2 := by rw [run_append _ _ _ _ hr1, hr2]
      have hlt : s2.live.length < k := by
        show (s1.live.filter (· ≠ n)).length < k
        rw [hl1, ← hk]
        refine Nat.lt_of_le_of_ne (List.length_filter_le _ _) ?_
        intro he
        have := List.filter_eq_self.1 (List.Sublist.eq_of_length List.filter_sublist he) n hmem
        simp at this
      obtain ⟨l₂, s3, hr3, hl3, ht3⟩ := ih _ hlt s2 rfl (inv_run _ _ _ h hr) ht1 (by
        intro m hm
        exact hn1 m ⟨(List.mem_filter.1 hm.1).1, hm.2⟩)
      exact ⟨(l₁ ++ [.exit n]) ++ l₂, s3, by rw [run_append _ _ _ _ hr, hr3], hl3, ht3⟩

/-! ## Property theorems -/

/-- **C85, after stopping.**  In every reachable state: when the manager is stopped and no call of `stop` is under way,
no service thread runs, so no callback runs. -/
theorem C85_stopped_quiet (s : State) (h : Reachable s) (hs : s.stopped = true) (ho : s.owner = none) :
    s.live = [] ∧ ∀ n, s.pc (.io n) = .idle := by
  have hi := inv_reachable s h
  have hl : s.live = [] := by
    rcases hi.quiet hs with hl | ⟨t, ht⟩
    · exact hl
    · have := (hi.own t).2 (Or.inr ht)
      rw [ho] at this; cases this
  refine ⟨hl, ?_⟩
  intro n
  false_or_by_contra
  rename_i hn
  have := hi.io n hn
  rw [hl] at this; cases this

/-- Stopping ended, with a service that had a callback. -/
example : ∃ s, run init [.enter (.app 0), .quick (.app 0), .lock (.app 0), .finish (.app 0), .enter (.io 2), .stop (.app 0),
    .stopLock (.app 0), .leave (.io 2), .exit 2, .exit 0, .exit 1, .exit 3, .join (.app 0)] = .ok s ∧
    s.stopped = true ∧ s.owner = none ∧ s.next = 4 := ⟨_, rfl, rfl, rfl, rfl⟩

/-- **C85, one at a time.**  At most one thread is in the section of the manager or in `stop`. -/
theorem C85_exclusive (s : State) (h : Reachable s) (t u : Tid) (ht : s.pc t = .holding ∨ s.pc t = .joining)
    (hu : s.pc u = .holding ∨ s.pc u = .joining) : t = u := by
  have hi := inv_reachable s h
  have h1 := (hi.own t).2 ht
  rw [(hi.own u).2 hu] at h1
  exact (Option.some.inj h1).symm

/-- **C85, stopping ends (partial).**  For every reachable state in which a thread of the application is in `stop`:
the call can return exactly if no service thread, in a callback, waits for the manager.  Missing: that it always can. -/
theorem C85_stop_returns_partial (s : State) (h : Reachable s) (a : Nat) (ha : s.pc (.app a) = .joining) :
    CanReturn s (.app a) ↔ ∀ n, ¬ Waits s n := by
  have hi := inv_reachable s h
  constructor
  · rintro ⟨ls, s', hr, hp⟩ n hw
    have := wait_run ls s s' (.app a) n hi ha hw hr
    rw [hp] at this; cases this
  · intro hn
    obtain ⟨ls, s1, hr, hl, hp⟩ := drain _ s rfl a hi ha hn
    refine ⟨ls ++ [.join (.app a)], { s1 with pc := upd s1.pc (.app a) .call, owner := none }, ?_, by simp [upd]⟩
    rw [run_append _ _ _ _ hr]
    simp [run, step, hp, hl]

/-- **C85, callbacks that do not ask (partial).**  If the callbacks never create servers, connect clients or finalise,
`stop` can always return. -/
theorem C85_stop_no_requests_partial (ls : List Label) (s : State) (hr : run init ls = .ok s)
    (hq : ∀ n, Label.quick (.io n) ∉ ls ∧ Label.stop (.io n) ∉ ls) (a : Nat) (ha : s.pc (.app a) = .joining) :
    CanReturn s (.app a) := by
  refine (C85_stop_returns_partial s ⟨ls, hr⟩ a ha).2 ?_
  suffices hw : ∀ n, s.pc (.io n) = .idle ∨ s.pc (.io n) = .call by
    intro n hn
    rcases hw n with h | h <;> rcases hn.2 with h' | h' <;> rw [h] at h' <;> cases h'
  have key : ∀ (ls : List Label) (s s' : State), (∀ n, Label.quick (.io n) ∉ ls ∧ Label.stop (.io n) ∉ ls) →
      (∀ n, s.pc (.io n) = .idle ∨ s.pc (.io n) = .call) → run s ls = .ok s' →
      ∀ n, s'.pc (.io n) = .idle ∨ s'.pc (.io n) = .call := by
    intro ls
    induction ls with
    | nil => intro s s' _ h hs; simp only [run, Out.ok.injEq] at hs; subst hs; exact h
    | cons l ls ih =>
      intro s s' hq h hs
      simp only [run] at hs
      cases h1 : step s l with
      | blocked => rw [h1] at hs; cases hs
      | terminated => rw [h1] at hs; cases hs
      | ok u =>
        rw [h1] at hs
        refine ih u s' (fun n => ⟨fun hm => (hq n).1 (List.mem_cons_of_mem _ hm), fun hm => (hq n).2 (List.mem_cons_of_mem _ hm)⟩) ?_ hs
        intro n
        have hn := h n
        have hq1 : l ≠ .quick (.io n) := fun e => (hq n).1 (e ▸ List.mem_cons_self)
        have hq2 : l ≠ .stop (.io n) := fun e => (hq n).2 (e ▸ List.mem_cons_self)
        clear ih hs hq h
        cases l <;> simp only [step] at h1
        all_goals
          (repeat' split at h1) <;>
            first
            | (obtain rfl := Out.ok.inj h1
               (try simp only [create_pc, upd_apply])
               grind)
            | cases h1
  exact key ls init s hq (by simp [init]) hr

/-- Two callbacks run while the application stops. -/
example : ∃ s, run init [.enter (.app 0), .quick (.app 0), .lock (.app 0), .finish (.app 0), .enter (.io 0), .enter (.io 3),
    .stop (.app 0), .stopLock (.app 0)] = .ok s ∧ s.pc (.app 0) = .joining ∧ s.live = [0, 1, 2, 3] := ⟨_, rfl, rfl, rfl⟩

/-- **C85 (violated: deadlock).**  A service callback asks for a manager and is past the first look at the flag when the
application calls `Finalize`: `stop` waits for the callback, the callback waits for `stop`; the call never returns. -/
theorem C85_violated_deadlock : ∃ s, run init [.enter (.app 0), .quick (.app 0), .lock (.app 0), .finish (.app 0),
    .enter (.io 1), .quick (.io 1), .stop (.app 0), .stopLock (.app 0)] = .ok s ∧ s.pc (.app 0) = .joining ∧
    ¬ CanReturn s (.app 0) := by
  refine ⟨_, rfl, rfl, ?_⟩
  rw [C85_stop_returns_partial _ ⟨[.enter (.app 0), .quick (.app 0), .lock (.app 0), .finish (.app 0),
    .enter (.io 1), .quick (.io 1), .stop (.app 0), .stopLock (.app 0)], rfl⟩ 0 rfl]
  intro h
  exact h 1 ⟨by decide, Or.inl rfl⟩

/-- **C85 (violated: two calls of `Finalize`).**  The same with a callback that calls `Finalize` while the application
does: the callback waits for the mutex in `stop`. -/
theorem C85_violated_two_stops : ∃ s, run init [.enter (.app 0), .quick (.app 0), .lock (.app 0), .finish (.app 0),
    .enter (.io 1), .stop (.io 1), .stop (.app 0), .stopLock (.app 0)] = .ok s ∧ s.pc (.app 0) = .joining ∧
    ¬ CanReturn s (.app 0) := by
  refine ⟨_, rfl, rfl, ?_⟩
  rw [C85_stop_returns_partial _ ⟨[.enter (.app 0), .quick (.app 0), .lock (.app 0), .finish (.app 0),
    .enter (.io 1), .stop (.io 1), .stop (.app 0), .stopLock (.app 0)], rfl⟩ 0 rfl]
  intro h
  exact h 1 ⟨by decide, Or.inr rfl⟩

/-- **C85 (violated: own thread).**  A service callback that calls `Finalize` waits for its own thread: the process is
terminated. -/
theorem C85_violated_own_thread : run init [.enter (.app 0), .quick (.app 0), .lock (.app 0), .finish (.app 0),
    .enter (.io 1), .stop (.io 1), .stopLock (.io 1), .join (.io 1)] = .terminated := rfl

/-- **C85, who terminates.**  Only a service thread that calls `stop` terminates the process. -/
theorem C85_terminated (s : State) (l : Label) (h : step s l = .terminated) : ∃ n, l = .join (.io n) ∧ s.pc (.io n) = .joining := by
  cases l <;> simp only [step] at h
  case join t =>
    cases t with
    | io n => by_cases hc : s.pc (.io n) = .joining <;> simp_all
    | app n => by_cases hc : s.pc (.app n) = .joining <;> by_cases hl : s.live = [] <;> simp_all
  all_goals (repeat' split at h) <;> cases h

end Ecal.Service.MgrStop
