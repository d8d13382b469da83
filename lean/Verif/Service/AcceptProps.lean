import Verif.Service.Accept

/-! # Properties of accepting connections (C76) -/

namespace Ecal.Service.Accept

theorem run_append (as bs : List Step) (s : St) : run s (as ++ bs) = (run s as).bind (fun s' => run s' bs) := by
  induction as generalizing s with
  | nil => rfl
  | cons a r ih =>
    simp only [List.cons_append, run]
    cases step s a with
    | none => rfl
    | some s' => exact ih s'

/-- Exactly one of: waiting for a connection, a connection to be handled. -/
def Alive (s : St) : Prop :=
  s.isOpen = true ∧ ((s.armed = true ∧ s.ready = none) ∨ (s.armed = false ∧ ∃ id, s.ready = some (.conn id)))

theorem alive_step (s s' : St) (a : Step) (h : Alive s) (ha : a ≠ .stop ∧ a ≠ .fail) (hs : step s a = some s') :
    Alive s' := by
  obtain ⟨ho, h⟩ := h
  cases a with
  | stop => exact absurd rfl ha.1
  | fail => exact absurd rfl ha.2
  | connect =>
    simp only [step, ho, if_true, Option.some.injEq] at hs
    subst hs
    exact ⟨rfl, h⟩
  | accept =>
    simp only [step] at hs
    split at hs
    · obtain rfl := Option.some.inj hs
      exact ⟨ho, Or.inr ⟨rfl, _, rfl⟩⟩
    · cases hs
  | handler =>
    simp only [step] at hs
    rcases h with ⟨h1, h2⟩ | ⟨h1, id, h2⟩
    · rw [h2] at hs; cases hs
    · rw [h2] at hs
      simp only [waitNext, ho, if_true, Option.some.injEq] at hs
      subst hs
      exact ⟨rfl, Or.inl ⟨rfl, rfl⟩⟩
  | leave id =>
    simp only [step] at hs
    split at hs
    · obtain rfl := Option.some.inj hs; exact ⟨ho, h⟩
    · cases hs

theorem alive_run (as : List Step) (s s' : St) (h : Alive s) (ha : .stop ∉ as ∧ .fail ∉ as) (hr : run s as = some s') :
    Alive s' := by
  induction as generalizing s with
  | nil => simp only [run, Option.some.injEq] at hr; exact hr ▸ h
  | cons a r ih =>
    simp only [run, Option.bind_eq_some_iff] at hr
    obtain ⟨s1, h1, h2⟩ := hr
    refine ih s1 (alive_step s s1 a h ⟨fun e => ha.1 (e ▸ List.mem_cons_self), fun e => ha.2 (e ▸ List.mem_cons_self)⟩ h1)
      ⟨fun e => ha.1 (List.mem_cons_of_mem _ e), fun e => ha.2 (List.mem_cons_of_mem _ e)⟩ h2

/-- C76 (partial: accepting never fails): a server that was not stopped always serves one more client: a
waiting client gets a session within three steps of the server. -/
theorem C76_keeps_accepting_partial (as : List Step) (s : St) (ha : .stop ∉ as ∧ .fail ∉ as)
    (hr : run {} as = some s) (hb : 0 < s.backlog) :
    ∃ bs s', (∀ b ∈ bs, b = .accept ∨ b = .handler) ∧ bs.length ≤ 3 ∧ run s bs = some s' ∧
      s'.running.length ≥ s.running.length + 1 ∧ s'.backlog = s.backlog - 1 := by
  obtain ⟨ho, h⟩ := alive_run as {} s ⟨rfl, Or.inl ⟨rfl, rfl⟩⟩ ha hr
  rcases h with ⟨h1, h2⟩ | ⟨h1, id, h2⟩
  · refine ⟨[.accept, .handler], { s with armed := true, backlog := s.backlog - 1, next := s.next + 1,
                                          running := s.next :: s.running, ready := none },
      by simp, by simp, ?_, ?_, ?_⟩
    · simp [run, step, h1, hb, waitNext, ho]
    · simp
    · simp
  · refine ⟨[.handler, .accept, .handler],
      { s with armed := true, backlog := s.backlog - 1, next := s.next + 1,
               running := s.next :: id :: s.running, ready := none }, by simp, by simp, ?_, ?_, ?_⟩
    · simp [run, step, h2, hb, waitNext, ho]
    · simp
    · simp

example : ∃ s, run {} [.connect, .accept, .handler, .connect] = some s ∧ 0 < s.backlog ∧ s.running = [0] :=
  ⟨_, rfl, by decide, rfl⟩

/-- Nothing is running and nothing can come. -/
def Quiet (s : St) : Prop :=
  s.isOpen = false ∧ s.armed = false ∧ s.running = [] ∧ (s.ready = none ∨ s.ready = some .error) ∧ s.backlog = 0

theorem quiet_step (s s' : St) (a : Step) (h : Quiet s) (hs : step s a = some s') : Quiet s' := by
  obtain ⟨h1, h2, h3, h4, h5⟩ := h
  cases a with
  | connect => simp [step, h1] at hs
  | accept => simp [step, h2] at hs
  | fail => simp [step, h2] at hs
  | handler =>
    simp only [step] at hs
    rcases h4 with h4 | h4
    · rw [h4] at hs; cases hs
    · rw [h4] at hs
      obtain rfl := Option.some.inj hs
      exact ⟨h1, h2, h3, Or.inl rfl, h5⟩
  | leave id => simp [step, h3] at hs
  | stop =>
    simp only [step, h2, Bool.false_eq_true, if_false, Option.some.injEq] at hs
    subst hs
    exact ⟨rfl, rfl, rfl, h4, rfl⟩

/-- C76 (partial: no accepted connection is waiting for its handler when the server is stopped): after the stop
the server never has a session again. -/
theorem C76_stopped_partial (s s1 s2 : St) (bs : List Step) (hn : ∀ id, s.ready ≠ some (.conn id))
    (h1 : step s .stop = some s1) (h2 : run s1 bs = some s2) : s2.running = [] := by
  have hq : Quiet s1 := by
    simp only [step, Option.some.injEq] at h1
    subst h1
    refine ⟨rfl, rfl, rfl, ?_, rfl⟩
    simp only
    split
    · exact Or.inr rfl
    · cases hr : s.ready with
      | none => exact Or.inl rfl
      | some r =>
        cases r with
        | conn id => exact absurd hr (hn id)
        | error => exact Or.inr rfl
  have key : ∀ (bs : List Step) (s s' : St), Quiet s → run s bs = some s' → Quiet s' := by
    intro bs
    induction bs with
    | nil =>
      intro s s' h hr
      simp only [run, Option.some.injEq] at hr
      exact hr ▸ h
    | cons a r ih =>
      intro s s' h hr
      simp only [run, Option.bind_eq_some_iff] at hr
      obtain ⟨t, e1, e2⟩ := hr
      exact ih t s' (quiet_step s t a h e1) e2
  exact (key bs s1 s2 hq h2).2.2.1

example : ∃ s, run {} [.connect, .accept, .handler] = some s ∧ ∀ id, s.ready ≠ some (.conn id) :=
  ⟨_, rfl, by simp [waitNext]⟩

/-- C76 is violated: a connection accepted just before the stop gets its session after the stop; nothing
stops that session but its client (the io threads that the shutdown waits for stay busy with it). -/
theorem C76_violated_stop_race :
    ∃ s, run {} [.connect, .accept, .stop, .handler] = some s ∧ s.running = [0] ∧ s.isOpen = false ∧
      ∀ bs s', .leave 0 ∉ bs → .stop ∉ bs → run s bs = some s' → 0 ∈ s'.running := by
  refine ⟨_, rfl, rfl, rfl, ?_⟩
  have key : ∀ (bs : List Step) (s s' : St), 0 ∈ s.running → .leave 0 ∉ bs → .stop ∉ bs → run s bs = some s' →
      0 ∈ s'.running := by
    intro bs
    induction bs with
    | nil =>
      intro s s' h _ _ hr
      simp only [run, Option.some.injEq] at hr
      exact hr ▸ h
    | cons a r ih =>
      intro s s' h hl hst hr
      simp only [run, Option.bind_eq_some_iff] at hr
      obtain ⟨t, e1, e2⟩ := hr
      refine ih t s' ?_ (fun e => hl (List.mem_cons_of_mem _ e)) (fun e => hst (List.mem_cons_of_mem _ e)) e2
      cases a with
      | connect => simp only [step] at e1; split at e1 <;> first | (obtain rfl := Option.some.inj e1; exact h) | cases e1
      | accept => simp only [step] at e1; split at e1 <;> first | (obtain rfl := Option.some.inj e1; exact h) | cases e1
      | fail => simp only [step] at e1; split at e1 <;> first | (obtain rfl := Option.some.inj e1; exact h) | cases e1
      | handler =>
        simp only [step] at e1
        split at e1
        · obtain rfl := Option.some.inj e1
          unfold waitNext
          split <;> exact List.mem_cons_of_mem _ h
        · obtain rfl := Option.some.inj e1; exact h
        · cases e1
      | leave id =>
        simp only [step] at e1
        split at e1
        · obtain rfl := Option.some.inj e1
          have : (0 : Nat) ≠ id := fun e => hl (e ▸ List.mem_cons_self)
          simpa using ⟨h, this⟩
        · cases e1
      | stop => exact absurd List.mem_cons_self hst
  intro bs s' h1 h2 h3
  exact key bs _ s' (by simp [waitNext]) h1 h2 h3

/-- C76 is violated: after one failed accept (for instance because all file descriptors were in use for a
moment) the server never serves a new client again, although it stays open. -/
theorem C76_violated_error (bs : List Step) (s : St) (h : run {} ([.fail, .handler] ++ bs) = some s) :
    s.running = [] ∧ (.stop ∉ bs → s.isOpen = true) := by
  rw [run_append] at h
  have e : run {} [.fail, .handler] = some { armed := false } := rfl
  rw [e] at h
  have key : ∀ (bs : List Step) (s s' : St), s.armed = false → s.ready = none → s.running = [] →
      run s bs = some s' → s'.running = [] ∧ (.stop ∉ bs → s'.isOpen = s.isOpen) := by
    intro bs
    induction bs with
    | nil =>
      intro s s' _ _ h hr
      simp only [run, Option.some.injEq] at hr
      exact hr ▸ ⟨h, fun _ => rfl⟩
    | cons a r ih =>
      intro s s' h1 h2 h3 hr
      simp only [run, Option.bind_eq_some_iff] at hr
      obtain ⟨t, e1, e2⟩ := hr
      have : t.armed = false ∧ t.ready = none ∧ t.running = [] ∧ (a ≠ .stop → t.isOpen = s.isOpen) := by
        cases a with
        | connect => simp only [step] at e1; split at e1 <;> first | (obtain rfl := Option.some.inj e1; exact ⟨h1, h2, h3, fun _ => rfl⟩) | cases e1
        | accept => simp [step, h1] at e1
        | fail => simp [step, h1] at e1
        | handler => simp [step, h2] at e1
        | leave id => simp [step, h3] at e1
        | stop =>
          simp only [step, h1, h2, Bool.false_eq_true, if_false, Option.some.injEq] at e1
          subst e1
          exact ⟨rfl, rfl, rfl, fun e => absurd rfl e⟩
      obtain ⟨t1, t2, t3, t4⟩ := this
      obtain ⟨r1, r2⟩ := ih t s' t1 t2 t3 e2
      refine ⟨r1, fun hst => ?_⟩
      rw [r2 (fun e => hst (List.mem_cons_of_mem _ e)), t4 (fun e => hst (e ▸ List.mem_cons_self))]
  obtain ⟨k1, k2⟩ := key bs _ s rfl rfl rfl h
  exact ⟨k1, k2⟩

/-- … and clients go on connecting. -/
example : ∃ s, run {} ([.fail, .handler] ++ [.connect, .connect]) = some s ∧ s.backlog = 2 ∧ s.isOpen = true :=
  ⟨_, rfl, rfl, rfl⟩

/-- **C76** No session without a client: every session belongs to a connection of its own. -/
theorem C76_session_has_client (as : List Step) (s : St) (h : run {} as = some s) :
    s.next + s.backlog ≤ as.count .connect ∧ s.running.Nodup ∧ ∀ id ∈ s.running, id < s.next := by
  have key : ∀ (as : List Step) (s s' : St) (k : Nat),
      (s.next + s.backlog ≤ k ∧ s.running.Nodup ∧ (∀ id ∈ s.running, id < s.next) ∧
        (∀ id, s.ready = some (.conn id) → id < s.next ∧ id ∉ s.running)) →
      run s as = some s' → s'.next + s'.backlog ≤ k + as.count .connect ∧ s'.running.Nodup ∧
        ∀ id ∈ s'.running, id < s'.next := by
    intro as
    induction as with
    | nil =>
      intro s s' k hi hr
      simp only [run, Option.some.injEq] at hr
      subst hr
      exact ⟨by simpa using hi.1, hi.2.1, hi.2.2.1⟩
    | cons a r ih =>
      intro s s' k hi hr
      simp only [run, Option.bind_eq_some_iff] at hr
      obtain ⟨s1, h1, h2⟩ := hr
      obtain ⟨i1, i2, i3, i4⟩ := hi
      have hk : ∀ k', k' ≤ k + (if a = .connect then 1 else 0) →
          s'.next + s'.backlog ≤ k' + r.count .connect ∧ s'.running.Nodup ∧ (∀ id ∈ s'.running, id < s'.next) →
          s'.next + s'.backlog ≤ k + (a :: r).count .connect ∧ s'.running.Nodup ∧ ∀ id ∈ s'.running, id < s'.next := by
        intro k' hk' hh
        refine ⟨?_, hh.2⟩
        rw [List.count_cons]
        by_cases ha : a = .connect
        · simp [ha] at hk' ⊢; omega
        · simp [ha] at hk' ⊢; omega
      cases a with
      | connect =>
        apply hk (k + 1) (by simp)
        refine ih s1 s' (k + 1) ?_ h2
        simp only [step] at h1
        split at h1
        · obtain rfl := Option.some.inj h1
          exact ⟨by simp only; omega, i2, i3, i4⟩
        · cases h1
      | accept =>
        apply hk k (by simp)
        refine ih s1 s' k ?_ h2
        simp only [step] at h1
        split at h1
        · next hh =>
          obtain rfl := Option.some.inj h1
          refine ⟨by simp only; omega, i2, fun id hid => Nat.lt_succ_of_lt (i3 id hid), ?_⟩
          intro id hid
          simp only [Option.some.injEq, Ready.conn.injEq] at hid
          subst hid
          exact ⟨Nat.lt_succ_self _, fun hm => Nat.lt_irrefl _ (i3 _ hm)⟩
        · cases h1
      | fail =>
        apply hk k (by simp)
        refine ih s1 s' k ?_ h2
        simp only [step] at h1
        split at h1
        · obtain rfl := Option.some.inj h1
          exact ⟨i1, i2, i3, by simp⟩
        · cases h1
      | handler =>
        apply hk k (by simp)
        refine ih s1 s' k ?_ h2
        simp only [step] at h1
        split at h1
        · next id hid =>
          obtain rfl := Option.some.inj h1
          have hc := i4 id hid
          unfold waitNext
          split
          · exact ⟨i1, List.nodup_cons.2 ⟨hc.2, i2⟩, by simpa using ⟨hc.1, i3⟩, by simp⟩
          · exact ⟨i1, List.nodup_cons.2 ⟨hc.2, i2⟩, by simpa using ⟨hc.1, i3⟩, by simp⟩
        · obtain rfl := Option.some.inj h1
          exact ⟨i1, i2, i3, by simp⟩
        · cases h1
      | leave id =>
        apply hk k (by simp)
        refine ih s1 s' k ?_ h2
        simp only [step] at h1
        split at h1
        · obtain rfl := Option.some.inj h1
          refine ⟨i1, i2.filter _, fun x hx => i3 x (List.mem_filter.1 hx).1, ?_⟩
          intro x hx
          exact ⟨(i4 x hx).1, fun hm => (i4 x hx).2 (List.mem_filter.1 hm).1⟩
        · cases h1
      | stop =>
        apply hk k (by simp)
        refine ih s1 s' k ?_ h2
        simp only [step, Option.some.injEq] at h1
        subst h1
        refine ⟨by simp only; omega, List.nodup_nil, by simp, ?_⟩
        intro x hx
        simp only at hx
        split at hx
        · cases hx
        · exact ⟨(i4 x hx).1, by simp⟩
  simpa using key as {} s 0 ⟨Nat.le_refl _, List.nodup_nil, by simp, by simp⟩ h

end Ecal.Service.Accept
