import Verif.Service.Managers

/-! # Properties of the managers (C75) -/

namespace Ecal.Service.Managers

/-! ### One manager -/

structure Inv (m : Mgr) : Prop where
  known : ∀ i, i < m.next ↔ i ∈ m.live ∨ i ∈ m.gone
  apart : ∀ i, ¬ (i ∈ m.live ∧ i ∈ m.gone)
  nodup : m.live.Nodup
  pend : ∀ l, m.pend = some l → m.stopped = true ∧ ∀ i ∈ m.live, i ∈ m.halted ∨ i ∈ l
  sub : ∀ i ∈ m.halted, i < m.next

theorem inv_step (m m' : Mgr) (a : Step) (h : Inv m) (hs : step m a = some m') : Inv m' := by
  cases a with
  | create =>
    simp only [step, Option.some.injEq] at hs
    by_cases hst : m.stopped = true
    · rw [if_pos hst] at hs; exact hs ▸ h
    · rw [if_neg hst] at hs
      subst hs
      refine ⟨?_, ?_, ?_, ?_, ?_⟩
      · intro i
        simp only [List.mem_append, List.mem_singleton]
        have := h.known i
        constructor
        · intro hi
          by_cases he : i = m.next
          · exact Or.inl (Or.inr he)
          · rcases this.1 (by omega) with h1 | h1
            · exact Or.inl (Or.inl h1)
            · exact Or.inr h1
        · rintro ((h1 | h1) | h1)
          · have := this.2 (Or.inl h1); omega
          · omega
          · have := this.2 (Or.inr h1); omega
      · rintro i ⟨h1, h2⟩
        simp only [List.mem_append, List.mem_singleton] at h1
        rcases h1 with h1 | h1
        · exact h.apart i ⟨h1, h2⟩
        · have := (h.known i).2 (Or.inr h2); omega
      · refine List.nodup_append.2 ⟨h.nodup, by simp, ?_⟩
        intro a ha b hb
        simp only [List.mem_singleton] at hb
        have := (h.known a).2 (Or.inl ha)
        omega
      · intro l hl
        exact absurd (h.pend l hl).1 hst
      · intro i hi
        have := h.sub i hi
        simp only; omega
  | delete id =>
    simp only [step] at hs
    by_cases hid : id ∈ m.live
    · rw [if_pos hid] at hs
      obtain rfl := Option.some.inj hs
      refine ⟨?_, ?_, h.nodup.filter _, ?_, h.sub⟩
      · intro i
        simp only [List.mem_filter, decide_eq_true_eq, List.mem_cons]
        rw [h.known i]
        constructor
        · rintro (h1 | h1)
          · by_cases he : i = id
            · exact Or.inr (Or.inl he)
            · exact Or.inl ⟨h1, he⟩
          · exact Or.inr (Or.inr h1)
        · rintro (h1 | h1 | h1)
          · exact Or.inl h1.1
          · exact Or.inl (h1 ▸ hid)
          · exact Or.inr h1
      · rintro i ⟨h1, h2⟩
        simp only [List.mem_filter, decide_eq_true_eq, List.mem_cons] at h1 h2
        rcases h2 with h2 | h2
        · exact h1.2 h2
        · exact h.apart i ⟨h1.1, h2⟩
      · intro l hl
        obtain ⟨h1, h2⟩ := h.pend l hl
        exact ⟨h1, fun i hi => h2 i (List.mem_filter.1 hi).1⟩
    · rw [if_neg hid] at hs; cases hs
  | stopBegin =>
    simp only [step] at hs
    split at hs
    · cases hs
    · obtain rfl := Option.some.inj hs
      refine ⟨h.known, h.apart, h.nodup, ?_, h.sub⟩
      intro l hl
      simp only [Option.some.injEq] at hl
      exact ⟨rfl, fun i hi => Or.inr (hl ▸ hi)⟩
  | stopNext =>
    simp only [step] at hs
    split at hs
    · rename_i id r hp
      obtain rfl := Option.some.inj hs
      obtain ⟨h1, h2⟩ := h.pend _ hp
      refine ⟨h.known, h.apart, h.nodup, ?_, ?_⟩
      · intro l hl
        simp only [Option.some.injEq] at hl
        subst hl
        refine ⟨h1, fun i hi => ?_⟩
        rcases h2 i hi with h3 | h3
        · left; split
          · exact List.mem_cons_of_mem _ h3
          · exact h3
        · rcases List.mem_cons.1 h3 with rfl | h3
          · have hi' : i ∈ m.live := hi
            left; rw [if_pos hi']; exact List.mem_cons_self
          · exact Or.inr h3
      · intro i hi
        simp only at hi
        split at hi
        · rename_i hin
          rcases List.mem_cons.1 hi with rfl | hi
          · exact (h.known _).2 (Or.inl hin)
          · exact h.sub i hi
        · exact h.sub i hi
    · cases hs

theorem inv_run (as : List Step) (m m' : Mgr) (h : Inv m) (hr : run m as = some m') : Inv m' := by
  induction as generalizing m with
  | nil => simp only [run, Option.some.injEq] at hr; exact hr ▸ h
  | cons a r ih =>
    simp only [run, Option.bind_eq_some_iff] at hr
    obtain ⟨m1, h1, h2⟩ := hr
    exact ih m1 (inv_step m m1 a h h1) h2

theorem inv_init : Inv {} := ⟨by simp, by simp, by simp, by simp, by simp⟩

/-- C75: the objects a manager counts are exactly those created and not yet deleted, each once. -/
theorem C75_count (as : List Step) (m : Mgr) (h : run {} as = some m) :
    m.live.Nodup ∧ ∀ i, i ∈ m.live ↔ i < m.next ∧ i ∉ m.gone := by
  have hi := inv_run as {} m inv_init h
  refine ⟨hi.nodup, fun i => ⟨fun h1 => ⟨(hi.known i).2 (Or.inl h1), fun h2 => hi.apart i ⟨h1, h2⟩⟩, ?_⟩⟩
  rintro ⟨h1, h2⟩
  rcases (hi.known i).1 h1 with h3 | h3
  · exact h3
  · exact absurd h3 h2

/-- C75: when the stop of a manager has come to its end, every object ever created by it has been stopped or
deleted, whatever other threads created or deleted in the meantime. -/
theorem C75_stop_reaches_all (as : List Step) (m : Mgr) (h : run {} as = some m) (hp : m.pend = some []) (i : Nat)
    (hi : i < m.next) : i ∈ m.halted ∨ i ∈ m.gone := by
  have hv := inv_run as {} m inv_init h
  rcases (hv.known i).1 hi with h1 | h1
  · rcases (hv.pend [] hp).2 i h1 with h2 | h2
    · exact Or.inl h2
    · simp at h2
  · exact Or.inr h1

theorem next_run (as : List Step) (m m' : Mgr) (h : m.stopped = true) (hr : run m as = some m') :
    m'.stopped = true ∧ m'.next = m.next := by
  induction as generalizing m with
  | nil => simp only [run, Option.some.injEq] at hr; exact hr ▸ ⟨h, rfl⟩
  | cons a r ih =>
    simp only [run, Option.bind_eq_some_iff] at hr
    obtain ⟨m1, h1, h2⟩ := hr
    have : m1.stopped = true ∧ m1.next = m.next := by
      cases a with
      | create =>
        simp only [step, h, if_true, Option.some.injEq] at h1
        exact h1 ▸ ⟨h, rfl⟩
      | delete id =>
        simp only [step] at h1
        split at h1
        · obtain rfl := Option.some.inj h1; exact ⟨h, rfl⟩
        · cases h1
      | stopBegin =>
        simp only [step] at h1
        split at h1
        · cases h1
        · obtain rfl := Option.some.inj h1; exact ⟨rfl, rfl⟩
      | stopNext =>
        simp only [step] at h1
        split at h1
        · obtain rfl := Option.some.inj h1; exact ⟨h, rfl⟩
        · cases h1
    obtain ⟨h3, h4⟩ := ih m1 this.1 h2
    exact ⟨h3, h4.trans this.2⟩

/-- C75: once its stop has begun a manager creates nothing any more. -/
theorem C75_no_creation_after_stop (as bs : List Step) (m m1 m2 : Mgr) (_h : run {} as = some m)
    (h1 : step m .stopBegin = some m1) (h2 : run m1 bs = some m2) : m2.next = m.next := by
  have hs : m1.stopped = true ∧ m1.next = m.next := by
    simp only [step] at h1
    split at h1
    · cases h1
    · obtain rfl := Option.some.inj h1; exact ⟨rfl, rfl⟩
  rw [(next_run bs m1 m2 hs.1 h2).2, hs.2]

example : run {} [.create, .create, .stopBegin, .delete 0, .create, .stopNext, .stopNext] =
    some { stopped := true, live := [1], gone := [0], halted := [1], next := 2, pend := some [] } := by
  decide +kernel

/-! ### The singleton -/

structure SInv (s : Single) : Prop where
  flag : s.stopping = true → s.stopped = true
  gen : ∀ g, s.mgr = some g → g + 1 = s.gen
  io : s.mgr = none → s.io = []
  idle : s.stopped = true → s.stopping = false → s.mgr = none
  exit : ∀ i : Nat, s.io[i]? = some .exited → s.stopping = true

theorem locked_inv (s : Single) (h : SInv s) (hst : s.stopping = false) : SInv (locked s) := by
  unfold locked
  by_cases hs : s.stopped = true
  · rw [if_pos hs]; exact ⟨h.flag, h.gen, h.io, h.idle, h.exit⟩
  · rw [if_neg hs]
    by_cases hm : s.mgr = none
    · have hio := h.io hm
      simp only [hm, if_true, hio]
      refine ⟨fun e => absurd e (by simp [hst]), by simp, by simp, fun e => absurd e hs, ?_⟩
      intro i hi
      simp only at hi
      rw [List.getElem?_replicate] at hi
      split at hi <;> simp at hi
    · simp only [hm, if_false]
      by_cases hio : s.io = []
      · simp only [hio, if_true]
        refine ⟨fun e => absurd e (by simp [hst]), h.gen, fun e => absurd e hm, fun e => absurd e hs, ?_⟩
        intro i hi
        simp only at hi
        rw [List.getElem?_replicate] at hi
        split at hi <;> simp at hi
      · simp only [hio, if_false]
        exact ⟨h.flag, h.gen, h.io, h.idle, h.exit⟩

theorem set_exited (l : List Io) (i j : Nat) (x : Io) (hx : x ≠ .exited) (h : (l.set i x)[j]? = some .exited) :
    l[j]? = some .exited := by
  rw [List.getElem?_set] at h
  split at h
  · split at h
    · exact absurd (Option.some.inj h) hx
    · cases h
  · exact h

theorem set_inv (s : Single) (i : Nat) (x y : Io) (h : SInv s) (hi : s.io[i]? = some y) (hx : x ≠ .exited) :
    SInv { s with io := s.io.set i x } := by
  refine ⟨h.flag, h.gen, ?_, h.idle, ?_⟩
  · intro hm
    have := h.io hm
    simp [this] at hi
  · intro j hj
    exact h.exit j (set_exited _ _ _ _ hx hj)

theorem sinv_step (s s' : Single) (a : SStep) (h : SInv s) (hs : sstep s a = .ok s') : SInv s' := by
  cases a with
  | get =>
    simp only [sstep] at hs
    by_cases hst : s.stopping = true
    · rw [if_pos hst] at hs
      obtain rfl := Out.ok.inj hs
      exact ⟨h.flag, h.gen, h.io, h.idle, h.exit⟩
    · rw [if_neg hst] at hs
      obtain rfl := Out.ok.inj hs
      exact locked_inv s h (by simpa using hst)
  | stopBegin =>
    simp only [sstep] at hs
    by_cases hst : s.stopping = true
    · rw [if_pos hst] at hs; cases hs
    · rw [if_neg hst] at hs
      obtain rfl := Out.ok.inj hs
      exact ⟨fun _ => rfl, h.gen, h.io, by simp, fun _ _ => rfl⟩
  | stopEnd =>
    simp only [sstep] at hs
    by_cases hst : s.stopping = true ∧ s.io.all (· = .exited) = true
    · rw [if_pos hst] at hs
      obtain rfl := Out.ok.inj hs
      exact ⟨by simp, by simp, fun _ => rfl, fun _ _ => rfl, by simp⟩
    · rw [if_neg hst] at hs; cases hs
  | reset =>
    simp only [sstep] at hs
    by_cases hst : s.stopping = true
    · rw [if_pos hst] at hs; cases hs
    · rw [if_neg hst] at hs
      obtain rfl := Out.ok.inj hs
      exact ⟨fun e => absurd e hst, h.gen, h.io, by simp, h.exit⟩
  | ioBegin i =>
    simp only [sstep] at hs
    by_cases hi : s.io[i]? = some .idle
    · rw [if_pos hi] at hs
      obtain rfl := Out.ok.inj hs
      exact set_inv s i _ _ h hi (by simp)
    · rw [if_neg hi] at hs; cases hs
  | ioEnd i =>
    simp only [sstep] at hs
    by_cases hi : s.io[i]? = some .user
    · rw [if_pos hi] at hs
      obtain rfl := Out.ok.inj hs
      exact set_inv s i _ _ h hi (by simp)
    · rw [if_neg hi] at hs; cases hs
  | ioCheck i =>
    simp only [sstep] at hs
    by_cases hi : s.io[i]? = some .user
    · rw [if_pos hi] at hs
      obtain rfl := Out.ok.inj hs
      split
      · exact ⟨h.flag, h.gen, h.io, h.idle, h.exit⟩
      · exact set_inv s i _ _ h hi (by simp)
    · rw [if_neg hi] at hs; cases hs
  | ioLock i =>
    simp only [sstep] at hs
    by_cases hi : s.io[i]? = some .want ∧ s.stopping = false
    · rw [if_pos hi] at hs
      obtain rfl := Out.ok.inj hs
      exact locked_inv _ (set_inv s i _ _ h hi.1 (by simp)) hi.2
    · rw [if_neg hi] at hs; cases hs
  | ioExit i =>
    simp only [sstep] at hs
    by_cases hi : s.io[i]? = some .idle ∧ s.stopping = true
    · rw [if_pos hi] at hs
      obtain rfl := Out.ok.inj hs
      refine ⟨h.flag, h.gen, ?_, h.idle, fun _ _ => hi.2⟩
      intro hm
      have := h.io hm
      simp [this] at hi
    · rw [if_neg hi] at hs; cases hs
  | ioStop i =>
    simp only [sstep] at hs
    split at hs <;> cases hs

theorem srun_append (as bs : List SStep) (s : Single) :
    srun s (as ++ bs) = (srun s as).bind (fun s' => srun s' bs) := by
  induction as generalizing s with
  | nil => rfl
  | cons a r ih =>
    simp only [List.cons_append, srun]
    cases sstep s a with
    | ok s' => exact ih s'
    | blocked => rfl
    | selfJoin => rfl

theorem sinv_run (as : List SStep) (s s' : Single) (h : SInv s) (hr : srun s as = some s') : SInv s' := by
  induction as generalizing s with
  | nil => simp only [srun, Option.some.injEq] at hr; exact hr ▸ h
  | cons a r ih =>
    simp only [srun] at hr
    cases hs : sstep s a with
    | ok s1 => rw [hs] at hr; exact ih s1 (sinv_step s s1 a h hs) hr
    | blocked => rw [hs] at hr; cases hr
    | selfJoin => rw [hs] at hr; cases hr

theorem sinv_init : SInv {} := ⟨by simp, by simp, fun _ => rfl, fun _ _ => rfl, by simp⟩

/-- C75: between a stop and the next reset nobody gets a manager, and once the stop has returned there is
no manager and no io thread. -/
theorem C75_nothing_after_stop (as : List SStep) (s s' : Single) (h : srun {} as = some s) (hst : s.stopped = true)
    (hg : sstep s .get = .ok s') :
    s'.out = none :: s.out ∧ (s.stopping = false → s.mgr = none ∧ s.io = []) := by
  have hi := sinv_run as {} s sinv_init h
  refine ⟨?_, fun h1 => ⟨hi.idle hst h1, hi.io (hi.idle hst h1)⟩⟩
  simp only [sstep] at hg
  split at hg
  · obtain rfl := Out.ok.inj hg; rfl
  · obtain rfl := Out.ok.inj hg
    simp [locked, hst]

/-- C75: a getter that gets something gets the current manager, with four io threads serving it. -/
theorem C75_get (as : List SStep) (s : Single) (h : srun {} as = some s) (hst : s.stopped = false) :
    ∃ s' g, sstep s .get = .ok s' ∧ s'.out = some g :: s.out ∧ s'.mgr = some g ∧ s'.io ≠ [] ∧
      (∀ g', s.mgr = some g' → g = g') := by
  have hi := sinv_run as {} s sinv_init h
  have hsp : s.stopping = false := by
    cases hc : s.stopping with
    | false => rfl
    | true => rw [hi.flag hc] at hst; cases hst
  refine ⟨locked s, (s.mgr).getD s.gen, by simp [sstep, hsp], ?_⟩
  unfold locked
  simp only [hst, Bool.false_eq_true, if_false]
  cases hm : s.mgr with
  | none => simp [hi.io hm]
  | some g =>
    by_cases hio : s.io = [] <;> simp [hio, hm]

theorem mgr_step (s s' : Single) (a : SStep) (g : Nat) (hm : s.mgr = some g) (ha : a ≠ .stopEnd)
    (hs : sstep s a = .ok s') : s'.mgr = some g ∧ s'.gen = s.gen := by
  have hl : ∀ t : Single, t.mgr = some g → (locked t).mgr = some g ∧ (locked t).gen = t.gen := by
    intro t ht
    unfold locked
    by_cases h1 : t.stopped = true
    · rw [if_pos h1]; exact ⟨ht, rfl⟩
    · rw [if_neg h1]
      by_cases h2 : t.io = [] <;> simp [ht, h2]
  cases a with
  | stopEnd => exact absurd rfl ha
  | get =>
    simp only [sstep] at hs
    split at hs
    · obtain rfl := Out.ok.inj hs; exact ⟨hm, rfl⟩
    · obtain rfl := Out.ok.inj hs; exact hl s hm
  | ioLock i =>
    simp only [sstep] at hs
    split at hs
    · obtain rfl := Out.ok.inj hs
      exact hl { s with io := s.io.set i .user } hm
    · cases hs
  | ioCheck i =>
    simp only [sstep] at hs
    split at hs
    · obtain rfl := Out.ok.inj hs
      split <;> exact ⟨hm, rfl⟩
    · cases hs
  | stopBegin => simp only [sstep] at hs; split at hs <;> first | (obtain rfl := Out.ok.inj hs; exact ⟨hm, rfl⟩) | cases hs
  | reset => simp only [sstep] at hs; split at hs <;> first | (obtain rfl := Out.ok.inj hs; exact ⟨hm, rfl⟩) | cases hs
  | ioBegin i => simp only [sstep] at hs; split at hs <;> first | (obtain rfl := Out.ok.inj hs; exact ⟨hm, rfl⟩) | cases hs
  | ioEnd i => simp only [sstep] at hs; split at hs <;> first | (obtain rfl := Out.ok.inj hs; exact ⟨hm, rfl⟩) | cases hs
  | ioExit i => simp only [sstep] at hs; split at hs <;> first | (obtain rfl := Out.ok.inj hs; exact ⟨hm, rfl⟩) | cases hs
  | ioStop i => simp only [sstep] at hs; split at hs <;> cases hs

/-- C75: all clients and servers of a process share one manager: it stays the same until a stop has
completed. -/
theorem C75_one_manager (bs : List SStep) (s s' : Single) (g : Nat) (hm : s.mgr = some g) (hb : .stopEnd ∉ bs)
    (hr : srun s bs = some s') : s'.mgr = some g ∧ s'.gen = s.gen := by
  induction bs generalizing s with
  | nil => simp only [srun, Option.some.injEq] at hr; exact hr ▸ ⟨hm, rfl⟩
  | cons a r ih =>
    simp only [srun] at hr
    cases hs : sstep s a with
    | ok s1 =>
      rw [hs] at hr
      obtain ⟨h1, h2⟩ := mgr_step s s1 a g hm (fun e => hb (e ▸ List.mem_cons_self)) hs
      obtain ⟨h3, h4⟩ := ih s1 h1 (fun e => hb (List.mem_cons_of_mem _ e)) hr
      exact ⟨h3, h4.trans h2⟩
    | blocked => rw [hs] at hr; cases hr
    | selfJoin => rw [hs] at hr; cases hr

/-! ### The end of a stop -/

/-- The steps with which io threads leave: the user's callback returns, the thread ends. -/
def leaveSteps : Nat → List Io → List SStep
  | _, [] => []
  | k, .idle :: r => .ioExit k :: leaveSteps (k + 1) r
  | k, .user :: r => .ioEnd k :: .ioExit k :: leaveSteps (k + 1) r
  | k, _ :: r => leaveSteps (k + 1) r

theorem leave_run (r pre : List Io) (s : Single) (hs : s.stopping = true) (he : s.io = pre ++ r)
    (hp : ∀ x ∈ pre, x = .exited) (hw : .want ∉ r) :
    srun s (leaveSteps pre.length r) = some { s with io := List.replicate (pre.length + r.length) .exited } := by
  induction r generalizing pre s with
  | nil =>
    simp only [leaveSteps, srun, List.append_nil, List.length_nil, Nat.add_zero] at he ⊢
    have : s.io = List.replicate pre.length .exited := by rw [he]; exact List.eq_replicate_of_mem hp
    rw [← this]
  | cons x r ih =>
    have hw' : Io.want ∉ r := fun h => hw (List.mem_cons_of_mem _ h)
    have hget : s.io[pre.length]? = some x := by rw [he]; simp
    have hset : ∀ y z, (pre ++ y :: r).set pre.length z = pre ++ z :: r := by intro y z; simp
    have hcont : ∀ s' : Single, s'.stopping = true → s'.io = pre ++ .exited :: r →
        srun s' (leaveSteps (pre.length + 1) r) =
          some { s' with io := List.replicate (pre.length + (r.length + 1)) .exited } := by
      intro s' h1 h2
      have := ih (pre ++ [.exited]) s' h1 (by rw [h2]; simp) (by
        intro y hy
        rcases List.mem_append.1 hy with hy | hy
        · exact hp y hy
        · simpa using hy) hw'
      simp only [List.length_append, List.length_cons, List.length_nil, Nat.zero_add] at this
      rw [this]
      congr 2
      congr 1
      omega
    cases x with
    | want => exact absurd List.mem_cons_self hw
    | exited =>
      simp only [leaveSteps, List.length_cons]
      exact hcont s hs he
    | idle =>
      simp only [leaveSteps, List.length_cons, srun, sstep, hget, hs, and_self, if_true]
      rw [he, hset]
      have := hcont { s with io := pre ++ .exited :: r } hs rfl
      simpa only [hs] using this
    | user =>
      simp only [leaveSteps, List.length_cons, srun, sstep, hget, if_true]
      rw [he, hset]
      have hg2 : (pre ++ Io.idle :: r)[pre.length]? = some .idle := by simp
      simp only [hg2, hs, and_self, if_true]
      rw [hset]
      have := hcont { s with io := pre ++ .exited :: r } hs rfl
      simpa only [hs] using this

/-- C75 (partial: no callback is at the lock when the stop begins): a stop returns as soon as the callbacks
that are running have returned. -/
theorem C75_stop_returns_partial (s : Single) (hs : s.stopping = true) (hw : .want ∉ s.io) :
    ∃ bs s', (∀ b ∈ bs, b = .stopEnd ∨ ∃ i, b = .ioEnd i ∨ b = .ioExit i) ∧ srun s bs = some s' ∧
      s'.stopping = false ∧ s'.mgr = none := by
  refine ⟨leaveSteps 0 s.io ++ [.stopEnd], { s with stopping := false, mgr := none, io := [] }, ?_, ?_, rfl, rfl⟩
  · have key : ∀ (r : List Io) (k : Nat), ∀ b ∈ leaveSteps k r, ∃ i, b = .ioEnd i ∨ b = .ioExit i := by
      intro r
      induction r with
      | nil => simp [leaveSteps]
      | cons x r ih =>
        intro k b hb
        cases x with
        | idle =>
          simp only [leaveSteps, List.mem_cons] at hb
          rcases hb with rfl | hb
          · exact ⟨k, Or.inr rfl⟩
          · exact ih _ b hb
        | user =>
          simp only [leaveSteps, List.mem_cons] at hb
          rcases hb with rfl | rfl | hb
          · exact ⟨k, Or.inl rfl⟩
          · exact ⟨k, Or.inr rfl⟩
          · exact ih _ b hb
        | want => exact ih _ b hb
        | exited => exact ih _ b hb
    intro b hb
    rcases List.mem_append.1 hb with hb | hb
    · exact Or.inr (key s.io 0 b hb)
    · exact Or.inl (by simpa using hb)
  · rw [srun_append]
    have := leave_run s.io [] s hs rfl (by simp) hw
    simp only [List.length_nil] at this
    rw [this]
    simp [srun, sstep, hs]

example : ∃ s, srun {} [.get, .ioBegin 2, .stopBegin] = some s ∧ s.stopping = true ∧ Io.want ∉ s.io :=
  ⟨_, rfl, rfl, by decide⟩

theorem dead_step (s s' : Single) (a : SStep) (i : Nat) (hs : s.stopping = true) (hi : s.io[i]? = some .want)
    (h : sstep s a = .ok s') : s'.stopping = true ∧ s'.io[i]? = some .want := by
  have hset : ∀ (j : Nat) (x y : Io), s.io[j]? = some x → x ≠ .want → (s.io.set j y)[i]? = some .want := by
    intro j x y hj hx
    have : j ≠ i := by
      rintro rfl
      rw [hi] at hj
      exact hx (Option.some.inj hj).symm
    rw [List.getElem?_set_ne this]; exact hi
  cases a with
  | get =>
    simp only [sstep, hs, if_true] at h
    obtain rfl := Out.ok.inj h
    exact ⟨rfl, hi⟩
  | stopBegin => simp only [sstep, hs, if_true] at h; cases h
  | stopEnd =>
    simp only [sstep] at h
    split at h
    · rename_i hc
      have hm := List.mem_of_getElem? hi
      have := List.all_eq_true.1 hc.2 _ hm
      simp at this
    · cases h
  | reset => simp only [sstep, hs, if_true] at h; cases h
  | ioBegin j =>
    simp only [sstep] at h
    split at h
    · rename_i hj; obtain rfl := Out.ok.inj h; exact ⟨hs, hset j _ _ hj (by simp)⟩
    · cases h
  | ioEnd j =>
    simp only [sstep] at h
    split at h
    · rename_i hj; obtain rfl := Out.ok.inj h; exact ⟨hs, hset j _ _ hj (by simp)⟩
    · cases h
  | ioCheck j =>
    simp only [sstep] at h
    split at h
    · rename_i hj
      obtain rfl := Out.ok.inj h
      split
      · exact ⟨hs, hi⟩
      · exact ⟨hs, hset j _ _ hj (by simp)⟩
    · cases h
  | ioLock j =>
    simp only [sstep] at h
    split at h
    · rename_i hj; rw [hs] at hj; simp at hj
    · cases h
  | ioExit j =>
    simp only [sstep] at h
    split at h
    · rename_i hj; obtain rfl := Out.ok.inj h; exact ⟨hs, hset j _ _ hj.1 (by simp)⟩
    · cases h
  | ioStop j => simp only [sstep] at h; split at h <;> cases h

/-- C75 is violated: a callback that asks for a manager (to create a client or server) while the library is
being shut down may be at the lock that the stop holds; the stop waits for the callback's thread and
never returns, whatever happens. -/
theorem C75_violated_deadlock :
    ∃ s, srun {} [.get, .ioBegin 0, .ioCheck 0, .stopBegin] = some s ∧
      ∀ bs s', srun s bs = some s' → s'.stopping = true := by
  refine ⟨_, rfl, ?_⟩
  have key : ∀ (bs : List SStep) (s s' : Single), s.stopping = true → s.io[0]? = some .want →
      srun s bs = some s' → s'.stopping = true := by
    intro bs
    induction bs with
    | nil =>
      intro s s' h1 _ h3
      simp only [srun, Option.some.injEq] at h3
      exact h3 ▸ h1
    | cons a r ih =>
      intro s s' h1 h2 h3
      simp only [srun] at h3
      cases hs : sstep s a with
      | ok s1 =>
        rw [hs] at h3
        obtain ⟨h4, h5⟩ := dead_step s s1 a 0 h1 h2 hs
        exact ih s1 s' h4 h5 h3
      | blocked => rw [hs] at h3; cases h3
      | selfJoin => rw [hs] at h3; cases h3
  intro bs s' h
  exact key bs _ s' rfl rfl h

/-- C75 is violated: a callback that shuts the library down makes its own thread wait for itself. -/
theorem C75_violated_self_stop : ∃ s, srun {} [.get, .ioBegin 1] = some s ∧ sstep s (.ioStop 1) = .selfJoin :=
  ⟨_, rfl, rfl⟩

example : ∃ s, srun {} [.get, .stopBegin, .ioExit 0, .ioExit 1, .ioExit 2, .ioExit 3, .stopEnd] = some s ∧
    s.stopped = true ∧ s.stopping = false := ⟨_, rfl, rfl, rfl⟩

/-- C75: a callback waits for itself exactly if it is running and nobody else has begun the stop; during another
stop it waits for the lock. -/
theorem C75_self_stop_iff (s : Single) (i : Nat) :
    (sstep s (.ioStop i) = .selfJoin ↔ s.io[i]? = some .user ∧ s.stopping = false) ∧
    (sstep s (.ioStop i) ≠ .selfJoin → sstep s (.ioStop i) = .blocked) := by
  simp only [sstep]
  by_cases h : s.io[i]? = some .user ∧ s.stopping = false
  · rw [if_pos h]; simp [h]
  · rw [if_neg h]; simp [h]

end Ecal.Service.Managers
