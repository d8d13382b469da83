import Verif.Shm.Ack

/-
C67  With acknowledgement switched on, a send returns only after every connected subscriber has
     processed the sample or its time is over.
-/
namespace Ecal.Shm.Ack

theorem upd_self (f : Nat → Proc) (p : Nat) (v : Proc) : upd f p v p = v := by simp [upd]
theorem upd_ne (f : Nat → Proc) {p q : Nat} (v : Proc) (h : q ≠ p) : upd f p v q = f q := by
  simp [upd, h]

/-- No sample is on the way to the process. -/
def Quiet (q : Proc) : Prop :=
  q.snd = false ∧ q.ack = false ∧ q.pending = false ∧ q.busy = none

/-- The process was told about sample `n`. -/
def Told (n : Nat) (q : Proc) : Prop :=
  (q.snd = true ∧ q.ack = false ∧ q.pending = false ∧ q.busy = none ∧ q.last < n) ∨
  (q.snd = false ∧ q.ack = false ∧ q.pending = true ∧ q.busy = none ∧ q.last < n) ∨
  (q.snd = false ∧ q.ack = false ∧ q.pending = false ∧ q.busy = some n) ∨
  (q.snd = false ∧ q.ack = true ∧ q.pending = false ∧ q.busy = none ∧ n ∈ q.done)

/-- What holds for a process that never missed its time. -/
def Ok (s : St) (p : Nat) : Prop :=
  s.conn.Nodup ∧ (s.procs p).invalid = false ∧ (s.procs p).last ≤ s.file ∧
  match s.phase with
  | .idle => Quiet (s.procs p)
  | .written n => Quiet (s.procs p) ∧ (s.procs p).last < n ∧ s.file = n
  | .eat n todo => Quiet (s.procs p) ∧ (s.procs p).last < n ∧ s.file = n ∧ ∃ l, s.conn = l ++ todo
  | .fire n todo => s.file = n ∧ (∃ l, s.conn = l ++ todo) ∧
      (if p ∈ s.conn ∧ p ∉ todo then Told n (s.procs p)
       else Quiet (s.procs p) ∧ (s.procs p).last < n)
  | .wait n todo => s.file = n ∧ (∃ l, s.conn = l ++ todo) ∧
      (if p ∈ todo then Told n (s.procs p)
       else Quiet (s.procs p) ∧ (p ∈ s.conn → n ∈ (s.procs p).done))

theorem ok_init (p : Nat) : Ok {} p := by
  simp [Ok, Quiet]

/-- The step is not the end of the waiting time of process `p`. -/
def NotLate (s : St) (a : Step) (p : Nat) : Prop :=
  a = .waitTimeout → ∀ n r, s.phase ≠ .wait n (p :: r)

/-- In no send of the run the waiting time of process `p` ends before its acknowledgement. -/
def NeverLate (s : St) : List Step → Nat → Prop
  | [], _ => True
  | a :: r, p => NotLate s a p ∧ ∀ s', step s a = some s' → NeverLate s' r p

theorem quiet_wake {q : Proc} (h : Quiet q) : ¬ (q.busy = none ∧ q.pending = false ∧ q.snd = true) := by
  rintro ⟨_, _, h3⟩; rw [h.1] at h3; cases h3
theorem quiet_read {q : Proc} (h : Quiet q) : ¬ (q.busy = none ∧ q.pending = true) := by
  rintro ⟨_, h3⟩; rw [h.2.2.1] at h3; cases h3

/-- Told processes stay told. -/
theorem told_wake {n : Nat} {q : Proc} (h : Told n q)
    (hw : q.busy = none ∧ q.pending = false ∧ q.snd = true) :
    Told n { q with snd := false, pending := true } := by
  obtain ⟨h1, h2, h3⟩ := hw
  rcases h with h | h | h | h
  · exact Or.inr (Or.inl ⟨rfl, h.2.1, rfl, h1, h.2.2.2.2⟩)
  · rw [h.1] at h3; cases h3
  · rw [h.1] at h3; cases h3
  · rw [h.1] at h3; cases h3

theorem told_read {n : Nat} {q : Proc} (h : Told n q) (hr : q.busy = none ∧ q.pending = true) :
    q.last < n ∧ Told n { q with pending := false, last := n, busy := some n } := by
  obtain ⟨h1, h2⟩ := hr
  rcases h with h | h | h | h
  · rw [h.2.2.1] at h2; cases h2
  · exact ⟨h.2.2.2.2, Or.inr (Or.inr (Or.inl ⟨h.1, h.2.1, rfl, rfl⟩))⟩
  · rw [h.2.2.1] at h2; cases h2
  · rw [h.2.2.1] at h2; cases h2

theorem told_finish {n m : Nat} {q : Proc} (h : Told n q) (hb : q.busy = some m) :
    Told n { q with busy := none, done := q.done ++ [m], ack := true } := by
  rcases h with h | h | h | h
  · rw [h.2.2.2.1] at hb; cases hb
  · rw [h.2.2.2.1] at hb; cases hb
  · rw [h.2.2.2] at hb; cases hb
    exact Or.inr (Or.inr (Or.inr ⟨h.1, rfl, h.2.2.1, rfl, by simp⟩))
  · rw [h.2.2.2.1] at hb; cases hb

/-- The part of `Ok` about the phase, for another state of the process. -/
def PhaseOk (conn : List Nat) (file : Nat) (ph : Phase) (p : Nat) (q : Proc) : Prop :=
  match ph with
  | .idle => Quiet q
  | .written n => Quiet q ∧ q.last < n ∧ file = n
  | .eat n todo => Quiet q ∧ q.last < n ∧ file = n ∧ ∃ l, conn = l ++ todo
  | .fire n todo => file = n ∧ (∃ l, conn = l ++ todo) ∧
      (if p ∈ conn ∧ p ∉ todo then Told n q else Quiet q ∧ q.last < n)
  | .wait n todo => file = n ∧ (∃ l, conn = l ++ todo) ∧
      (if p ∈ todo then Told n q else Quiet q ∧ (p ∈ conn → n ∈ q.done))

theorem ok_iff (s : St) (p : Nat) :
    Ok s p ↔ s.conn.Nodup ∧ (s.procs p).invalid = false ∧ (s.procs p).last ≤ s.file ∧
      PhaseOk s.conn s.file s.phase p (s.procs p) := by
  unfold Ok PhaseOk
  cases s.phase <;> rfl

/-- A step of the observer of `p`: either the process is quiet, then the step is impossible, or it
was told about the sample in the file. -/
theorem phase_cases {conn : List Nat} {file : Nat} {ph : Phase} {p : Nat} {q : Proc}
    (h : PhaseOk conn file ph p q) :
    Quiet q ∨ (Told file q ∧ ∀ q', Told file q' → PhaseOk conn file ph p q') := by
  unfold PhaseOk at h ⊢
  cases ph with
  | idle => exact Or.inl h
  | written n => exact Or.inl h.1
  | eat n todo => exact Or.inl h.1
  | fire n todo =>
    obtain ⟨h1, h2, h3⟩ := h
    subst h1
    by_cases hc : p ∈ conn ∧ p ∉ todo
    · rw [if_pos hc] at h3
      refine Or.inr ⟨h3, fun q' hq => ⟨rfl, h2, ?_⟩⟩
      rw [if_pos hc]; exact hq
    · rw [if_neg hc] at h3; exact Or.inl h3.1
  | wait n todo =>
    obtain ⟨h1, h2, h3⟩ := h
    subst h1
    by_cases hc : p ∈ todo
    · rw [if_pos hc] at h3
      refine Or.inr ⟨h3, fun q' hq => ⟨rfl, h2, ?_⟩⟩
      rw [if_pos hc]; exact hq
    · rw [if_neg hc] at h3; exact Or.inl h3.1

theorem ok_step (s s' : St) (a : Step) (p : Nat) (h : Ok s p) (hl : NotLate s a p)
    (hs : step s a = some s') : Ok s' p := by
  rw [ok_iff] at h ⊢
  obtain ⟨hn, hi, hf, hp⟩ := h
  cases a with
  | connect c =>
    simp only [step] at hs
    have base : ∀ conn', conn'.Nodup → (∃ n, s.phase = .written n) ∨ s.phase = .idle →
        Ok { s with conn := conn', procs := upd s.procs c { s.procs c with invalid := false } } p := by
      intro conn' hn' hph
      rw [ok_iff]
      refine ⟨hn', ?_, ?_, ?_⟩
      · by_cases hc : p = c
        · subst hc; simp [upd_self]
        · simp [upd_ne _ _ hc, hi]
      · by_cases hc : p = c
        · subst hc; simpa [upd_self] using hf
        · simpa [upd_ne _ _ hc] using hf
      · have hq : PhaseOk conn' s.file s.phase p (s.procs p) := by
          rcases hph with ⟨n, e⟩ | e
          · rw [e] at hp ⊢; exact hp
          · rw [e] at hp ⊢; exact hp
        by_cases hc : p = c
        · subst hc
          simp only [upd_self]
          rcases hph with ⟨n, e⟩ | e
          · rw [e] at hq ⊢; exact hq
          · rw [e] at hq ⊢; exact hq
        · simp only [upd_ne _ _ hc]; exact hq
    have fin : ∀ (ph : Phase) (_ : s.phase = ph)
        (hph : (∃ n, s.phase = .written n) ∨ s.phase = .idle),
        (if c ∈ s.conn then some { s with phase := ph, procs := upd s.procs c { s.procs c with invalid := false } }
         else some { s with phase := ph, conn := s.conn ++ [c], procs := upd s.procs c { s.procs c with invalid := false } })
          = some s' → Ok s' p := by
      intro ph hphe hph hs
      subst hphe
      by_cases hc : c ∈ s.conn
      · rw [if_pos hc] at hs; cases hs; exact base s.conn hn hph
      · rw [if_neg hc] at hs; cases hs
        exact base _ (List.nodup_append.2 ⟨hn, by simp, by
          intro a ha b hb; simp at hb; subst hb; exact fun e => hc (e ▸ ha)⟩) hph
    rw [← ok_iff]
    cases e : s.phase with
    | idle => rw [e] at hs; exact fin _ e (Or.inr e) hs
    | written n => rw [e] at hs; exact fin _ e (Or.inl ⟨n, e⟩) hs
    | eat n t => rw [e] at hs; cases hs
    | fire n t => rw [e] at hs; cases hs
    | wait n t => rw [e] at hs; cases hs
  | disconnect c =>
    simp only [step] at hs
    cases e : s.phase with
    | idle =>
      rw [e] at hs hp; simp only [Option.some.injEq] at hs; subst hs
      exact ⟨hn.erase c, hi, hf, hp⟩
    | written n =>
      rw [e] at hs hp; simp only [Option.some.injEq] at hs; subst hs
      exact ⟨hn.erase c, hi, hf, hp⟩
    | eat n t => rw [e] at hs; cases hs
    | fire n t => rw [e] at hs; cases hs
    | wait n t => rw [e] at hs; cases hs
  | write n =>
    simp only [step] at hs
    cases e : s.phase with
    | idle =>
      rw [e] at hs hp
      by_cases hlt : s.file < n
      · simp only [hlt, if_true, Option.some.injEq] at hs; subst hs
        exact ⟨hn, hi, Nat.le_of_lt (Nat.lt_of_le_of_lt hf hlt), hp, Nat.lt_of_le_of_lt hf hlt, rfl⟩
      · simp [hlt] at hs
    | written n => rw [e] at hs; cases hs
    | eat n t => rw [e] at hs; cases hs
    | fire n t => rw [e] at hs; cases hs
    | wait n t => rw [e] at hs; cases hs
  | startSync =>
    simp only [step] at hs
    cases e : s.phase with
    | written n =>
      rw [e] at hs hp; simp only [Option.some.injEq] at hs; subst hs
      exact ⟨hn, hi, hf, hp.1, hp.2.1, hp.2.2, [], rfl⟩
    | idle => rw [e] at hs; cases hs
    | eat n t => rw [e] at hs; cases hs
    | fire n t => rw [e] at hs; cases hs
    | wait n t => rw [e] at hs; cases hs
  | eatOne =>
    simp only [step] at hs
    cases e : s.phase with
    | eat n t =>
      cases t with
      | nil => rw [e] at hs; cases hs
      | cons c r =>
        rw [e] at hs hp
        obtain ⟨hq, hlt, hfe, l, hl'⟩ := hp
        by_cases hc : (s.procs c).ack
        · simp only [hc, if_true, Option.some.injEq] at hs; subst hs
          have hne : p ≠ c := by
            rintro rfl; rw [hq.2.1] at hc; cases hc
          refine ⟨hn, ?_, ?_, ?_⟩
          · simpa [upd_ne _ _ hne] using hi
          · simpa [upd_ne _ _ hne] using hf
          · simp only [upd_ne _ _ hne]
            exact ⟨hq, hlt, hfe, l, hl'⟩
        · simp only [hc, Bool.false_eq_true, if_false, Option.some.injEq] at hs; subst hs
          exact ⟨hn, hi, hf, hq, hlt, hfe, l ++ [c], by simpa using hl'⟩
    | idle => rw [e] at hs; cases hs
    | written n => rw [e] at hs; cases hs
    | fire n t => rw [e] at hs; cases hs
    | wait n t => rw [e] at hs; cases hs
  | eatEnd =>
    simp only [step] at hs
    cases e : s.phase with
    | eat n t =>
      cases t with
      | cons c r => rw [e] at hs; cases hs
      | nil =>
        rw [e] at hs hp; simp only [Option.some.injEq] at hs; subst hs
        obtain ⟨hq, hlt, hfe, _⟩ := hp
        refine ⟨hn, hi, hf, hfe, ⟨[], rfl⟩, ?_⟩
        rw [if_neg (fun hc => hc.2 hc.1)]
        exact ⟨hq, hlt⟩
    | idle => rw [e] at hs; cases hs
    | written n => rw [e] at hs; cases hs
    | fire n t => rw [e] at hs; cases hs
    | wait n t => rw [e] at hs; cases hs
  | fireOne =>
    simp only [step] at hs
    cases e : s.phase with
    | fire n t =>
      cases t with
      | nil => rw [e] at hs; cases hs
      | cons c r =>
        rw [e] at hs hp; simp only [Option.some.injEq] at hs; subst hs
        obtain ⟨hfe, ⟨l, hl'⟩, hq⟩ := hp
        have hcn : c ∉ r := by
          rw [hl'] at hn
          exact (List.nodup_cons.1 (List.nodup_append.1 hn).2.1).1
        by_cases hc : p = c
        · subst hc
          rw [if_neg (fun h => h.2 List.mem_cons_self)] at hq
          refine ⟨hn, by simpa [upd_self] using hi, by simpa [upd_self] using hf, hfe,
            ⟨l ++ [p], by simpa using hl'⟩, ?_⟩
          rw [if_pos ⟨by rw [hl']; simp, hcn⟩]
          simp only [upd_self]
          exact Or.inl ⟨rfl, hq.1.2.1, hq.1.2.2.1, hq.1.2.2.2, hq.2⟩
        · refine ⟨hn, by simpa [upd_ne _ _ hc] using hi, by simpa [upd_ne _ _ hc] using hf, hfe,
            ⟨l ++ [c], by simpa using hl'⟩, ?_⟩
          simp only [upd_ne _ _ hc]
          by_cases hm : p ∈ s.conn ∧ p ∉ r
          · rw [if_pos ⟨hm.1, by simp [hc, hm.2]⟩] at hq
            rw [if_pos hm]; exact hq
          · rw [if_neg (by rintro ⟨a, b⟩; exact hm ⟨a, fun hr => b (List.mem_cons_of_mem _ hr)⟩)] at hq
            rw [if_neg hm]; exact hq
    | idle => rw [e] at hs; cases hs
    | written n => rw [e] at hs; cases hs
    | eat n t => rw [e] at hs; cases hs
    | wait n t => rw [e] at hs; cases hs
  | fireEnd =>
    simp only [step] at hs
    cases e : s.phase with
    | fire n t =>
      cases t with
      | cons c r => rw [e] at hs; cases hs
      | nil =>
        rw [e] at hs hp; simp only [Option.some.injEq] at hs; subst hs
        obtain ⟨hfe, _, hq⟩ := hp
        refine ⟨hn, hi, hf, hfe, ⟨[], rfl⟩, ?_⟩
        by_cases hc : p ∈ s.conn
        · rw [if_pos ⟨hc, by simp⟩] at hq
          rw [if_pos hc]; exact hq
        · rw [if_neg (fun h => hc h.1)] at hq
          rw [if_neg hc]; exact ⟨hq.1, fun h => absurd h hc⟩
    | idle => rw [e] at hs; cases hs
    | written n => rw [e] at hs; cases hs
    | eat n t => rw [e] at hs; cases hs
    | wait n t => rw [e] at hs; cases hs
  | waitSkip =>
    simp only [step] at hs
    cases e : s.phase with
    | wait n t =>
      cases t with
      | nil => rw [e] at hs; cases hs
      | cons c r =>
        rw [e] at hs hp
        obtain ⟨hfe, ⟨l, hl'⟩, hq⟩ := hp
        by_cases hc : (s.procs c).invalid
        · simp only [hc, if_true, Option.some.injEq] at hs; subst hs
          have hne : p ≠ c := by rintro rfl; rw [hi] at hc; cases hc
          refine ⟨hn, hi, hf, hfe, ⟨l ++ [c], by simpa using hl'⟩, ?_⟩
          simpa [hne] using hq
        · simp [hc] at hs
    | idle => rw [e] at hs; cases hs
    | written n => rw [e] at hs; cases hs
    | eat n t => rw [e] at hs; cases hs
    | fire n t => rw [e] at hs; cases hs
  | waitAck =>
    simp only [step] at hs
    cases e : s.phase with
    | wait n t =>
      cases t with
      | nil => rw [e] at hs; cases hs
      | cons c r =>
        rw [e] at hs hp
        obtain ⟨hfe, ⟨l, hl'⟩, hq⟩ := hp
        have hcn : c ∉ r := by
          rw [hl'] at hn
          exact (List.nodup_cons.1 (List.nodup_append.1 hn).2.1).1
        by_cases hc : (s.procs c).invalid = false ∧ (s.procs c).ack = true
        · simp only [if_pos hc, Option.some.injEq] at hs; subst hs
          by_cases hpc : p = c
          · subst hpc
            rw [if_pos List.mem_cons_self] at hq
            refine ⟨hn, by simpa [upd_self] using hi, by simpa [upd_self] using hf, hfe,
              ⟨l ++ [p], by simpa using hl'⟩, ?_⟩
            rw [if_neg hcn]
            simp only [upd_self]
            rcases hq with hq | hq | hq | hq
            · rw [hq.2.1] at hc; cases hc.2
            · rw [hq.2.1] at hc; cases hc.2
            · rw [hq.2.1] at hc; cases hc.2
            · exact ⟨⟨hq.1, rfl, hq.2.2.1, hq.2.2.2.1⟩, fun _ => hq.2.2.2.2⟩
          · refine ⟨hn, by simpa [upd_ne _ _ hpc] using hi, by simpa [upd_ne _ _ hpc] using hf, hfe,
              ⟨l ++ [c], by simpa using hl'⟩, ?_⟩
            simp only [upd_ne _ _ hpc]
            simpa [hpc] using hq
        · simp [hc] at hs
    | idle => rw [e] at hs; cases hs
    | written n => rw [e] at hs; cases hs
    | eat n t => rw [e] at hs; cases hs
    | fire n t => rw [e] at hs; cases hs
  | waitTimeout =>
    simp only [step] at hs
    cases e : s.phase with
    | wait n t =>
      cases t with
      | nil => rw [e] at hs; cases hs
      | cons c r =>
        have hpc : p ≠ c := by rintro rfl; exact hl rfl n r e
        rw [e] at hs hp
        obtain ⟨hfe, ⟨l, hl'⟩, hq⟩ := hp
        by_cases hc : (s.procs c).invalid = false ∧ (s.procs c).ack = false
        · simp only [if_pos hc, Option.some.injEq] at hs; subst hs
          refine ⟨hn, by simpa [upd_ne _ _ hpc] using hi, by simpa [upd_ne _ _ hpc] using hf, hfe,
            ⟨l ++ [c], by simpa using hl'⟩, ?_⟩
          simp only [upd_ne _ _ hpc]
          simpa [hpc] using hq
        · simp [hc] at hs
    | idle => rw [e] at hs; cases hs
    | written n => rw [e] at hs; cases hs
    | eat n t => rw [e] at hs; cases hs
    | fire n t => rw [e] at hs; cases hs
  | waitEnd =>
    simp only [step] at hs
    cases e : s.phase with
    | wait n t =>
      cases t with
      | cons c r => rw [e] at hs; cases hs
      | nil =>
        rw [e] at hs hp; simp only [Option.some.injEq] at hs; subst hs
        obtain ⟨hfe, _, hq⟩ := hp
        rw [if_neg (by simp)] at hq
        exact ⟨hn, hi, hf, hq.1⟩
    | idle => rw [e] at hs; cases hs
    | written n => rw [e] at hs; cases hs
    | eat n t => rw [e] at hs; cases hs
    | fire n t => rw [e] at hs; cases hs
  | wake c =>
    simp only [step] at hs
    by_cases hw : (s.procs c).busy = none ∧ (s.procs c).pending = false ∧ (s.procs c).snd = true
    · rw [if_pos hw] at hs; simp only [Option.some.injEq] at hs; subst hs
      by_cases hc : p = c
      · subst hc
        rcases phase_cases hp with hq | ⟨hq, hq'⟩
        · exact absurd hw (quiet_wake hq)
        · exact ⟨hn, by simpa [upd_self] using hi, by simpa [upd_self] using hf, by
            simp only [upd_self]; exact hq' _ (told_wake hq hw)⟩
      · exact ⟨hn, by simpa [upd_ne _ _ hc] using hi, by simpa [upd_ne _ _ hc] using hf, by
          simpa [upd_ne _ _ hc] using hp⟩
    · rw [if_neg hw] at hs; cases hs
  | read c =>
    simp only [step] at hs
    by_cases hw : (s.procs c).busy = none ∧ (s.procs c).pending = true
    · rw [if_pos hw] at hs
      by_cases hc : p = c
      · subst hc
        rcases phase_cases hp with hq | ⟨hq, hq'⟩
        · exact absurd hw (quiet_read hq)
        · obtain ⟨h1, h2⟩ := told_read hq hw
          rw [if_pos h1] at hs; simp only [Option.some.injEq] at hs; subst hs
          exact ⟨hn, by simpa [upd_self] using hi, by simp [upd_self], by
            simp only [upd_self]; exact hq' _ h2⟩
      · by_cases hlt : (s.procs c).last < s.file
        · rw [if_pos hlt] at hs; simp only [Option.some.injEq] at hs; subst hs
          exact ⟨hn, by simpa [upd_ne _ _ hc] using hi, by simpa [upd_ne _ _ hc] using hf, by
            simpa [upd_ne _ _ hc] using hp⟩
        · rw [if_neg hlt] at hs; simp only [Option.some.injEq] at hs; subst hs
          exact ⟨hn, by simpa [upd_ne _ _ hc] using hi, by simpa [upd_ne _ _ hc] using hf, by
            simpa [upd_ne _ _ hc] using hp⟩
    · rw [if_neg hw] at hs; cases hs
  | finish c =>
    simp only [step] at hs
    cases hb : (s.procs c).busy with
    | none => rw [hb] at hs; cases hs
    | some m =>
      rw [hb] at hs; simp only [Option.some.injEq] at hs; subst hs
      by_cases hc : p = c
      · subst hc
        rcases phase_cases hp with hq | ⟨hq, hq'⟩
        · rw [hq.2.2.2] at hb; cases hb
        · exact ⟨hn, by simpa [upd_self] using hi, by simpa [upd_self] using hf, by
            simp only [upd_self]; exact hq' _ (told_finish hq hb)⟩
      · exact ⟨hn, by simpa [upd_ne _ _ hc] using hi, by simpa [upd_ne _ _ hc] using hf, by
          simpa [upd_ne _ _ hc] using hp⟩

theorem ok_run (as : List Step) (s s' : St) (p : Nat) (h : Ok s p) (hl : NeverLate s as p)
    (hr : run s as = some s') : Ok s' p := by
  induction as generalizing s with
  | nil => simp only [run, Option.some.injEq] at hr; exact hr ▸ h
  | cons a r ih =>
    simp only [run, Option.bind_eq_some_iff] at hr
    obtain ⟨s1, h1, h2⟩ := hr
    exact ih s1 (ok_step s s1 a p h hl.1 h1) (hl.2 s1 h1) h2

/-- C67 (partial: for processes that never exceeded the waiting time): when a send returns, every
connected process has completely processed the sample. -/
theorem C67_acknowledged_partial (as : List Step) (s s' : St) (p n : Nat)
    (hl : NeverLate {} as p) (hr : run {} as = some s) (hw : s.phase = .wait n [])
    (he : step s .waitEnd = some s') (hc : p ∈ s.conn) :
    n ∈ (s.procs p).done ∧ s'.phase = .idle := by
  have h := ok_run as {} s p (ok_init p) hl hr
  rw [ok_iff, hw] at h
  obtain ⟨_, _, _, _, _, h3⟩ := h
  rw [if_neg (by simp)] at h3
  refine ⟨h3.2 hc, ?_⟩
  simp only [step, hw, Option.some.injEq] at he
  subst he; rfl

/-- C67: between sends, nothing is on the way to such a process: the next send starts clean. -/
theorem C67_quiet_between (as : List Step) (s : St) (p : Nat)
    (hl : NeverLate {} as p) (hr : run {} as = some s) (hw : s.phase = .idle) :
    (s.procs p).busy = none ∧ (s.procs p).snd = false ∧ (s.procs p).ack = false := by
  have h := ok_run as {} s p (ok_init p) hl hr
  rw [ok_iff, hw] at h
  obtain ⟨_, _, _, h3⟩ := h
  exact ⟨h3.2.2.2, h3.1, h3.2.1⟩

/-- C67 is violated after a late acknowledgement: process 7 needs too long for sample 1, then
registers again; its acknowledgement of sample 1 ends the waiting for sample 2, which it has not
even read. -/
theorem C67_violated_late_ack :
    ∃ as s, run {} as = some s ∧ s.phase = .wait 2 [] ∧ s.conn = [7] ∧
      (s.procs 7).invalid = false ∧ (s.procs 7).done = [1] ∧ (s.procs 7).snd = true :=
  ⟨[.connect 7, .write 1, .startSync, .eatOne, .eatEnd, .fireOne, .fireEnd, .wake 7, .read 7,
      .waitTimeout, .waitEnd, .connect 7, .write 2, .startSync, .eatOne, .eatEnd, .fireOne, .fireEnd,
      .finish 7, .waitAck], _, rfl, rfl, rfl, rfl, rfl, rfl⟩

/-- C67: a process that was late is not waited for until it registers again. -/
theorem C67_late_not_waited (s s' : St) (a : Step) (p n : Nat) (r : List Nat)
    (hw : s.phase = .wait n (p :: r)) (hi : (s.procs p).invalid = true) (hs : step s a = some s')
    (hd : s'.phase ≠ s.phase) : a = .waitSkip := by
  cases a <;> simp [step, hw, hi] at hs ⊢
  case wake q => rw [← hs.2] at hd; exact absurd hw.symm (by simpa using hd)
  case read q =>
    obtain ⟨_, hs⟩ := hs
    split at hs <;> (simp only [Option.some.injEq] at hs; rw [← hs] at hd; exact hd hw.symm)
  case finish q =>
    split at hs
    · simp only [Option.some.injEq] at hs; rw [← hs] at hd; exact hd hw.symm
    · cases hs

theorem waits_le (timeout : Nat) (l : List (Nat × Nat)) (e w : Nat) (h : w ≤ e) (ht : w ≤ timeout) :
    (waits timeout e w l).2 ≤ timeout := by
  induction l generalizing e w with
  | nil => exact ht
  | cons a r ih =>
    obtain ⟨gap, want⟩ := a
    simp only [waits, timeLeft]
    exact ih _ _ (by omega) (by omega)

/-- C67: all waits of one send together take no longer than the configured time, whatever the
number of connected processes. -/
theorem C67_bounded_wait (timeout : Nat) (l : List (Nat × Nat)) : (waits timeout 0 0 l).2 ≤ timeout :=
  waits_le timeout l 0 0 (Nat.le_refl _) (Nat.zero_le _)

/-- The hypotheses of the C67 theorems are met: two processes, two samples. -/
example :
    ∃ s, run {} [.connect 7, .connect 8, .write 1, .startSync, .eatOne, .eatOne, .eatEnd, .fireOne,
      .fireOne, .fireEnd, .wake 8, .read 8, .wake 7, .read 7, .finish 7, .waitAck, .finish 8, .waitAck,
      .waitEnd, .write 2, .startSync, .eatOne, .eatOne, .eatEnd, .fireOne, .wake 7, .read 7, .fireOne,
      .fireEnd, .finish 7, .wake 8, .read 8, .finish 8, .waitAck, .waitAck] = some s ∧
      s.phase = .wait 2 [] ∧ s.conn = [7, 8] ∧ (s.procs 7).done = [1, 2] ∧ (s.procs 8).done = [1, 2] :=
  ⟨_, rfl, rfl, rfl, rfl, rfl⟩

theorem neverLate_of_no_timeout (as : List Step) (s : St) (p : Nat) (h : Step.waitTimeout ∉ as) :
    NeverLate s as p := by
  induction as generalizing s with
  | nil => trivial
  | cons a r ih =>
    simp only [List.mem_cons, not_or] at h
    exact ⟨fun e => absurd e.symm h.1, fun s' _ => ih s' h.2⟩

/-- **C67** A process that does not answer in time is marked, and stays marked until it registers again: no later
send waits for it. -/
theorem C67_late_is_marked (s s1 s2 : St) (p n : Nat) (r : List Nat) (as : List Step)
    (hw : s.phase = .wait n (p :: r)) (h1 : step s .waitTimeout = some s1) (hc : .connect p ∉ as)
    (h2 : run s1 as = some s2) : (s2.procs p).invalid = true := by
  have key : ∀ (as : List Step) (a b : St), .connect p ∉ as → (a.procs p).invalid = true → run a as = some b →
      (b.procs p).invalid = true := by
    intro as
    induction as with
    | nil => intro a b _ hi hr; simp only [run, Option.some.injEq] at hr; exact hr ▸ hi
    | cons x as ih =>
      intro a b hn hi hr
      simp only [run, Option.bind_eq_some_iff] at hr
      obtain ⟨c, h3, h4⟩ := hr
      refine ih c b (fun h => hn (by simp [h])) ?_ h4
      have hx : x ≠ .connect p := fun h => hn (by simp [h])
      have hu : ∀ (q : Nat) (v : Proc), (q = p → v.invalid = true) → (upd a.procs q v p).invalid = true := by
        intro q v hv
        unfold upd
        by_cases hq : p = q
        · rw [if_pos hq]; exact hv hq.symm
        · rw [if_neg hq]; exact hi
      cases x with
      | connect q =>
        have hq : q ≠ p := by rintro rfl; exact hx rfl
        simp only [step] at h3
        split at h3
        · split at h3 <;> (obtain rfl := Option.some.inj h3; exact hu q _ (fun h => absurd h hq))
        · split at h3 <;> (obtain rfl := Option.some.inj h3; exact hu q _ (fun h => absurd h hq))
        · cases h3
      | _ =>
        simp only [step] at h3
        repeat' (split at h3)
        all_goals first
          | (obtain rfl := Option.some.inj h3; first | exact hi | (apply hu; intro hq; simp [hq, hi]; done))
          | cases h3
  refine key as s1 s2 hc ?_ h2
  simp only [step, hw] at h1
  split at h1
  · obtain rfl := Option.some.inj h1; simp [upd]
  · cases h1

/-- **C67** A signal without a new sample is used up: nothing is processed and nothing is acknowledged. -/
theorem C67_stale_signal (s s' : St) (p : Nat) (ho : s.file ≤ (s.procs p).last) (h : step s (.read p) = some s') :
    (s'.procs p).pending = false ∧ (s'.procs p).busy = none ∧ (s'.procs p).done = (s.procs p).done ∧
      (s'.procs p).ack = (s.procs p).ack ∧ s'.phase = s.phase := by
  simp only [step] at h
  split at h
  · next hb =>
    rw [if_neg (by omega)] at h
    obtain rfl := Option.some.inj h
    simp [upd, hb.1]
  · cases h

end Ecal.Shm.Ack
