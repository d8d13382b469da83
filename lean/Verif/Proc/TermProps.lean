import Verif.Proc.Term

/-! # C123: the result of starting a process in a terminal window -/

namespace Ecal.Proc.Term

/-! ## Vocabulary of the statements -/

/-- The program was executed. -/
def Started (s : State) : Prop := s.p = .running ∨ s.p = .ended

/-- Main has returned. -/
def Returned (s : State) : Prop := s.m = .done

instance (s : State) : Decidable (Returned s) := inferInstanceAs (Decidable (s.m = .done))

/-- No process id can come any more. -/
def Nobody (s : State) : Prop :=
  s.g = .none ∨ ((s.g = .openFifo ∨ s.g = .opening ∨ s.g = .write ∨ s.g = .dead) ∧ s.p = .none) ∨ s.p = .dead

/-- In the run the time limit ends the wait for the process id only if no process id can come any more. -/
def Prompt (e : Env) : State → List Label → Prop
  | _, [] => True
  | s, l :: ls => (l = .timeout → Nobody s) ∧ match step e s l with
    | none => True
    | some s' => Prompt e s' ls

/-- In the run the window is not closed while the stub is at work. -/
def Calm (e : Env) : State → List Label → Prop
  | _, [] => True
  | s, l :: ls => (l = .close → s.p = .none ∨ s.p = .dead ∨ Started s) ∧ match step e s l with
    | none => True
    | some s' => Calm e s' ls

/-! ## Runs and invariants -/

theorem run_inv (e : Env) (P : State → Prop) (ok : State → Label → Prop)
    (hstep : ∀ s l s', P s → ok s l → step e s l = some s' → P s')
    (s : State) (ls : List Label) (t : State) (h : P s) (hr : run e s ls = some t)
    (hok : ∀ l₁ l l₂ s', ls = l₁ ++ l :: l₂ → run e s l₁ = some s' → ok s' l) : P t := by
  induction ls generalizing s with
  | nil => simp only [run, Option.some.injEq] at hr; exact hr ▸ h
  | cons l ls ih =>
    simp only [run] at hr
    cases hs : step e s l with
    | none => rw [hs] at hr; cases hr
    | some s' =>
      rw [hs] at hr
      refine ih s' (hstep s l s' h (hok [] l ls s rfl rfl) hs) hr ?_
      intro l₁ l' l₂ s'' hl hrr
      refine hok (l :: l₁) l' l₂ s'' (by rw [hl]; rfl) ?_
      simp only [run, hs]; exact hrr

theorem run_inv_all (e : Env) (P : State → Prop)
    (hstep : ∀ s l s', P s → step e s l = some s' → P s')
    (s : State) (ls : List Label) (t : State) (h : P s) (hr : run e s ls = some t) : P t :=
  run_inv e P (fun _ _ => True) (fun s l s' hp _ hs => hstep s l s' hp hs) s ls t h hr (fun _ _ _ _ _ _ => trivial)

theorem run_inv_prompt (e : Env) (P : State → Prop)
    (hstep : ∀ s l s', P s → l ≠ .interrupt → (l = .timeout → Nobody s) → step e s l = some s' → P s')
    (s : State) (ls : List Label) (t : State) (h : P s) (hr : run e s ls = some t) (hi : .interrupt ∉ ls)
    (hp : Prompt e s ls) : P t := by
  induction ls generalizing s with
  | nil => simp only [run, Option.some.injEq] at hr; exact hr ▸ h
  | cons l ls ih =>
    simp only [run] at hr
    simp only [Prompt] at hp
    cases hs : step e s l with
    | none => rw [hs] at hr; cases hr
    | some s' =>
      rw [hs] at hr hp
      exact ih s' (hstep s l s' h (fun h => hi (h ▸ List.mem_cons_self)) hp.1 hs) hr (fun h => hi (List.mem_cons_of_mem _ h)) hp.2

/-- Invariant of all runs. -/
structure Inv (e : Env) (s : State) : Prop where
  got : s.got = 0 ∨ s.got = e.pid
  data : s.data = none ∨ s.data = some e.pid ∨ s.data = some 0
  early : s.m = .mkfifo ∨ s.m = .fork ∨ s.m = .wait ∨ s.m = .openFifo ∨ s.m = .select ∨ s.m = .read → s.got = 0
  cnone : s.m = .mkfifo ∨ s.m = .fork ↔ s.c = .none ∧ ¬ (s.m = .done)
  cfork : s.c = .fork ∨ s.c = .none → s.g = .none
  term : s.p ≠ .none → s.g = .term ∨ s.g = .dead
  sent : s.got ≠ 0 ∨ (s.data ≠ none ∧ s.data ≠ some 0) → s.p = .exec ∨ s.p = .errWrite ∨ s.p = .running ∨ s.p = .ended ∨ s.p = .dead
  zero : s.data = some 0 → e.pid = 0 ∨ (s.g = .dead ∧ s.p = .none)
  nostub : s.g = .openFifo ∨ s.g = .opening ∨ s.g = .write → s.p = .none
  content : s.content ≠ 0 → s.p = .dead
  hold : s.held = true → s.p = .openFifo ∨ s.p = .opening ∨ s.p = .write ∨ s.p = .exec ∨ s.p = .errWrite
  run : s.p = .running ∨ s.p = .ended → e.execErr = 0
  err : s.p = .errWrite → e.execErr ≠ 0
  late : s.m = .openLock ∨ s.m = .flock ∨ s.m = .readErr → s.got ≠ 0
  rd : s.m = .read → s.data ≠ none
  dn : s.m = .done → s.c = .none → s.got = 0
  alive : s.g = .dead → s.p = .none ∨ s.p = .running ∨ s.p = .ended ∨ s.p = .dead

theorem inv_init (e : Env) : Inv e init := by
  constructor <;> simp [init]

set_option maxHeartbeats 2000000 in
theorem inv_step (e : Env) (s : State) (l : Label) (s' : State) (h : Inv e s) (hs : step e s l = some s') : Inv e s' := by
  obtain ⟨h1, h2, h3, h4, h5, h6, h7, h8, h9, h10, h11, h12, h13, h14, h15, h16, h17⟩ := h
  obtain ⟨m, c, g, p, fifo, lock, mOpen, data, sfd, held, content, got⟩ := s
  cases l with
  | main => cases m <;> simp only [step, mainStep] at hs <;> grind [Inv]
  | child => cases c <;> simp only [step, childStep] at hs <;> grind [Inv]
  | grand => cases g <;> simp only [step, grandStep] at hs <;> grind [Inv]
  | stub => cases p <;> simp only [step, stubStep] at hs <;> grind [Inv]
  | spawn => simp only [step] at hs; grind [Inv]
  | close => cases p <;> simp only [step, closeStep] at hs <;> grind [Inv]
  | timeout => simp only [step] at hs; grind [Inv]
  | interrupt => cases m <;> simp only [step, interruptStep] at hs <;> grind [Inv]
  | progEnd => simp only [step] at hs; grind [Inv]

theorem inv_run (e : Env) (ls : List Label) (t : State) (hr : run e init ls = some t) : Inv e t :=
  run_inv_all e (Inv e) (fun s l s' h hs => inv_step e s l s' h hs) init ls t (inv_init e) hr

theorem run_inv_calm (e : Env) (P : State → Prop)
    (hstep : ∀ s l s', P s → l ≠ .interrupt → (l = .close → s.p = .none ∨ s.p = .dead ∨ s.p = .running ∨ s.p = .ended) →
      step e s l = some s' → P s')
    (s : State) (ls : List Label) (t : State) (h : P s) (hr : run e s ls = some t) (hi : .interrupt ∉ ls)
    (hp : Calm e s ls) : P t := by
  induction ls generalizing s with
  | nil => simp only [run, Option.some.injEq] at hr; exact hr ▸ h
  | cons l ls ih =>
    simp only [run] at hr
    simp only [Calm] at hp
    cases hs : step e s l with
    | none => rw [hs] at hr; cases hr
    | some s' =>
      rw [hs] at hr hp
      exact ih s' (hstep s l s' h (fun h => hi (h ▸ List.mem_cons_self)) hp.1 hs) hr (fun h => hi (List.mem_cons_of_mem _ h)) hp.2

/-- Invariant of calm runs without interrupts when the lock file can be created. -/
structure InvLock (e : Env) (s : State) : Prop where
  inv : Inv e s
  fd : s.p = .flock ∨ s.p = .openFifo ∨ s.p = .opening ∨ s.p = .write ∨ s.p = .exec ∨ s.p = .errWrite ∨
    s.got ≠ 0 ∨ (s.data ≠ none ∧ s.data ≠ some 0) → s.sfd = true
  name : s.sfd = true → s.m ≠ .done → s.lock = true
  hold : s.p = .openFifo ∨ s.p = .opening ∨ s.p = .write ∨ s.p = .exec ∨ s.p = .errWrite → s.held = true
  free : s.m = .readErr → s.held = false
  wrote : s.p = .dead ∧ (s.got ≠ 0 ∨ (s.data ≠ none ∧ s.data ≠ some 0)) → s.content ≠ 0
  fin : s.m = .block ∨ s.m = .unlinkFifo ∨ s.m = .unlinkLock ∨ s.m = .done → s.got ≠ 0 → s.p = .running ∨ s.p = .ended

set_option maxHeartbeats 2000000 in
theorem invLock_step (e : Env) (hl : e.lockOk = true) (s : State) (l : Label) (s' : State) (h : InvLock e s)
    (hi : l ≠ .interrupt) (hc : l = .close → s.p = .none ∨ s.p = .dead ∨ s.p = .running ∨ s.p = .ended)
    (hs : step e s l = some s') : InvLock e s' := by
  have hinv := inv_step e s l s' h.inv hs
  obtain ⟨⟨h1, h2, h3, h4, h5, h6, h7, h8, h9, h10, h11, h12, h13, h14, h15, h16, h17⟩, k2, k3, k4, k5, k6, k7⟩ := h
  refine ⟨hinv, ?_, ?_, ?_, ?_, ?_, ?_⟩ <;> clear hinv
  all_goals
    obtain ⟨m, c, g, p, fifo, lock, mOpen, data, sfd, held, content, got⟩ := s
    cases l with
    | main => cases m <;> simp only [step, mainStep] at hs <;> grind
    | child => cases c <;> simp only [step, childStep] at hs <;> grind
    | grand => cases g <;> simp only [step, grandStep] at hs <;> grind
    | stub => cases p <;> simp only [step, stubStep] at hs <;> grind
    | spawn => simp only [step] at hs; grind
    | close => cases p <;> simp only [step, closeStep] at hs <;> grind
    | timeout => simp only [step] at hs; grind
    | interrupt => exact absurd rfl hi
    | progEnd => simp only [step] at hs; grind

/-- Invariant of prompt runs without interrupts when the FIFO can be created. -/
structure InvPrompt (e : Env) (s : State) : Prop where
  inv : Inv e s
  past : s.m ≠ .mkfifo → s.m ≠ .fork → s.m ≠ .wait → s.m ≠ .done → s.c = .gone
  fin : s.m = .done → s.c = .gone ∨ (s.c = .none ∧ s.got = 0)
  fifo : s.m ≠ .mkfifo → s.m ≠ .unlinkLock → s.m ≠ .done → s.fifo = true
  zero : s.m = .closeFifo ∨ s.m = .block ∨ s.m = .unlinkFifo ∨ s.m = .unlinkLock ∨ s.m = .done → s.got = 0 → Nobody s
  clean : s.m = .done → e.fork1Ok = true → s.fifo = false ∧ s.lock = false
  fk : s.m = .done → s.c = .none → e.fork1Ok = false
  ufifo : s.m = .unlinkLock → s.fifo = false

set_option maxHeartbeats 2000000 in
theorem invPrompt_step (e : Env) (hm : e.mkfifoOk = true) (hp : 0 < e.pid) (s : State) (l : Label) (s' : State) (h : InvPrompt e s)
    (hi : l ≠ .interrupt) (ht : l = .timeout → Nobody s) (hs : step e s l = some s') : InvPrompt e s' := by
  have hinv := inv_step e s l s' h.inv hs
  obtain ⟨⟨h1, h2, h3, h4, h5, h6, h7, h8, h9, h10, h11, h12, h13, h14, h15, h16, h17⟩, k2, k3, k4, k5, k6, k7, k8⟩ := h
  unfold Nobody at k5 ht
  refine ⟨hinv, ?_, ?_, ?_, ?_, ?_, ?_, ?_⟩ <;> clear hinv <;> try unfold Nobody
  all_goals
    obtain ⟨m, c, g, p, fifo, lock, mOpen, data, sfd, held, content, got⟩ := s
    cases l with
    | main => cases m <;> simp only [step, mainStep] at hs <;> grind
    | child => cases c <;> simp only [step, childStep] at hs <;> grind
    | grand => cases g <;> simp only [step, grandStep] at hs <;> grind
    | stub => cases p <;> simp only [step, stubStep] at hs <;> grind
    | spawn => simp only [step] at hs; grind
    | close => cases p <;> simp only [step, closeStep] at hs <;> grind
    | timeout => simp only [step] at hs; grind
    | interrupt => exact absurd rfl hi
    | progEnd => simp only [step] at hs; grind

/-! ## Property theorems -/

/-- **C123, the result is the process id.**  In every run, whatever fails, the id that main has, and so its result, is 0
or the process id of the stub, and never while the stub is not yet at executing the program. -/
theorem C123_result_value (e : Env) (ls : List Label) (t : State) (hr : run e init ls = some t) :
    t.got = 0 ∨ (t.got = e.pid ∧ t.p ≠ .none ∧ t.p ≠ .openLock ∧ t.p ≠ .flock ∧ t.p ≠ .openFifo ∧ t.p ≠ .opening ∧ t.p ≠ .write) := by
  have h := inv_run e ls t hr
  have := h.got
  have := h.sent
  grind

/-- **C123, a process id means that the program was started (partial).**  If the lock file can be created, no signal
interrupts the call, and the window is not closed while the stub is at work, then a result other than 0 is the id of a
process that executes the program.  Missing: a lock file that cannot be created, interrupts, a window that is closed. -/
theorem C123_started_partial (e : Env) (hl : e.lockOk = true) (ls : List Label) (t : State) (hi : .interrupt ∉ ls)
    (hc : Calm e init ls) (hr : run e init ls = some t) (hd : Returned t) (hg : t.got ≠ 0) : t.got = e.pid ∧ Started t := by
  have h : InvLock e t := by
    refine run_inv_calm e (InvLock e) (fun s l s' h hi hc hs => invLock_step e hl s l s' h hi hc hs) init ls t ?_ hr hi hc
    refine ⟨inv_init e, ?_, ?_, ?_, ?_, ?_, ?_⟩ <;> simp [init]
  exact ⟨h.inv.got.resolve_left hg, h.fin (Or.inr (Or.inr (Or.inr hd))) hg⟩

theorem prompt_run (e : Env) (hm : e.mkfifoOk = true) (hp : 0 < e.pid) (ls : List Label) (t : State) (hi : .interrupt ∉ ls)
    (hq : Prompt e init ls) (hr : run e init ls = some t) : InvPrompt e t := by
  refine run_inv_prompt e (InvPrompt e) (fun s l s' h hi ht hs => invPrompt_step e hm hp s l s' h hi ht hs) init ls t ?_ hr hi hq
  refine ⟨inv_init e, ?_, ?_, ?_, ?_, ?_, ?_, ?_⟩ <;> simp [init]

theorem nobody_stable (e : Env) (s : State) (l : Label) (s' : State)
    (h : Inv e s ∧ s.m = .done ∧ (s.c = .none ∨ s.c = .gone ∨ s.g ≠ .none) ∧ s.c ≠ .fork ∧ Nobody s) (hs : step e s l = some s') :
    Inv e s' ∧ s'.m = .done ∧ (s'.c = .none ∨ s'.c = .gone ∨ s'.g ≠ .none) ∧ s'.c ≠ .fork ∧ Nobody s' := by
  refine ⟨inv_step e s l s' h.1 hs, ?_⟩
  obtain ⟨⟨h1, h2, h3, h4, h5, h6, h7, h8, h9, h10, h11, h12, h13, h14, h15, h16, h17⟩, k1, k2, k3, k4⟩ := h
  unfold Nobody at k4 ⊢
  refine ⟨?_, ?_, ?_, ?_⟩
  all_goals
    obtain ⟨m, c, g, p, fifo, lock, mOpen, data, sfd, held, content, got⟩ := s
    cases l with
    | main => cases m <;> simp only [step, mainStep] at hs <;> grind
    | child => cases c <;> simp only [step, childStep] at hs <;> grind
    | grand => cases g <;> simp only [step, grandStep] at hs <;> grind
    | stub => cases p <;> simp only [step, stubStep] at hs <;> grind
    | spawn => simp only [step] at hs; grind
    | close => cases p <;> simp only [step, closeStep] at hs <;> grind
    | timeout => simp only [step] at hs; grind
    | interrupt => cases m <;> simp only [step, interruptStep] at hs <;> grind
    | progEnd => simp only [step] at hs; grind

/-- **C123, result 0 means that the program is never started (partial).**  If the FIFO can be created, no signal
interrupts the call, and the wait for the process id ends by its time limit only if none can come, then after a result 0
the program does not run, and will not run later.  Missing: a FIFO that cannot be created, interrupts, and a terminal
that needs more than 5 s. -/
theorem C123_not_started_partial (e : Env) (hm : e.mkfifoOk = true) (hp : 0 < e.pid) (ls : List Label) (t : State)
    (hi : .interrupt ∉ ls) (hq : Prompt e init ls) (hr : run e init ls = some t) (hd : Returned t) (hg : t.got = 0)
    (ls' : List Label) (t' : State) (hr' : run e t ls' = some t') : ¬ Started t' := by
  have h := prompt_run e hm hp ls t hi hq hr
  have h0 : Inv e t ∧ t.m = .done ∧ (t.c = .none ∨ t.c = .gone ∨ t.g ≠ .none) ∧ t.c ≠ .fork ∧ Nobody t := by
    have h1 := h.zero (by simp [show t.m = .done from hd]) hg
    have h2 := h.fin hd
    refine ⟨h.inv, hd, ?_, ?_, h1⟩ <;> grind
  have := run_inv_all e _ (fun s l s' h hs => nobody_stable e s l s' h hs) t ls' t' h0 hr'
  have h6 := this.1.term
  have h5 := this.2.2.2.2
  unfold Started
  unfold Nobody at h5
  grind

theorem clean_stable (e : Env) (s : State) (l : Label) (s' : State)
    (h : Inv e s ∧ s.m = .done ∧ s.fifo = false ∧ s.lock = false ∧ s.c = .gone ∧
      (Nobody s ∨ s.p = .exec ∨ s.p = .errWrite ∨ s.p = .running ∨ s.p = .ended)) (hs : step e s l = some s') :
    Inv e s' ∧ s'.m = .done ∧ s'.fifo = false ∧ s'.lock = false ∧ s'.c = .gone ∧
      (Nobody s' ∨ s'.p = .exec ∨ s'.p = .errWrite ∨ s'.p = .running ∨ s'.p = .ended) := by
  refine ⟨inv_step e s l s' h.1 hs, ?_⟩
  obtain ⟨⟨h1, h2, h3, h4, h5, h6, h7, h8, h9, h10, h11, h12, h13, h14, h15, h16, h17⟩, k1, k2, k3, k4, k5⟩ := h
  unfold Nobody at k5 ⊢
  refine ⟨?_, ?_, ?_, ?_, ?_⟩
  all_goals
    obtain ⟨m, c, g, p, fifo, lock, mOpen, data, sfd, held, content, got⟩ := s
    cases l with
    | main => cases m <;> simp only [step, mainStep] at hs <;> grind
    | child => cases c <;> simp only [step, childStep] at hs <;> grind
    | grand => cases g <;> simp only [step, grandStep] at hs <;> grind
    | stub => cases p <;> simp only [step, stubStep] at hs <;> grind
    | spawn => simp only [step] at hs; grind
    | close => cases p <;> simp only [step, closeStep] at hs <;> grind
    | timeout => simp only [step] at hs; grind
    | interrupt => cases m <;> simp only [step, interruptStep] at hs <;> grind
    | progEnd => simp only [step] at hs; grind

/-- **C123, no files are left (partial).**  Under the same conditions, and if the first fork succeeds, neither the FIFO
nor the lock file is there after the call, and they do not come back.  Missing: as above, and a failing fork. -/
theorem C123_no_files_partial (e : Env) (hm : e.mkfifoOk = true) (hp : 0 < e.pid) (hf : e.fork1Ok = true) (ls : List Label) (t : State)
    (hi : .interrupt ∉ ls) (hq : Prompt e init ls) (hr : run e init ls = some t) (hd : Returned t)
    (ls' : List Label) (t' : State) (hr' : run e t ls' = some t') : t'.fifo = false ∧ t'.lock = false := by
  have h := prompt_run e hm hp ls t hi hq hr
  have h0 : Inv e t ∧ t.m = .done ∧ t.fifo = false ∧ t.lock = false ∧ t.c = .gone ∧
      (Nobody t ∨ t.p = .exec ∨ t.p = .errWrite ∨ t.p = .running ∨ t.p = .ended) := by
    have h1 := h.clean hd hf
    have h2 := h.fin hd
    have h3 := h.fk hd
    have h4 := h.zero (by simp [show t.m = .done from hd])
    have h5 := h.inv.sent
    refine ⟨h.inv, hd, h1.1, h1.2, ?_, ?_⟩
    · grind
    · unfold Nobody at h4 ⊢; grind
  have := run_inv_all e _ (fun s l s' h hs => clean_stable e s l s' h hs) t ls' t' h0 hr'
  exact ⟨this.2.2.1, this.2.2.2.1⟩

theorem noTerm_step (e : Env) (ht : e.termOk = false) (s : State) (l : Label) (s' : State)
    (h : s.g ≠ .term ∧ s.p = .none ∧ (s.data = none ∨ s.data = some 0) ∧ s.got = 0) (hs : step e s l = some s') :
    s'.g ≠ .term ∧ s'.p = .none ∧ (s'.data = none ∨ s'.data = some 0) ∧ s'.got = 0 := by
  obtain ⟨k1, k2, k3, k4⟩ := h
  refine ⟨?_, ?_, ?_, ?_⟩
  all_goals
    obtain ⟨m, c, g, p, fifo, lock, mOpen, data, sfd, held, content, got⟩ := s
    cases l with
    | main => cases m <;> simp only [step, mainStep] at hs <;> grind
    | child => cases c <;> simp only [step, childStep] at hs <;> grind
    | grand => cases g <;> simp only [step, grandStep] at hs <;> grind
    | stub => cases p <;> simp only [step, stubStep] at hs <;> grind
    | spawn => simp only [step] at hs; grind
    | close => cases p <;> simp only [step, closeStep] at hs <;> grind
    | timeout => simp only [step] at hs; grind
    | interrupt => cases m <;> simp only [step, interruptStep] at hs <;> grind
    | progEnd => simp only [step] at hs; grind

/-- **C123, no terminal.**  If the terminal emulator cannot be executed, the result is 0 and the program is not
started. -/
theorem C123_no_terminal (e : Env) (ht : e.termOk = false) (ls : List Label) (t : State) (hr : run e init ls = some t) :
    t.got = 0 ∧ ¬ Started t := by
  have := run_inv_all e _ (fun s l s' h hs => noTerm_step e ht s l s' h hs) init ls t (by simp [init]) hr
  exact ⟨this.2.2.2, by unfold Started; rw [this.2.1]; simp⟩

/-! ### The call ends -/

def mRank : MPc → Nat
  | .mkfifo => 13 | .fork => 12 | .wait => 11 | .openFifo => 10 | .select => 9 | .read => 8 | .closeFifo => 7 | .openLock => 6
  | .flock => 5 | .readErr => 4 | .block => 3 | .unlinkFifo => 2 | .unlinkLock => 1 | .done => 0

def cRank : CPc → Nat
  | .none => 3 | .fork => 2 | .exit => 1 | .gone => 0

def gRank : GPc → Nat
  | .none => 6 | .chdir => 5 | .exec => 4 | .term => 1 | .openFifo => 3 | .opening => 2 | .write => 1 | .dead => 0

def pRank : SPc → Nat
  | .none => 10 | .openLock => 9 | .flock => 8 | .openFifo => 7 | .opening => 6 | .write => 5 | .exec => 4
  | .errWrite => 3 | .running => 2 | .ended => 0 | .dead => 0

def rank (s : State) : Nat := mRank s.m + cRank s.c + gRank s.g + pRank s.p

set_option maxHeartbeats 2000000 in
theorem rank_step (e : Env) (s : State) (l : Label) (s' : State) (hs : step e s l = some s') (h : Inv e s) : rank s' < rank s := by
  obtain ⟨h1, h2, h3, h4, h5, h6, h7, h8, h9, h10, h11, h12, h13, h14, h15, h16, h17⟩ := h
  obtain ⟨m, c, g, p, fifo, lock, mOpen, data, sfd, held, content, got⟩ := s
  unfold rank
  cases l with
  | main => cases m <;> simp only [step, mainStep] at hs <;> grind [mRank, cRank]
  | child => cases c <;> simp only [step, childStep] at hs <;> grind [cRank, gRank]
  | grand => cases g <;> simp only [step, grandStep] at hs <;> grind [gRank]
  | stub => cases p <;> simp only [step, stubStep] at hs <;> grind [pRank]
  | spawn => simp only [step] at hs; grind [pRank]
  | close => cases p <;> simp only [step, closeStep] at hs <;> grind [gRank, pRank]
  | timeout => simp only [step] at hs; grind [mRank]
  | interrupt => cases m <;> simp only [step, interruptStep] at hs <;> grind [mRank]
  | progEnd => simp only [step] at hs; grind [pRank]

theorem run_length (e : Env) (s : State) (ls : List Label) (t : State) (h : Inv e s) (hr : run e s ls = some t) :
    ls.length + rank t ≤ rank s := by
  induction ls generalizing s with
  | nil => simp only [run, Option.some.injEq] at hr; subst hr; simp
  | cons l ls ih =>
    simp only [run] at hr
    cases hs : step e s l with
    | none => rw [hs] at hr; cases hr
    | some s' =>
      rw [hs] at hr
      have := ih s' (inv_step e s l s' h hs) hr
      have := rank_step e s l s' hs h
      simp only [List.length_cons]
      omega

/-- **C123, the call returns.**  Whatever fails: as long as main has not returned, one of the processes can take a step,
or the time limit passes, or the started program ends — the terminal need not do anything; and there are at most 32
steps.  So main returns in every run that goes on as long as it can. -/
theorem C123_returns (e : Env) (ls : List Label) (t : State) (hr : run e init ls = some t) :
    ls.length ≤ 32 ∧ (¬ Returned t → ∃ l, l ≠ .interrupt ∧ l ≠ .spawn ∧ l ≠ .close ∧ (step e t l).isSome = true) := by
  have h := inv_run e ls t hr
  refine ⟨?_, ?_⟩
  · have := run_length e init ls t (inv_init e) hr
    have h0 : rank init = 32 := by decide
    omega
  · intro hd
    obtain ⟨h1, h2, h3, h4, h5, h6, h7, h8, h9, h10, h11, h12, h13, h14, h15, h16, h17⟩ := h
    obtain ⟨m, c, g, p, fifo, lock, mOpen, data, sfd, held, content, got⟩ := t
    cases hm : m with
    | done => exact absurd hm hd
    | wait =>
      rw [hm] at h4
      cases hc : c with
      | none => simp [hc] at h4
      | fork => exact ⟨.child, by decide, by decide, by decide, by simp [step, childStep]⟩
      | exit => exact ⟨.child, by decide, by decide, by decide, by simp [step, childStep]⟩
      | gone => exact ⟨.main, by decide, by decide, by decide, by simp [step, mainStep]⟩
    | select =>
      cases data with
      | none => exact ⟨.timeout, by decide, by decide, by decide, by simp [step]⟩
      | some p => exact ⟨.main, by decide, by decide, by decide, by simp [step, mainStep]⟩
    | flock =>
      cases held with
      | false => exact ⟨.main, by decide, by decide, by decide, by simp [step, mainStep]⟩
      | true =>
        refine ⟨.stub, by decide, by decide, by decide, ?_⟩
        have hgot := h14 (Or.inr (Or.inl hm))
        have := h7 (Or.inl hgot)
        have := h11 rfl
        cases p <;> simp_all [step, stubStep]
    | block =>
      by_cases hb : e.block ∧ got > 0 ∧ e.reaper ∧ g = .dead ∧ p = .running
      · exact ⟨.progEnd, by decide, by decide, by decide, by simp [step, hb.2.2.2.2]⟩
      · refine ⟨.main, by decide, by decide, by decide, ?_⟩
        simp only [step, mainStep]
        rw [if_neg hb]
        rfl
    | _ => exact ⟨.main, by decide, by decide, by decide, by simp [step, mainStep]⟩

/-! ### Arguments -/

/-- **C123, arguments.**  What follows the words of the terminal's command line starts the stub, and the stub executes
what would be executed without a terminal: the program with its arguments. -/
theorem C123_same_arguments (term name args fifo lock : List UInt8) (ht : term ≠ []) :
    ∃ cmd, argv term name args fifo lock = Text.CmdLine.toArgv term ++ cmd ∧ cmd.head? = some stubName ∧
      stubExec cmd = some (argv [] name args fifo lock) := by
  refine ⟨[stubName, fifo, lock] ++ name :: Text.CmdLine.toArgv args, ?_, rfl, ?_⟩
  · simp [argv, ht]
  · simp [stubExec, argv]

/-- **C123, when a terminal is used.**  Exactly if the mode is not "hidden", there is a display, a terminal command is
configured, and the stub is there in the right version. -/
theorem C123_terminal_used (hidden : Bool) (display : Option (List UInt8)) (command : List UInt8) (version : Option (List UInt8)) :
    (terminal hidden display command version ≠ [] ↔
      hidden = false ∧ (∃ d, display = some d ∧ d ≠ []) ∧ command ≠ [] ∧ version = some stubVersion) ∧
    (terminal hidden display command version ≠ [] → terminal hidden display command version = command) := by
  unfold terminal
  cases hidden <;> cases display <;> simp <;> grind

/-! ### Concrete runs and violations -/

/-- Everything works. -/
def good : Env := ⟨true, true, true, true, true, true, 0, 7, false, false, false⟩

/-- A run that returns the process id. -/
def goodRun : List Label :=
  [.main, .main, .child, .grand, .child, .grand, .main, .main, .spawn, .stub, .stub, .stub, .stub, .stub, .main, .main, .main, .main,
   .stub, .main, .main, .main, .main, .main]

example : Calm good init goodRun ∧ Prompt good init goodRun ∧ .interrupt ∉ goodRun ∧
    ∃ t, run good init goodRun = some t ∧ Returned t ∧ t.got = 7 ∧ t.p = .running ∧ t.fifo = false ∧ t.lock = false :=
  ⟨by simp [goodRun, Calm, step, mainStep, childStep, grandStep, stubStep, good, init],
   by simp [goodRun, Prompt, step, mainStep, childStep, grandStep, stubStep, good, init], by decide, _, rfl, by decide +kernel⟩

/-- The terminal cannot be executed: main is told. -/
def noTermRun : List Label :=
  [.main, .main, .child, .grand, .child, .grand, .main, .main, .grand, .grand, .grand, .main, .main, .main, .main, .main, .main]

example : Prompt { good with termOk := false } init noTermRun ∧ .interrupt ∉ noTermRun ∧
    ∃ t, run { good with termOk := false } init noTermRun = some t ∧ Returned t ∧ t.got = 0 ∧ t.p = .none :=
  ⟨by simp [noTermRun, Prompt, step, mainStep, childStep, grandStep, good, init], by decide, _, rfl, by decide +kernel⟩

example : terminal false (some [58, 48]) [120, 116, 101, 114, 109, 32, 45, 101] (some stubVersion) ≠ [] ∧
    argv [120, 32, 45, 101] [112] [97, 32, 98] [102] [108] = [[120], [45, 101], stubName, [102], [108], [112], [97], [98]] := by
  decide +kernel

/-- **C123 (violated: the call does not wait).**  The program is not a child of the caller: with `block_` the call
returns while the program runs, even if the caller inherits orphans. -/
theorem C123_violated_block : ∃ t, run { good with block := true, reaper := true } init goodRun = some t ∧ Returned t ∧
    t.got = 7 ∧ t.p = .running :=
  ⟨_, rfl, by decide +kernel⟩

/-- **C123 (violated: the window is closed).**  If the window is closed after the stub has sent its id and before it
executes the program, the call returns the id although the program was never executed: the lock is free and the lock
file is empty. -/
theorem C123_violated_window_closed : ∃ t, run good init
      ([.main, .main, .child, .grand, .child, .grand, .main, .main, .spawn, .stub, .stub, .stub, .stub, .stub, .main, .main, .main,
        .main, .close, .main, .main, .main, .main, .main] : List Label) = some t ∧ Returned t ∧ t.got = 7 ∧ t.p = .dead :=
  ⟨_, rfl, by decide +kernel⟩

/-- **C123 (violated: no lock file).**  If the lock file cannot be created, a program that does not exist is reported as
started. -/
theorem C123_violated_lock_file : ∃ t, run { good with execErr := 2, lockOk := false } init
      ([.main, .main, .child, .grand, .child, .grand, .main, .main, .spawn, .stub, .stub, .stub, .stub, .stub, .main, .main, .main,
        .main, .stub, .stub, .main, .main, .main] : List Label) = some t ∧ Returned t ∧ t.got = 7 ∧ t.p = .dead :=
  ⟨_, rfl, by decide +kernel⟩

/-- **C123 (violated: slow terminal).**  If the terminal needs more than 5 s to start the stub, the call returns 0, the
program is started nevertheless, and the lock file stays. -/
theorem C123_violated_slow : ∃ t, run good init
      ([.main, .main, .child, .child, .grand, .grand, .main, .main, .timeout, .main, .main, .main, .main, .spawn, .stub, .stub,
        .stub, .stub] : List Label) = some t ∧ Returned t ∧ t.got = 0 ∧ t.p = .running ∧ t.lock = true :=
  ⟨_, rfl, by decide +kernel⟩

/-- **C123 (violated: the stub hangs).**  The stub can open the FIFO just after main has given up and before it removes
the FIFO: then it waits for a reader for ever, until the window is closed. -/
theorem C123_violated_hang : ∃ t, run good init
      ([.main, .main, .child, .child, .grand, .grand, .main, .main, .spawn, .stub, .stub, .timeout, .main, .stub, .main, .main, .main] : List Label)
      = some t ∧ Returned t ∧ t.got = 0 ∧ ∀ ls' t', .close ∉ ls' → run good t ls' = some t' → t'.p = .opening := by
  refine ⟨_, rfl, rfl, rfl, ?_⟩
  intro ls' t' hc hr
  have := run_inv good (fun s => s.m = .done ∧ s.p = .opening ∧ s.g = .term ∧ s.mOpen = false ∧ s.c = .gone) (fun _ l => l ≠ .close)
    ?_ _ ls' t' (by decide +kernel) hr ?_
  · exact this.2.1
  · intro s l s' ⟨h1, h2, h3, h4, h5⟩ hl hs
    cases l <;> simp [step, mainStep, childStep, grandStep, stubStep, interruptStep, h1, h2, h3, h4, h5] at hs hl
  · intro l₁ l l₂ s' hls _ hli
    apply hc
    rw [hls, hli]
    simp

end Ecal.Proc.Term
