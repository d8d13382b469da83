import Verif.Proc.Start

/-! # C83: the result of starting a process -/

namespace Ecal.Proc

/-! ## Vocabulary of the statements -/

/-- The program was executed. -/
def Started (s : State) : Prop := s.g = .running ∨ s.g = .ended

/-- Main has returned. -/
def Returned (s : State) : Prop := s.m = .done

instance (s : State) : Decidable (Returned s) := inferInstanceAs (Decidable (s.m = .done))

/-- In the run the time limit ends the wait for the process id only if no process id can come any more: there is no
grandchild, or it has ended. -/
def Prompt (e : Env) : State → List Label → Prop
  | _, [] => True
  | s, l :: ls => (l = .timeout → s.g = .none ∨ s.g = .dead) ∧ match step e s l with
    | none => True
    | some s' => Prompt e s' ls

/-! ## Runs and invariants -/

theorem run_append (e : Env) (s : State) (l₁ l₂ : List Label) :
    run e s (l₁ ++ l₂) = (run e s l₁).bind (fun t => run e t l₂) := by
  induction l₁ generalizing s with
  | nil => rfl
  | cons l ls ih =>
    simp only [List.cons_append, run]
    cases step e s l with
    | none => rfl
    | some s' => exact ih s'

theorem run_inv (e : Env) (P : State → Prop) (ok : State → Label → Prop)
    (hstep : ∀ s l s', P s → ok s l → step e s l = some s' → P s')
    (s : State) (ls : List Label) (t : State) (h : P s) (hr : run e s ls = some t)
    (hok : ∀ l₁ l l₂ s', ls = l₁ ++ l :: l₂ → run e s l₁ = some s' → ok s' l) : P t := by
  induction ls generalizing s with
  | nil => simp only [run, Option.some.injEq] at hr; exact hr ▸ h
  | cons l ls ih =>
    simp only [run] at hr
    cases hs : step e s l with
    | none => rw [hs] at hr; cases hr
    | some s' =>
      rw [hs] at hr
      refine ih s' (hstep s l s' h (hok [] l ls s rfl rfl) hs) hr ?_
      intro l₁ l' l₂ s'' hl hrr
      refine hok (l :: l₁) l' l₂ s'' (by rw [hl]; rfl) ?_
      simp only [run, hs]; exact hrr

theorem run_inv_all (e : Env) (P : State → Prop)
    (hstep : ∀ s l s', P s → step e s l = some s' → P s')
    (s : State) (ls : List Label) (t : State) (h : P s) (hr : run e s ls = some t) : P t :=
  run_inv e P (fun _ _ => True) (fun s l s' hp _ hs => hstep s l s' hp hs) s ls t h hr (fun _ _ _ _ _ _ => trivial)

theorem run_inv_prompt (e : Env) (P : State → Prop)
    (hstep : ∀ s l s', P s → l ≠ .interrupt → (l = .timeout → s.g = .none ∨ s.g = .dead) → step e s l = some s' → P s')
    (s : State) (ls : List Label) (t : State) (h : P s) (hr : run e s ls = some t) (hi : .interrupt ∉ ls)
    (hp : Prompt e s ls) : P t := by
  induction ls generalizing s with
  | nil => simp only [run, Option.some.injEq] at hr; exact hr ▸ h
  | cons l ls ih =>
    simp only [run] at hr
    simp only [Prompt] at hp
    cases hs : step e s l with
    | none => rw [hs] at hr; cases hr
    | some s' =>
      rw [hs] at hr hp
      exact ih s' (hstep s l s' h (fun h => hi (h ▸ List.mem_cons_self)) hp.1 hs) hr (fun h => hi (List.mem_cons_of_mem _ h)) hp.2

/-- Invariant of all runs. -/
structure Inv (e : Env) (s : State) : Prop where
  got : s.got = 0 ∨ s.got = e.pid
  data : s.data = none ∨ s.data = some e.pid
  early : s.m = .mkfifo ∨ s.m = .fork ∨ s.m = .wait ∨ s.m = .openFifo ∨ s.m = .select ∨ s.m = .read → s.got = 0
  cnone : s.m = .mkfifo ∨ s.m = .fork ↔ s.c = .none ∧ ¬ (s.m = .done)
  cfork : s.c = .fork ∨ s.c = .none → s.g = .none
  sent : s.got ≠ 0 ∨ s.data ≠ none → s.g = .exec ∨ s.g = .errWrite ∨ s.g = .unlock ∨ s.g = .running ∨ s.g = .ended ∨ s.g = .dead
  content : s.content ≠ 0 → s.g = .unlock ∨ s.g = .dead
  hold : s.held = true → s.g = .openFifo ∨ s.g = .opening ∨ s.g = .write ∨ s.g = .exec ∨ s.g = .errWrite ∨ s.g = .unlock
  run : s.g = .running ∨ s.g = .ended → e.execErr = 0
  err : s.g = .errWrite ∨ s.g = .unlock → e.execErr ≠ 0
  late : s.m = .openLock ∨ s.m = .flock ∨ s.m = .readErr → s.got ≠ 0
  rd : s.m = .read → s.data ≠ none
  dn : s.m = .done → s.c = .none → s.got = 0

theorem inv_init (e : Env) : Inv e init := by
  constructor <;> simp [init]

theorem inv_step (e : Env) (s : State) (l : Label) (s' : State) (h : Inv e s) (hs : step e s l = some s') : Inv e s' := by
  obtain ⟨h1, h2, h3, h4, h5, h6, h7, h8, h9, h10, h11, h12, h13⟩ := h
  obtain ⟨m, c, g, fifo, lock, mOpen, data, gfd, held, content, got⟩ := s
  cases l with
  | main =>
    cases m <;> simp only [step, mainStep] at hs <;> grind [Inv]
  | child => cases c <;> simp only [step, childStep] at hs <;> grind [Inv]
  | grand => cases g <;> simp only [step, grandStep] at hs <;> grind [Inv]
  | timeout => simp only [step] at hs; grind [Inv]
  | interrupt => cases m <;> simp only [step, interruptStep] at hs <;> grind [Inv]
  | progEnd => simp only [step] at hs; grind [Inv]

theorem inv_run (e : Env) (ls : List Label) (t : State) (hr : run e init ls = some t) : Inv e t :=
  run_inv_all e (Inv e) (fun s l s' h hs => inv_step e s l s' h hs) init ls t (inv_init e) hr

/-- Invariant of runs without interrupts when the lock file can be created. -/
structure InvLock (e : Env) (s : State) : Prop where
  inv : Inv e s
  fd : s.g = .flock ∨ s.g = .openFifo ∨ s.g = .opening ∨ s.g = .write ∨ s.g = .exec ∨ s.g = .errWrite ∨ s.g = .unlock ∨
    s.got ≠ 0 ∨ s.data ≠ none → s.gfd = true
  name : s.gfd = true → s.m ≠ .done → s.lock = true
  hold : s.g = .openFifo ∨ s.g = .opening ∨ s.g = .write ∨ s.g = .exec ∨ s.g = .errWrite ∨ s.g = .unlock → s.held = true
  free : s.m = .readErr → s.held = false
  wrote : s.g = .unlock ∨ (s.g = .dead ∧ (s.got ≠ 0 ∨ s.data ≠ none)) → s.content ≠ 0
  fin : s.m = .block ∨ s.m = .unlinkFifo ∨ s.m = .unlinkLock ∨ s.m = .done → s.got ≠ 0 → s.g = .running ∨ s.g = .ended

theorem invLock_step (e : Env) (hl : e.lockOk = true) (s : State) (l : Label) (s' : State) (h : InvLock e s)
    (hi : l ≠ .interrupt) (hs : step e s l = some s') : InvLock e s' := by
  have hinv := inv_step e s l s' h.inv hs
  obtain ⟨⟨h1, h2, h3, h4, h5, h6, h7, h8, h9, h10, h11, h12, h13⟩, k2, k3, k4, k5, k6, k7⟩ := h
  refine ⟨hinv, ?_, ?_, ?_, ?_, ?_, ?_⟩ <;> clear hinv
  all_goals
    obtain ⟨m, c, g, fifo, lock, mOpen, data, gfd, held, content, got⟩ := s
    cases l with
    | main => cases m <;> simp only [step, mainStep] at hs <;> grind
    | child => cases c <;> simp only [step, childStep] at hs <;> grind
    | grand => cases g <;> simp only [step, grandStep] at hs <;> grind (splits := 20)
    | timeout => simp only [step] at hs; grind
    | interrupt => exact absurd rfl hi
    | progEnd => simp only [step] at hs; grind

/-- Invariant of prompt runs without interrupts when the FIFO can be created. -/
structure InvPrompt (e : Env) (s : State) : Prop where
  inv : Inv e s
  past : s.m ≠ .mkfifo → s.m ≠ .fork → s.m ≠ .wait → s.m ≠ .done → s.c = .gone
  fin : s.m = .done → s.c = .gone ∨ (s.c = .none ∧ s.got = 0)
  fifo : s.m ≠ .mkfifo → s.m ≠ .unlinkLock → s.m ≠ .done → s.fifo = true
  cont : s.content ≠ 0 → s.gfd = true
  hold : s.gfd = true → s.g = .openFifo ∨ s.g = .opening ∨ s.g = .write ∨ s.g = .exec ∨ s.g = .errWrite ∨ s.g = .unlock → s.held = true
  free : s.m = .readErr → s.held = false
  zero : s.m = .closeFifo ∨ s.m = .block ∨ s.m = .unlinkFifo ∨ s.m = .unlinkLock ∨ s.m = .done → s.got = 0 → s.g = .none ∨ s.g = .dead
  clean : s.m = .done → e.fork1Ok = true → s.fifo = false ∧ s.lock = false
  fk : s.m = .done → s.c = .none → e.fork1Ok = false
  ufifo : s.m = .unlinkLock → s.fifo = false

theorem invPrompt_step (e : Env) (hm : e.mkfifoOk = true) (hp : 0 < e.pid) (s : State) (l : Label) (s' : State) (h : InvPrompt e s)
    (hi : l ≠ .interrupt) (ht : l = .timeout → s.g = .none ∨ s.g = .dead) (hs : step e s l = some s') : InvPrompt e s' := by
  have hinv := inv_step e s l s' h.inv hs
  obtain ⟨⟨h1, h2, h3, h4, h5, h6, h7, h8, h9, h10, h11, h12, h13⟩, k2, k3, k4, k5, k6, k7, k8, k9, k10, k11⟩ := h
  refine ⟨hinv, ?_, ?_, ?_, ?_, ?_, ?_, ?_, ?_, ?_, ?_⟩ <;> clear hinv
  all_goals
    obtain ⟨m, c, g, fifo, lock, mOpen, data, gfd, held, content, got⟩ := s
    cases l with
    | main => cases m <;> simp only [step, mainStep] at hs <;> grind
    | child => cases c <;> simp only [step, childStep] at hs <;> grind
    | grand => cases g <;> simp only [step, grandStep] at hs <;> grind
    | timeout => simp only [step] at hs; grind
    | interrupt => exact absurd rfl hi
    | progEnd => simp only [step] at hs; grind

/-! ## Property theorems -/

/-- **C83, the result is the process id.**  In every run, whatever fails, the id that main has, and so its result, is 0 or the process id of the
grandchild, and it is never the id of a process that has not tried to execute the program. -/
theorem C83_result_value (e : Env) (ls : List Label) (t : State) (hr : run e init ls = some t) :
    t.got = 0 ∨ (t.got = e.pid ∧ t.g ≠ .none ∧ t.g ≠ .chdir ∧ t.g ≠ .openLock ∧ t.g ≠ .flock ∧ t.g ≠ .openFifo ∧ t.g ≠ .opening ∧ t.g ≠ .write) := by
  have h := inv_run e ls t hr
  have := h.got
  have := h.sent
  grind

/-- **C83, a process id means that the program was started (partial).**  If the lock file can be created and no signal
interrupts the call, then a result other than 0 is the id of a process that executes the program; in particular not
of one where the program could not be executed.  Missing: a lock file that cannot be created, interrupts. -/
theorem C83_started_partial (e : Env) (hl : e.lockOk = true) (ls : List Label) (t : State) (hi : .interrupt ∉ ls)
    (hr : run e init ls = some t) (hd : Returned t) (hg : t.got ≠ 0) : t.got = e.pid ∧ Started t := by
  have h : InvLock e t := by
    refine run_inv e (InvLock e) (fun _ l => l ≠ .interrupt) (fun s l s' h hi hs => invLock_step e hl s l s' h hi hs) init ls t ?_ hr ?_
    · refine ⟨inv_init e, ?_, ?_, ?_, ?_, ?_, ?_⟩ <;> simp [init]
    · intro l₁ l l₂ s' hls _ hli
      apply hi
      rw [hls, hli]
      simp
  exact ⟨h.inv.got.resolve_left hg, h.fin (Or.inr (Or.inr (Or.inr hd))) hg⟩

/-- Everything works, the processes take turns. -/
def good : Env := ⟨true, true, true, true, true, 0, 7, false, false, false⟩

/-- A run that returns the process id. -/
def goodRun : List Label :=
  [.main, .main, .child, .grand, .child, .grand, .grand, .grand, .main, .main, .grand, .grand, .main, .main, .main, .main,
   .grand, .main, .main, .main, .main, .main]

example : ∃ t, run good init goodRun = some t ∧ Returned t ∧ t.got = 7 ∧ t.g = .running ∧ t.fifo = false ∧ t.lock = false :=
  ⟨_, rfl, by decide +kernel⟩

theorem none_stable (e : Env) (s : State) (l : Label) (s' : State)
    (h : s.m = .done ∧ ((s.g = .dead ∧ s.c ≠ .fork) ∨ (s.g = .none ∧ (s.c = .none ∨ s.c = .gone)))) (hs : step e s l = some s') :
    s'.m = .done ∧ ((s'.g = .dead ∧ s'.c ≠ .fork) ∨ (s'.g = .none ∧ (s'.c = .none ∨ s'.c = .gone))) := by
  obtain ⟨m, c, g, fifo, lock, mOpen, data, gfd, held, content, got⟩ := s
  obtain ⟨hm, h⟩ := h
  simp only at hm h
  subst hm
  cases l with
  | main => simp [step, mainStep] at hs
  | child => cases c <;> simp only [step, childStep] at hs <;> grind
  | grand => cases g <;> simp only [step, grandStep] at hs <;> grind
  | timeout => simp [step] at hs
  | interrupt => simp [step, interruptStep] at hs
  | progEnd => simp only [step] at hs; grind

theorem prompt_run (e : Env) (hm : e.mkfifoOk = true) (hp : 0 < e.pid) (ls : List Label) (t : State) (hi : .interrupt ∉ ls)
    (hq : Prompt e init ls) (hr : run e init ls = some t) : InvPrompt e t := by
  refine run_inv_prompt e (InvPrompt e) (fun s l s' h hi ht hs => invPrompt_step e hm hp s l s' h hi ht hs) init ls t ?_ hr hi hq
  refine ⟨inv_init e, ?_, ?_, ?_, ?_, ?_, ?_, ?_, ?_, ?_, ?_⟩ <;> simp [init]

/-- **C83, result 0 means that the program is never started (partial).**  If the FIFO can be created, no signal
interrupts the call, and the wait for the process id ends by its time limit only if none can come, then after a
result 0 the program does not run, and will not run later.  Missing: a FIFO that cannot be created, interrupts, and a
grandchild that needs more than 5 s. -/
theorem C83_not_started_partial (e : Env) (hm : e.mkfifoOk = true) (hp : 0 < e.pid) (ls : List Label) (t : State)
    (hi : .interrupt ∉ ls) (hq : Prompt e init ls) (hr : run e init ls = some t) (hd : Returned t) (hg : t.got = 0)
    (ls' : List Label) (t' : State) (hr' : run e t ls' = some t') : ¬ Started t' := by
  have h := prompt_run e hm hp ls t hi hq hr
  have h0 : t.m = .done ∧ ((t.g = .dead ∧ t.c ≠ .fork) ∨ (t.g = .none ∧ (t.c = .none ∨ t.c = .gone))) := by
    refine ⟨hd, ?_⟩
    have h1 := h.zero (by simp [show t.m = .done from hd]) hg
    have h2 := h.fin hd
    have h3 := h.inv.cfork
    grind
  have := run_inv_all e _ (fun s l s' h hs => none_stable e s l s' h hs) t ls' t' h0 hr'
  unfold Started
  grind

/-- The program cannot be executed (error 2, "no such file"). -/
def noProg : Env := { good with execErr := 2 }

/-- The run of a program that cannot be executed; main waits for the lock. -/
def noProgRun : List Label :=
  [.main, .main, .child, .grand, .child, .grand, .grand, .grand, .main, .main, .grand, .grand, .main, .main, .main, .main,
   .grand, .grand, .grand, .main, .main, .main, .main, .main]

example : Prompt noProg init noProgRun ∧ .interrupt ∉ noProgRun ∧ ∃ t, run noProg init noProgRun = some t ∧ Returned t ∧ t.got = 0 ∧ t.g = .dead :=
  ⟨by simp [noProgRun, Prompt, step, mainStep, childStep, grandStep, noProg, good, init], by decide, _, rfl, by decide +kernel⟩

/-- A wrong working directory: the time limit ends the call. -/
def noDirRun : List Label := [.main, .main, .child, .grand, .child, .main, .main, .timeout, .main, .main, .main, .main]

example : Prompt { good with chdirOk := false } init noDirRun ∧ ∃ t, run { good with chdirOk := false } init noDirRun = some t ∧ Returned t ∧ t.got = 0 :=
  ⟨by simp [noDirRun, Prompt, step, mainStep, childStep, grandStep, good, init], _, rfl, by decide +kernel⟩

theorem clean_stable (e : Env) (s : State) (l : Label) (s' : State)
    (h : s.m = .done ∧ s.fifo = false ∧ s.lock = false ∧ s.c = .gone ∧ s.g ≠ .chdir ∧ s.g ≠ .openLock) (hs : step e s l = some s') :
    s'.m = .done ∧ s'.fifo = false ∧ s'.lock = false ∧ s'.c = .gone ∧ s'.g ≠ .chdir ∧ s'.g ≠ .openLock := by
  obtain ⟨m, c, g, fifo, lock, mOpen, data, gfd, held, content, got⟩ := s
  obtain ⟨hm, h⟩ := h
  simp only at hm h
  subst hm
  cases l with
  | main => simp [step, mainStep] at hs
  | child => cases c <;> simp only [step, childStep] at hs <;> grind
  | grand => cases g <;> simp only [step, grandStep] at hs <;> grind
  | timeout => simp [step] at hs
  | interrupt => simp [step, interruptStep] at hs
  | progEnd => simp only [step] at hs; grind

/-- **C83, no files are left (partial).**  Under the same conditions, and if the first fork succeeds, neither the FIFO
nor the lock file is there after the call, and they do not come back.  Missing: as above, and a failing fork. -/
theorem C83_no_files_partial (e : Env) (hm : e.mkfifoOk = true) (hp : 0 < e.pid) (hf : e.fork1Ok = true) (ls : List Label) (t : State)
    (hi : .interrupt ∉ ls) (hq : Prompt e init ls) (hr : run e init ls = some t) (hd : Returned t)
    (ls' : List Label) (t' : State) (hr' : run e t ls' = some t') : t'.fifo = false ∧ t'.lock = false := by
  have h := prompt_run e hm hp ls t hi hq hr
  have h0 : t.m = .done ∧ t.fifo = false ∧ t.lock = false ∧ t.c = .gone ∧ t.g ≠ .chdir ∧ t.g ≠ .openLock := by
    have h1 := h.clean hd hf
    have h2 := h.fin hd
    have h3 := h.fk hd
    have h4 := h.zero (by simp [show t.m = .done from hd])
    have h5 := h.inv.sent
    have h6 := h.inv.got
    refine ⟨hd, h1.1, h1.2, ?_, ?_, ?_⟩ <;> grind
  have := run_inv_all e _ (fun s l s' h hs => clean_stable e s l s' h hs) t ls' t' h0 hr'
  exact ⟨this.2.1, this.2.2.1⟩

/-! ### The call ends -/

def mRank : MPc → Nat
  | .mkfifo => 13 | .fork => 12 | .wait => 11 | .openFifo => 10 | .select => 9 | .read => 8 | .closeFifo => 7 | .openLock => 6
  | .flock => 5 | .readErr => 4 | .block => 3 | .unlinkFifo => 2 | .unlinkLock => 1 | .done => 0

def cRank : CPc → Nat
  | .none => 3 | .fork => 2 | .exit => 1 | .gone => 0

def gRank : GPc → Nat
  | .none => 12 | .chdir => 11 | .openLock => 10 | .flock => 9 | .openFifo => 8 | .opening => 7 | .write => 6 | .exec => 5
  | .errWrite => 4 | .unlock => 3 | .running => 2 | .ended => 0 | .dead => 0

def rank (s : State) : Nat := mRank s.m + cRank s.c + gRank s.g

theorem rank_step (e : Env) (s : State) (l : Label) (s' : State) (hs : step e s l = some s') (h : Inv e s) : rank s' < rank s := by
  obtain ⟨h1, h2, h3, h4, h5, h6, h7, h8, h9, h10, h11, h12, h13⟩ := h
  obtain ⟨m, c, g, fifo, lock, mOpen, data, gfd, held, content, got⟩ := s
  unfold rank
  cases l with
  | main => cases m <;> simp only [step, mainStep] at hs <;> grind [mRank, cRank]
  | child => cases c <;> simp only [step, childStep] at hs <;> grind [cRank, gRank]
  | grand => cases g <;> simp only [step, grandStep] at hs <;> grind [gRank]
  | timeout => simp only [step] at hs; grind [mRank]
  | interrupt => cases m <;> simp only [step, interruptStep] at hs <;> grind [mRank]
  | progEnd => simp only [step] at hs; grind [gRank]

theorem run_length (e : Env) (s : State) (ls : List Label) (t : State) (h : Inv e s) (hr : run e s ls = some t) :
    ls.length + rank t ≤ rank s := by
  induction ls generalizing s with
  | nil => simp only [run, Option.some.injEq] at hr; subst hr; simp
  | cons l ls ih =>
    simp only [run] at hr
    cases hs : step e s l with
    | none => rw [hs] at hr; cases hr
    | some s' =>
      rw [hs] at hr
      have := ih s' (inv_step e s l s' h hs) hr
      have := rank_step e s l s' hs h
      simp only [List.length_cons]
      omega

/-- **C83, the call returns.**  Whatever fails: as long as main has not returned, one of the processes can take a step,
or the time limit passes, or the started program ends; and there are at most 28 steps.  So main returns in every run
that goes on as long as it can. -/
theorem C83_returns (e : Env) (ls : List Label) (t : State) (hr : run e init ls = some t) :
    ls.length ≤ 28 ∧ (¬ Returned t → ∃ l, l ≠ .interrupt ∧ (step e t l).isSome = true) := by
  have h := inv_run e ls t hr
  refine ⟨?_, ?_⟩
  · have := run_length e init ls t (inv_init e) hr
    have h0 : rank init = 28 := by decide
    omega
  · intro hd
    obtain ⟨h1, h2, h3, h4, h5, h6, h7, h8, h9, h10, h11, h12, h13⟩ := h
    obtain ⟨m, c, g, fifo, lock, mOpen, data, gfd, held, content, got⟩ := t
    have hmain : ∀ m', m = m' → (m' ≠ .done ∧ m' ≠ .wait ∧ m' ≠ .select ∧ m' ≠ .flock ∧ m' ≠ .block) → 
        ∃ l, l ≠ .interrupt ∧ (step e ⟨m, c, g, fifo, lock, mOpen, data, gfd, held, content, got⟩ l).isSome = true := by
      intro m' hm' hne
      refine ⟨.main, by decide, ?_⟩
      subst hm'
      cases m <;> simp_all [step, mainStep]
    cases hm : m with
    | done => exact absurd hm hd
    | wait =>
      rw [hm] at h4
      cases hc : c with
      | none => simp [hc] at h4
      | fork => exact ⟨.child, by decide, by simp [step, childStep]⟩
      | exit => exact ⟨.child, by decide, by simp [step, childStep]⟩
      | gone => exact ⟨.main, by decide, by simp [step, mainStep]⟩
    | select =>
      cases data with
      | none => exact ⟨.timeout, by decide, by simp [step]⟩
      | some p => exact ⟨.main, by decide, by simp [step, mainStep]⟩
    | flock =>
      cases held with
      | false => exact ⟨.main, by decide, by simp [step, mainStep]⟩
      | true =>
        refine ⟨.grand, by decide, ?_⟩
        have hgot := h11 (Or.inr (Or.inl hm))
        have := h6 (Or.inl hgot)
        have := h8 rfl
        cases g <;> simp_all [step, grandStep]
    | block =>
      by_cases hb : e.block ∧ got > 0 ∧ e.reaper ∧ g ≠ .ended ∧ g ≠ .dead
      · have hs6 := h6 (Or.inl (by simp only; omega))
        cases hg : g with
        | running => exact ⟨.progEnd, by decide, by simp [step]⟩
        | exec => exact ⟨.grand, by decide, by simp [step, grandStep]⟩
        | errWrite => exact ⟨.grand, by decide, by simp [step, grandStep]⟩
        | unlock => exact ⟨.grand, by decide, by simp [step, grandStep]⟩
        | _ => simp_all
      · refine ⟨.main, by decide, ?_⟩
        simp only [step, mainStep]
        rw [if_neg hb]
        rfl
    | _ => exact hm ▸ hmain m rfl (by rw [hm]; decide)

/-! ### Waiting for the end of the program -/

theorem block_inv_step (e : Env) (hb : e.block = true) (hr : e.reaper = true) (s : State) (l : Label) (s' : State)
    (h : Inv e s ∧ (s.m = .unlinkFifo ∨ s.m = .unlinkLock ∨ s.m = .done → s.got ≠ 0 → s.g = .ended ∨ s.g = .dead))
    (hi : l ≠ .interrupt) (hs : step e s l = some s') :
    Inv e s' ∧ (s'.m = .unlinkFifo ∨ s'.m = .unlinkLock ∨ s'.m = .done → s'.got ≠ 0 → s'.g = .ended ∨ s'.g = .dead) := by
  refine ⟨inv_step e s l s' h.1 hs, ?_⟩
  obtain ⟨⟨h1, h2, h3, h4, h5, h6, h7, h8, h9, h10, h11, h12, h13⟩, k⟩ := h
  obtain ⟨m, c, g, fifo, lock, mOpen, data, gfd, held, content, got⟩ := s
  cases l with
  | main => cases m <;> simp only [step, mainStep] at hs <;> grind
  | child => cases c <;> simp only [step, childStep] at hs <;> grind
  | grand => cases g <;> simp only [step, grandStep] at hs <;> grind
  | timeout => simp only [step] at hs; grind
  | interrupt => exact absurd rfl hi
  | progEnd => simp only [step] at hs; grind

/-- **C83, waiting for the program (partial).**  If orphans become children of the calling process and no signal
interrupts the call, then a call that shall wait returns a process id only when that process has ended.  Missing: a
calling process that is an ordinary one. -/
theorem C83_block_partial (e : Env) (hb : e.block = true) (hre : e.reaper = true) (ls : List Label) (t : State)
    (hi : .interrupt ∉ ls) (hr : run e init ls = some t) (hd : Returned t) (hg : t.got ≠ 0) : t.g = .ended ∨ t.g = .dead := by
  have h := run_inv e _ (fun _ l => l ≠ .interrupt) (fun s l s' h hi hs => block_inv_step e hb hre s l s' h hi hs) init ls t
    ⟨inv_init e, by simp [init]⟩ hr ?_
  · exact h.2 (Or.inr (Or.inr hd)) hg
  · intro l₁ l l₂ s' hls _ hli
    apply hi
    rw [hls, hli]
    simp

/-- **C83 (violated: the call does not wait).**  In an ordinary process the grandchild is not a child of the caller:
with `block_` the call returns at once, while the program runs. -/
theorem C83_violated_block : ∃ t, run { good with block := true } init goodRun = some t ∧ Returned t ∧ t.got = 7 ∧ t.g = .running :=
  ⟨_, rfl, by decide +kernel⟩

/-- **C83 (violated: no lock file).**  If the lock file cannot be created (no permission on `/var/lock`), a program
that does not exist is reported as started: the test `if (lockfile_fd)` lets the failure pass, the error number cannot
be written, and main keeps the process id when it cannot open the lock file. -/
theorem C83_violated_lock_file : ∃ t, run { noProg with lockOk := false } init
      ([.main, .main, .child, .grand, .child, .grand, .grand, .grand, .main, .main, .grand, .grand, .main, .main, .main, .main,
        .grand, .grand, .grand, .main, .main, .main] : List Label) = some t ∧ Returned t ∧ t.got = 7 ∧ t.g = .dead :=
  ⟨_, rfl, by decide +kernel⟩

/-- **C83 (violated: a signal).**  A signal handled by the caller during `flock` makes it read the lock file too early:
a program that cannot be executed is reported as started. -/
theorem C83_violated_interrupt_lock : ∃ t, run noProg init
      ([.main, .main, .child, .grand, .child, .grand, .grand, .grand, .main, .main, .grand, .grand, .main, .main, .main, .main,
        .interrupt, .main, .main, .main, .main, .grand, .grand, .grand] : List Label) = some t ∧ Returned t ∧ t.got = 7 ∧ t.g = .dead :=
  ⟨_, rfl, by decide +kernel⟩

/-- **C83 (violated: slow start).**  If the grandchild needs more than 5 s (or a signal interrupts `select`) before it
sends its id, the call returns 0, the program is started nevertheless, and the lock file stays. -/
theorem C83_violated_slow : ∃ t, run good init
      ([.main, .main, .child, .child, .main, .main, .timeout, .main, .main, .main, .main, .grand, .grand, .grand, .grand, .grand] : List Label)
      = some t ∧ Returned t ∧ t.got = 0 ∧ t.g = .running ∧ t.lock = true :=
  ⟨_, rfl, by decide +kernel⟩

/-- **C83 (violated: no FIFO).**  If the FIFO cannot be created the call goes on, starts the program and returns 0. -/
theorem C83_violated_fifo : ∃ t, run { good with mkfifoOk := false } init
      ([.main, .main, .child, .child, .main, .main, .main, .main, .main, .grand, .grand, .grand, .grand, .grand] : List Label)
      = some t ∧ Returned t ∧ t.got = 0 ∧ t.g = .running :=
  ⟨_, rfl, by decide +kernel⟩

/-- **C83 (violated: files stay).**  If the first fork fails the FIFO stays. -/
theorem C83_violated_fork : ∃ t, run { good with fork1Ok := false } init [.main, .main] = some t ∧ Returned t ∧ t.fifo = true :=
  ⟨_, rfl, by decide +kernel⟩

/-- **C83 (violated: a process hangs).**  The grandchild can open the FIFO just after main has given up and before it
removes the FIFO: then it waits for a reader for ever, whatever happens later. -/
theorem C83_violated_hang : ∃ t, run good init
      ([.main, .main, .child, .child, .grand, .grand, .grand, .main, .main, .timeout, .main, .grand, .main, .main, .main] : List Label)
      = some t ∧ Returned t ∧ t.got = 0 ∧ ∀ ls' t', run good t ls' = some t' → t'.g = .opening := by
  refine ⟨_, rfl, rfl, rfl, ?_⟩
  intro ls' t' hr
  have := run_inv_all good (fun s => s.m = .done ∧ s.g = .opening ∧ s.mOpen = false ∧ s.c = .gone) ?_ _ ls' t' (by decide +kernel) hr
  · exact this.2.1
  · intro s l s' ⟨h1, h2, h3, h4⟩ hs
    cases l <;> simp [step, mainStep, childStep, grandStep, interruptStep, h1, h2, h3, h4] at hs

end Ecal.Proc
