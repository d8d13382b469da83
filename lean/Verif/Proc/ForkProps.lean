import Verif.Proc.Fork

/-!
# C129: a process has an identity of its own, whatever started it
-/

namespace Ecal.Proc.Fork

open Registration

/-! ## Statement vocabulary -/

/-- Process `i` has asked the library for its id, directly or by `Ok`, in its present program. -/
def Asked (ls : List Op) (i : Nat) : Prop :=
  ∃ a o b, ls = a ++ o :: b ∧ (o = .getId i ∨ o = .ok i) ∧ .exec i ∉ b

/-- No process forks that has asked the library for its id. -/
def ForksFirst (ls : List Op) : Prop :=
  ∀ a i pid b, ls = a ++ .fork i pid :: b → ¬ Asked a i

/-! ## Lemmas -/

theorem run_append (w : World) (a b : List Op) : run w (a ++ b) = (run w a).bind (fun w' => run w' b) := by
  induction a generalizing w with
  | nil => rfl
  | cons o r ih =>
    simp only [List.cons_append, run]
    cases step w o with
    | none => rfl
    | some w' => exact ih w'

theorem run_snoc (w : World) (a : List Op) (o : Op) : run w (a ++ [o]) = (run w a).bind (fun w' => step w' o) := by
  rw [run_append]
  cases run w a with
  | none => rfl
  | some w' =>
    simp only [Option.bind_some, run]
    cases step w' o <;> rfl

theorem asked_snoc {ls : List Op} {i : Nat} {o : Op} (h : Asked ls i) (ho : o ≠ .exec i) : Asked (ls ++ [o]) i := by
  obtain ⟨a, o', b, rfl, h1, h2⟩ := h
  refine ⟨a, o', b ++ [o], by simp, h1, ?_⟩
  simp only [List.mem_append, List.mem_singleton]
  rintro (h | h)
  · exact h2 h
  · exact ho h.symm

theorem asked_now (ls : List Op) (i : Nat) {o : Op} (h : o = .getId i ∨ o = .ok i) : Asked (ls ++ [o]) i :=
  ⟨ls, o, [], by simp, h, by simp⟩

theorem first_snoc {ls : List Op} {o : Op} (h : ForksFirst (ls ++ [o])) : ForksFirst ls := by
  intro a i pid b he
  exact h a i pid (b ++ [o]) (by simp [he])

theorem first_left {a b : List Op} (h : ForksFirst (a ++ b)) : ForksFirst a := by
  intro c i pid d he
  exact h c i pid (d ++ b) (by simp [he])

theorem living_some {w : World} {i : Nat} {p : Proc} (h : living w i = some p) : w.procs[i]? = some p ∧ p.alive = true := by
  unfold living at h
  cases hp : w.procs[i]? with
  | none => simp [hp] at h
  | some q =>
    simp only [hp] at h
    by_cases ha : q.alive
    · rw [if_pos ha] at h
      cases h
      exact ⟨rfl, ha⟩
    · rw [if_neg ha] at h
      cases h

theorem living_of {w : World} {i : Nat} {p : Proc} (h : w.procs[i]? = some p) (ha : p.alive = true) : living w i = some p := by
  unfold living
  rw [h]
  exact if_pos ha

theorem free_ne {w : World} {pid : Nat} (h : free w pid = true) : pid ≠ 0 ∧ ∀ (i : Nat) (p : Proc), w.procs[i]? = some p → p.alive = true → p.pid ≠ pid := by
  unfold free at h
  simp only [Bool.and_eq_true, decide_eq_true_eq, List.all_eq_true, Bool.or_eq_true, Bool.not_eq_true'] at h
  refine ⟨h.1, fun i p hp ha => ?_⟩
  rcases h.2 p (List.mem_of_getElem? hp) with h | h
  · rw [ha] at h
    cases h
  · exact h

/-- What a step does to the list of processes. -/
inductive Effect (w w' : World) (o : Op) : Prop where
  | same (h : w'.procs = w.procs) (ho : ∀ i, o ≠ .exec i ∧ o ≠ .getId i ∧ o ≠ .ok i ∧ (∀ pid, o ≠ .fork i pid))
  | born (pid : Nat) (hf : free w pid = true) (h : w'.procs = w.procs ++ [{ pid := pid }]) (ho : o = .spawn pid)
  | forked (i pid : Nat) (p : Proc) (hf : free w pid = true) (hl : living w i = some p)
      (h : w'.procs = w.procs ++ [{ p with pid := pid }]) (ho : o = .fork i pid)
  | exec (i : Nat) (p : Proc) (hl : living w i = some p) (h : w'.procs = w.procs.set i { pid := p.pid }) (ho : o = .exec i)
  | exit (i : Nat) (p : Proc) (hl : living w i = some p) (h : w'.procs = w.procs.set i { p with alive := false }) (ho : o = .exit i)
  | getId (i : Nat) (p : Proc) (hl : living w i = some p) (h : w'.procs = w.procs.set i (readPid p)) (ho : o = .getId i)
  | getHost (i : Nat) (p : Proc) (hl : living w i = some p) (h : w'.procs = w.procs.set i (readHost w.host p)) (ho : o = .getHost i)
  | ok (i : Nat) (p : Proc) (hl : living w i = some p) (h : w'.procs = w.procs.set i (readEvt p)) (ho : o = .ok i)

theorem change_some {w w' : World} {i : Nat} {f : Proc → Proc} (h : change w i f = some w') :
    ∃ p, living w i = some p ∧ w' = { w with procs := w.procs.set i (f p) } := by
  unfold change at h
  cases hl : living w i with
  | none => simp [hl] at h
  | some p =>
    simp only [hl, Option.some.injEq] at h
    exact ⟨p, rfl, h.symm⟩

theorem okStep_some {w w' : World} {i : Nat} (h : okStep w i = some w') :
    ∃ p, living w i = some p ∧ w'.procs = w.procs.set i (readEvt p) ∧ w'.host = w.host ∧
      ((evtOf p ∈ w.flags ∧ w'.flags = w.flags.filter (fun n => n ≠ evtOf p) ∧ w'.told = i :: w.told) ∨
       (evtOf p ∉ w.flags ∧ w'.flags = w.flags ∧ w'.told = w.told)) := by
  unfold okStep at h
  cases hl : living w i with
  | none => simp [hl] at h
  | some p =>
    simp only [hl] at h
    by_cases hf : evtOf p ∈ w.flags
    · rw [if_pos hf] at h
      cases h
      exact ⟨p, rfl, rfl, rfl, Or.inl ⟨hf, rfl, rfl⟩⟩
    · rw [if_neg hf] at h
      cases h
      exact ⟨p, rfl, rfl, rfl, Or.inr ⟨hf, rfl, rfl⟩⟩

theorem forkStep_some {w w' : World} {i pid : Nat} (h : forkStep w i pid = some w') :
    ∃ p, living w i = some p ∧ free w pid = true ∧ w' = { w with procs := w.procs ++ [{ p with pid := pid }] } := by
  unfold forkStep at h
  cases hl : living w i with
  | none => simp [hl] at h
  | some p =>
    simp only [hl] at h
    by_cases hf : free w pid = true
    · rw [if_pos hf] at h
      cases h
      exact ⟨p, rfl, hf, rfl⟩
    · rw [if_neg hf] at h
      cases h

theorem step_effect {w w' : World} {o : Op} (h : step w o = some w') : Effect w w' o := by
  cases o with
  | spawn pid =>
    simp only [step] at h
    by_cases hf : free w pid = true
    · rw [if_pos hf] at h
      cases h
      exact .born pid hf rfl rfl
    · rw [if_neg hf] at h
      cases h
  | fork i pid =>
    obtain ⟨p, hl, hf, rfl⟩ := forkStep_some h
    exact .forked i pid p hf hl rfl rfl
  | exec i =>
    obtain ⟨p, hl, rfl⟩ := change_some h
    exact .exec i p hl rfl rfl
  | exit i =>
    obtain ⟨p, hl, rfl⟩ := change_some h
    exact .exit i p hl rfl rfl
  | getId i =>
    obtain ⟨p, hl, rfl⟩ := change_some h
    exact .getId i p hl rfl rfl
  | getHost i =>
    obtain ⟨p, hl, rfl⟩ := change_some h
    exact .getHost i p hl rfl rfl
  | ok i =>
    obtain ⟨p, hl, hp, _⟩ := okStep_some h
    exact .ok i p hl hp rfl
  | rename g =>
    cases h
    exact .same rfl (by simp)
  | shutdown n =>
    cases h
    exact .same rfl (by simp)

theorem get_append {l : List Proc} {q p : Proc} {i : Nat} (h : (l ++ [q])[i]? = some p) :
    l[i]? = some p ∨ (i = l.length ∧ p = q) := by
  rw [List.getElem?_append] at h
  by_cases hi : i < l.length
  · rw [if_pos hi] at h
    exact Or.inl h
  · rw [if_neg hi] at h
    cases hk : i - l.length with
    | zero =>
      simp only [hk, List.getElem?_cons_zero, Option.some.injEq] at h
      exact Or.inr ⟨by omega, h.symm⟩
    | succ k => simp [hk] at h

theorem get_set {l : List Proc} {q p : Proc} {i j : Nat} (h : (l.set i q)[j]? = some p) :
    (i ≠ j ∧ l[j]? = some p) ∨ (i = j ∧ p = q) := by
  rw [List.getElem?_set] at h
  by_cases hi : i = j
  · rw [if_pos hi] at h
    by_cases hl : i < l.length
    · rw [if_pos hl] at h
      exact Or.inr ⟨hi, (Option.some.inj h).symm⟩
    · rw [if_neg hl] at h
      cases h
  · rw [if_neg hi] at h
    exact Or.inl ⟨hi, h⟩

theorem readPid_pid (p : Proc) : (readPid p).pid = p.pid := by unfold readPid; split <;> rfl
theorem readPid_alive (p : Proc) : (readPid p).alive = p.alive := by unfold readPid; split <;> rfl
theorem readPid_evt (p : Proc) : (readPid p).evt = p.evt := by unfold readPid; split <;> rfl
theorem readHost_pid (h : String) (p : Proc) : (readHost h p).pid = p.pid := by unfold readHost; split <;> rfl
theorem readHost_alive (h : String) (p : Proc) : (readHost h p).alive = p.alive := by unfold readHost; split <;> rfl
theorem readHost_evt (h : String) (p : Proc) : (readHost h p).evt = p.evt := by unfold readHost; split <;> rfl
theorem readHost_cache (h : String) (p : Proc) : (readHost h p).cachePid = p.cachePid := by unfold readHost; split <;> rfl
theorem readEvt_pid (p : Proc) : (readEvt p).pid = p.pid := by unfold readEvt; split <;> exact readPid_pid p
theorem readEvt_alive (p : Proc) : (readEvt p).alive = p.alive := by unfold readEvt; split <;> exact readPid_alive p
theorem readEvt_cache (p : Proc) : (readEvt p).cachePid = idOf p := by unfold readEvt; split <;> rfl
theorem idOf_def (p : Proc) : idOf p = if p.cachePid = 0 then p.pid else p.cachePid := by
  unfold idOf readPid; split <;> rfl
theorem evtOf_def (p : Proc) : evtOf p = if p.evt = 0 then idOf p else p.evt := by
  unfold evtOf readEvt
  rw [readPid_evt]
  by_cases h : p.evt = 0
  · rw [if_pos h, if_pos h]; rfl
  · rw [if_neg h, if_neg h]; exact readPid_evt p

/-- Living processes have different numbers, no process has the number 0. -/
def Apart (w : World) : Prop :=
  (∀ (i : Nat) (p : Proc), w.procs[i]? = some p → p.pid ≠ 0) ∧
  ∀ (i j : Nat) (p q : Proc), w.procs[i]? = some p → w.procs[j]? = some q → p.alive = true → q.alive = true → i ≠ j → p.pid ≠ q.pid

theorem apart_set {w w' : World} {i : Nat} {p q : Proc} (h : Apart w) (hl : living w i = some p)
    (hp : q.pid = p.pid) (he : w'.procs = w.procs.set i q) : Apart w' := by
  obtain ⟨hi, ha⟩ := living_some hl
  refine ⟨?_, ?_⟩
  · intro j r hj
    rw [he] at hj
    rcases get_set hj with ⟨_, h1⟩ | ⟨_, rfl⟩
    · exact h.1 j r h1
    · rw [hp]; exact h.1 i p hi
  · intro j k r s hj hk hr hs hn
    rw [he] at hj hk
    rcases get_set hj with ⟨n1, h1⟩ | ⟨e1, r1⟩ <;> rcases get_set hk with ⟨n2, h2⟩ | ⟨e2, r2⟩
    · exact h.2 j k r s h1 h2 hr hs hn
    · rw [r2, hp]
      exact h.2 j i r p h1 hi hr ha (fun hh => n1 hh.symm)
    · rw [r1, hp]
      exact h.2 i k p s hi h2 ha hs n2
    · exact absurd (e1.symm.trans e2) hn

theorem apart_append {w w' : World} {q : Proc} (h : Apart w) (hf : free w q.pid = true)
    (he : w'.procs = w.procs ++ [q]) : Apart w' := by
  obtain ⟨h0, hn⟩ := free_ne hf
  refine ⟨?_, ?_⟩
  · intro j r hj
    rw [he] at hj
    rcases get_append hj with h1 | ⟨_, rfl⟩
    · exact h.1 j r h1
    · exact h0
  · intro j k r s hj hk hr hs hne
    rw [he] at hj hk
    rcases get_append hj with h1 | ⟨e1, r1⟩ <;> rcases get_append hk with h2 | ⟨e2, r2⟩
    · exact h.2 j k r s h1 h2 hr hs hne
    · rw [r2]; exact hn j r h1 hr
    · rw [r1]; exact fun hh => hn k s h2 hs hh.symm
    · exact absurd (e1.trans e2.symm) hne

theorem apart_step {w w' : World} {o : Op} (h : Apart w) (hs : step w o = some w') : Apart w' := by
  rcases step_effect hs with ⟨he, _⟩ | ⟨pid, hf, he, _⟩ | ⟨i, pid, p, hf, _, he, _⟩ | ⟨i, p, hl, he, _⟩ | ⟨i, p, hl, he, _⟩ |
    ⟨i, p, hl, he, _⟩ | ⟨i, p, hl, he, _⟩ | ⟨i, p, hl, he, _⟩
  · unfold Apart
    rw [he]
    exact h
  · exact apart_append (q := { pid := pid }) h hf he
  · exact apart_append (q := { p with pid := pid }) h hf he
  · exact apart_set h hl (q := { pid := p.pid }) rfl he
  · exact apart_set h hl (q := { p with alive := false }) rfl he
  · exact apart_set h hl (readPid_pid p) he
  · exact apart_set h hl (readHost_pid _ p) he
  · exact apart_set h hl (readEvt_pid p) he

theorem apart_run {w w' : World} {ls : List Op} (h : Apart w) (hr : run w ls = some w') : Apart w' := by
  induction ls generalizing w with
  | nil => cases hr; exact h
  | cons o r ih =>
    simp only [run] at hr
    cases hs : step w o with
    | none => simp [hs] at hr
    | some w1 =>
      simp only [hs] at hr
      exact ih (apart_step h hs) hr

theorem apart_start (h : String) : Apart (start h) := by
  refine ⟨fun i p hp => ?_, fun i j p q hp => ?_⟩ <;> simp [start] at hp

/-- The library's statics in the memory of a process are unset or its own number. -/
def Own (p : Proc) : Prop := (p.cachePid = 0 ∨ p.cachePid = p.pid) ∧ (p.evt = 0 ∨ p.evt = p.pid)

theorem own_id {p : Proc} (h : Own p) : idOf p = p.pid := by
  rw [idOf_def]
  rcases h.1 with h | h
  · rw [if_pos h]
  · by_cases h0 : p.cachePid = 0
    · rw [if_pos h0]
    · rw [if_neg h0, h]

theorem own_evt {p : Proc} (h : Own p) : evtOf p = p.pid := by
  rw [evtOf_def, own_id h]
  rcases h.2 with h | h
  · rw [if_pos h]
  · by_cases h0 : p.evt = 0
    · rw [if_pos h0]
    · rw [if_neg h0, h]

theorem own_readPid {p : Proc} (h : Own p) : Own (readPid p) := by
  refine ⟨Or.inr ?_, ?_⟩
  · rw [readPid_pid]; exact own_id h
  · rw [readPid_evt, readPid_pid]; exact h.2

theorem own_readHost {p : Proc} (g : String) (h : Own p) : Own (readHost g p) := by
  refine ⟨?_, ?_⟩
  · rw [readHost_cache, readHost_pid]; exact h.1
  · rw [readHost_evt, readHost_pid]; exact h.2

theorem own_readEvt {p : Proc} (h : Own p) : Own (readEvt p) := by
  refine ⟨Or.inr ?_, Or.inr ?_⟩
  · rw [readEvt_cache, readEvt_pid]; exact own_id h
  · rw [readEvt_pid]; exact own_evt h

/-- Invariant of histories in which processes fork first. -/
def Inv (ls : List Op) (w : World) : Prop :=
  ∀ (i : Nat) (p : Proc), w.procs[i]? = some p → Own p ∧ ((p.cachePid ≠ 0 ∨ p.evt ≠ 0) → Asked ls i)

theorem inv_set {ls : List Op} {w w' : World} {o : Op} {i : Nat} {q : Proc} (h : Inv ls w)
    (he : w'.procs = w.procs.set i q) (hq : Own q) (ha : (q.cachePid ≠ 0 ∨ q.evt ≠ 0) → Asked (ls ++ [o]) i)
    (ho : ∀ j, i ≠ j → o ≠ .exec j) : Inv (ls ++ [o]) w' := by
  intro j r hj
  rw [he] at hj
  rcases get_set hj with ⟨hn, h1⟩ | ⟨rfl, rfl⟩
  · exact ⟨(h j r h1).1, fun hh => asked_snoc ((h j r h1).2 hh) (ho j hn)⟩
  · exact ⟨hq, ha⟩

theorem inv_append {ls : List Op} {w w' : World} {o : Op} {q : Proc} (h : Inv ls w)
    (he : w'.procs = w.procs ++ [q]) (h1 : q.cachePid = 0) (h2 : q.evt = 0) (ho : ∀ j, o ≠ .exec j) : Inv (ls ++ [o]) w' := by
  intro j r hj
  rw [he] at hj
  rcases get_append hj with h3 | ⟨rfl, rfl⟩
  · exact ⟨(h j r h3).1, fun hh => asked_snoc ((h j r h3).2 hh) (ho j)⟩
  · exact ⟨⟨Or.inl h1, Or.inl h2⟩, fun hh => absurd hh (by rw [h1, h2]; simp)⟩

theorem asked_forget {ls : List Op} {w : World} (h : Inv ls w) {i : Nat} {p : Proc} (hp : w.procs[i]? = some p)
    (hn : ¬ Asked ls i) : p.cachePid = 0 ∧ p.evt = 0 := by
  refine ⟨Classical.byContradiction fun hh => hn ((h i p hp).2 (Or.inl hh)), Classical.byContradiction fun hh => hn ((h i p hp).2 (Or.inr hh))⟩

theorem inv_step {ls : List Op} {w w' : World} {o : Op} (h : Inv ls w) (hs : step w o = some w')
    (hf : ForksFirst (ls ++ [o])) : Inv (ls ++ [o]) w' := by
  rcases step_effect hs with ⟨he, ho⟩ | ⟨pid, _, he, ho⟩ | ⟨i, pid, p, _, hl, he, ho⟩ | ⟨i, p, hl, he, ho⟩ | ⟨i, p, hl, he, ho⟩ |
    ⟨i, p, hl, he, ho⟩ | ⟨i, p, hl, he, ho⟩ | ⟨i, p, hl, he, ho⟩
  · intro j r hj
    rw [he] at hj
    exact ⟨(h j r hj).1, fun hh => asked_snoc ((h j r hj).2 hh) (ho j).1⟩
  · exact inv_append h he rfl rfl (by rw [ho]; simp)
  · have hn : ¬ Asked ls i := hf ls i pid [] (by rw [ho])
    obtain ⟨h1, h2⟩ := asked_forget h (living_some hl).1 hn
    exact inv_append h he h1 h2 (by rw [ho]; simp)
  · exact inv_set h he ⟨Or.inl rfl, Or.inl rfl⟩ (by simp) (fun j hj => by rw [ho]; simpa using hj)
  · have hp := h i p (living_some hl).1
    exact inv_set h he hp.1 (fun hh => asked_snoc (hp.2 hh) (by rw [ho]; simp)) (by rw [ho]; simp)
  · have hp := h i p (living_some hl).1
    exact inv_set h he (own_readPid hp.1) (fun _ => asked_now ls i (Or.inl ho)) (by rw [ho]; simp)
  · have hp := h i p (living_some hl).1
    refine inv_set h he (own_readHost _ hp.1) (fun hh => asked_snoc (hp.2 ?_) (by rw [ho]; simp)) (by rw [ho]; simp)
    rwa [readHost_cache, readHost_evt] at hh
  · have hp := h i p (living_some hl).1
    exact inv_set h he (own_readEvt hp.1) (fun _ => asked_now ls i (Or.inr ho)) (by rw [ho]; simp)

theorem inv_run {h : String} {n : Nat} : ∀ {ls : List Op}, ls.length = n → ∀ {w : World}, run (start h) ls = some w → ForksFirst ls → Inv ls w := by
  induction n with
  | zero =>
    intro ls hl w hr _
    have : ls = [] := List.length_eq_zero_iff.1 hl
    subst this
    cases hr
    intro i p hp
    simp [start] at hp
  | succ n ih =>
    intro ls hl w hr hf
    rcases List.eq_nil_or_concat ls with rfl | ⟨a, o, rfl⟩
    · simp at hl
    · rw [List.concat_eq_append] at hr hf hl ⊢
      rw [run_snoc] at hr
      cases ha : run (start h) a with
      | none => simp [ha] at hr
      | some w1 =>
        simp only [ha, Option.bind_some] at hr
        exact inv_step (ih (by simpa using hl) ha (first_snoc hf)) hr hf

/-- The process `i` after a step that is not its `exec`. -/
theorem keeps_step {w w' : World} {o : Op} {i : Nat} {p : Proc} (hs : step w o = some w') (hp : w.procs[i]? = some p)
    (ho : o ≠ .exec i) (hc : p.cachePid ≠ 0) : ∃ q, w'.procs[i]? = some q ∧ q.cachePid = p.cachePid ∧ q.pid = p.pid := by
  have hi : i < w.procs.length := by
    rcases Nat.lt_or_ge i w.procs.length with h | h
    · exact h
    · rw [List.getElem?_eq_none h] at hp
      cases hp
  have app : ∀ q : Proc, (w.procs ++ [q])[i]? = some p := fun q => by rw [List.getElem?_append_left hi]; exact hp
  have set' : ∀ (j : Nat) (r q : Proc), living w j = some r → (j = i → r.cachePid ≠ 0 → q.cachePid = r.cachePid ∧ q.pid = r.pid) →
      ∃ q', (w.procs.set j q)[i]? = some q' ∧ q'.cachePid = p.cachePid ∧ q'.pid = p.pid := by
    intro j r q hl hq
    rw [List.getElem?_set]
    by_cases hj : j = i
    · rw [if_pos hj, if_pos (by omega)]
      have hr := (living_some hl).1
      rw [hj, hp] at hr
      cases hr
      exact ⟨q, rfl, hq hj hc⟩
    · rw [if_neg hj]
      exact ⟨p, hp, rfl, rfl⟩
  rcases step_effect hs with ⟨he, _⟩ | ⟨pid, _, he, _⟩ | ⟨j, pid, r, _, hl, he, _⟩ | ⟨j, r, hl, he, ho'⟩ | ⟨j, r, hl, he, _⟩ |
    ⟨j, r, hl, he, _⟩ | ⟨j, r, hl, he, _⟩ | ⟨j, r, hl, he, _⟩
  · exact ⟨p, by rw [he]; exact hp, rfl, rfl⟩
  · exact ⟨p, by rw [he]; exact app _, rfl, rfl⟩
  · exact ⟨p, by rw [he]; exact app _, rfl, rfl⟩
  · rw [he]
    exact set' j r _ hl (fun hj _ => absurd (by rw [ho', hj]) ho)
  · rw [he]
    exact set' j r _ hl (fun _ _ => ⟨rfl, rfl⟩)
  · rw [he]
    exact set' j r _ hl (fun _ hr => ⟨by unfold readPid; rw [if_neg hr], readPid_pid r⟩)
  · rw [he]
    exact set' j r _ hl (fun _ _ => ⟨readHost_cache _ r, readHost_pid _ r⟩)
  · rw [he]
    exact set' j r _ hl (fun _ hr => ⟨by rw [readEvt_cache, idOf_def, if_neg hr], readEvt_pid r⟩)

theorem keeps_run {w w' : World} {ls : List Op} {i : Nat} {p : Proc} (hr : run w ls = some w') (hp : w.procs[i]? = some p)
    (ho : .exec i ∉ ls) (hc : p.cachePid ≠ 0) : ∃ q, w'.procs[i]? = some q ∧ q.cachePid = p.cachePid ∧ q.pid = p.pid := by
  induction ls generalizing w p with
  | nil =>
    cases hr
    exact ⟨p, hp, rfl, rfl⟩
  | cons o r ih =>
    simp only [run] at hr
    cases hs : step w o with
    | none => simp [hs] at hr
    | some w1 =>
      simp only [hs] at hr
      simp only [List.mem_cons, not_or] at ho
      obtain ⟨q, hq, h1, h2⟩ := keeps_step hs hp (fun hh => ho.1 hh.symm) hc
      obtain ⟨q', hq', h3, h4⟩ := ih hr hq ho.2 (by rw [h1]; exact hc)
      exact ⟨q', hq', h3.trans h1, h4.trans h2⟩

theorem idOf_of_cache {p q : Proc} (hc : p.cachePid ≠ 0) (h : q.cachePid = p.cachePid) : idOf q = p.cachePid := by
  rw [idOf_def, h, if_neg hc]

/-! ## Property theorems -/

/-- If processes fork before they ask the library for their id, then in every history of starts, forks,
`exec`s, ends and calls every process reports its own number, and listens to the shutdown event of its own
number. -/
theorem C129_own_partial (h : String) (ls : List Op) (w : World) (hr : run (start h) ls = some w) (hf : ForksFirst ls)
    (i : Nat) (p : Proc) (hp : w.procs[i]? = some p) : idOf p = p.pid ∧ evtOf p = p.pid := by
  have := (inv_run rfl hr hf i p hp).1
  exact ⟨own_id this, own_evt this⟩

/-- Then different living processes report different ids. -/
theorem C129_distinct_partial (h : String) (ls : List Op) (w : World) (hr : run (start h) ls = some w) (hf : ForksFirst ls)
    (i j : Nat) (p q : Proc) (hp : w.procs[i]? = some p) (hq : w.procs[j]? = some q) (ha : p.alive = true) (hb : q.alive = true)
    (hn : i ≠ j) : idOf p ≠ idOf q ∧ evtOf p ≠ evtOf q := by
  have h1 := C129_own_partial h ls w hr hf i p hp
  have h2 := C129_own_partial h ls w hr hf j q hq
  have := (apart_run (apart_start h) hr).2 i j p q hp hq ha hb hn
  exact ⟨by rw [h1.1, h2.1]; exact this, by rw [h1.2, h2.2]; exact this⟩

/-- Then what one living process registers is accepted by every other living process that regards the sender
as a member of its host group. -/
theorem C129_heard_partial (h : String) (ls : List Op) (w : World) (hr : run (start h) ls = some w) (hf : ForksFirst ls)
    (i j : Nat) (p q : Proc) (hp : w.procs[i]? = some p) (hq : w.procs[j]? = some q) (ha : p.alive = true) (hb : q.alive = true)
    (hn : i ≠ j) (network : Bool) (cmd : Cmd) (group thg phg : String)
    (hm : isHostGroupMember (filterOf network group p) (sampleOf cmd w.host thg phg q) = true) :
    accept (filterOf network group p) (sampleOf cmd w.host thg phg q) = true := by
  have hd := (C129_distinct_partial h ls w hr hf i j p q hp hq ha hb hn).1
  unfold accept
  rw [if_pos hm]
  have : isSameProcess (filterOf network group p) (sampleOf cmd w.host thg phg q) = false := by
    simp only [isSameProcess, filterOf, sampleOf, beq_eq_false_iff_ne, ne_eq, Int.natCast_inj]
    exact fun hh => hd hh.symm
  rw [this]
  rfl

/-- A process that has asked for its id reports the same id until it starts another program. -/
theorem C129_stays (h : String) (a b : List Op) (w w' : World) (i : Nat) (p : Proc) (o : Op)
    (ho : o = .getId i ∨ o = .ok i) (hr : run (start h) (a ++ [o]) = some w) (hp : w.procs[i]? = some p)
    (hr' : run w b = some w') (hb : .exec i ∉ b) : ∃ q, w'.procs[i]? = some q ∧ idOf q = idOf p := by
  have hA := apart_run (apart_start h) hr
  rw [run_snoc] at hr
  cases ha : run (start h) a with
  | none => simp [ha] at hr
  | some w1 =>
    simp only [ha, Option.bind_some] at hr
    have hc : p.cachePid = idOf p ∧ p.cachePid ≠ 0 := by
      have key : ∀ r : Proc, w1.procs[i]? = some r → (p = readPid r ∨ p = readEvt r) → p.cachePid = idOf p ∧ p.cachePid ≠ 0 := by
        intro r hr1 he
        have h0 : idOf r ≠ 0 := by
          rw [idOf_def]
          by_cases hz : r.cachePid = 0
          · rw [if_pos hz]
            exact (apart_run (apart_start h) ha).1 i r hr1
          · rwa [if_neg hz]
        have h1 : p.cachePid = idOf r := by
          rcases he with he | he
          · rw [he]; rfl
          · rw [he]; exact readEvt_cache r
        refine ⟨?_, by rw [h1]; exact h0⟩
        rw [idOf_def, if_neg (by rw [h1]; exact h0)]
      rcases ho with rfl | rfl
      · obtain ⟨r, hl, rfl⟩ := change_some hr
        rcases get_set hp with ⟨hn, _⟩ | ⟨_, he⟩
        · exact absurd rfl hn
        · exact key r (living_some hl).1 (Or.inl he)
      · obtain ⟨r, hl, he, _⟩ := okStep_some hr
        rw [he] at hp
        rcases get_set hp with ⟨hn, _⟩ | ⟨_, he⟩
        · exact absurd rfl hn
        · exact key r (living_some hl).1 (Or.inr he)
    obtain ⟨q, hq, h1, _⟩ := keeps_run hr' hp hb hc.2
    exact ⟨q, hq, (idOf_of_cache hc.2 h1).trans hc.1⟩

/-- Process `i` stays `Own` whatever happens, as long as it is there. -/
theorem own_step {w w' : World} {o : Op} {i : Nat} {p : Proc} (hs : step w o = some w') (hp : w.procs[i]? = some p) (h : Own p) :
    ∃ q, w'.procs[i]? = some q ∧ Own q ∧ q.pid = p.pid := by
  have hi : i < w.procs.length := by
    rcases Nat.lt_or_ge i w.procs.length with h | h
    · exact h
    · rw [List.getElem?_eq_none h] at hp
      cases hp
  have app : ∀ q : Proc, (w.procs ++ [q])[i]? = some p := fun q => by rw [List.getElem?_append_left hi]; exact hp
  have set' : ∀ (j : Nat) (r q : Proc), living w j = some r → (Own r → Own q ∧ q.pid = r.pid) →
      ∃ q', (w.procs.set j q)[i]? = some q' ∧ Own q' ∧ q'.pid = p.pid := by
    intro j r q hl hq
    rw [List.getElem?_set]
    by_cases hj : j = i
    · rw [if_pos hj, if_pos (by omega)]
      have hr := (living_some hl).1
      rw [hj, hp] at hr
      cases hr
      exact ⟨q, rfl, hq h⟩
    · rw [if_neg hj]
      exact ⟨p, hp, h, rfl⟩
  rcases step_effect hs with ⟨he, _⟩ | ⟨pid, _, he, _⟩ | ⟨j, pid, r, _, hl, he, _⟩ | ⟨j, r, hl, he, _⟩ | ⟨j, r, hl, he, _⟩ |
    ⟨j, r, hl, he, _⟩ | ⟨j, r, hl, he, _⟩ | ⟨j, r, hl, he, _⟩ <;> rw [he]
  · exact ⟨p, hp, h, rfl⟩
  · exact ⟨p, app _, h, rfl⟩
  · exact ⟨p, app _, h, rfl⟩
  · exact set' j r _ hl (fun _ => ⟨⟨Or.inl rfl, Or.inl rfl⟩, rfl⟩)
  · exact set' j r _ hl (fun hr => ⟨hr, rfl⟩)
  · exact set' j r _ hl (fun hr => ⟨own_readPid hr, readPid_pid r⟩)
  · exact set' j r _ hl (fun hr => ⟨own_readHost _ hr, readHost_pid _ r⟩)
  · exact set' j r _ hl (fun hr => ⟨own_readEvt hr, readEvt_pid r⟩)

theorem own_run {w w' : World} {ls : List Op} {i : Nat} {p : Proc} (hr : run w ls = some w') (hp : w.procs[i]? = some p) (h : Own p) :
    ∃ q, w'.procs[i]? = some q ∧ Own q ∧ q.pid = p.pid := by
  induction ls generalizing w p with
  | nil =>
    cases hr
    exact ⟨p, hp, h, rfl⟩
  | cons o r ih =>
    simp only [run] at hr
    cases hs : step w o with
    | none => simp [hs] at hr
    | some w1 =>
      simp only [hs] at hr
      obtain ⟨q, hq, h1, h2⟩ := own_step hs hp h
      obtain ⟨q', hq', h3, h4⟩ := ih hr hq h1
      exact ⟨q', hq', h3, h4.trans h2⟩

/-- A process that was started as a program, not by `fork`, reports its own number at all times, whatever
it and the others do; it also listens to the event of its own number. -/
theorem C129_spawned (w w1 w2 : World) (pid : Nat) (b : List Op) (hs : step w (.spawn pid) = some w1) (hr : run w1 b = some w2) :
    ∃ q, w2.procs[w.procs.length]? = some q ∧ q.pid = pid ∧ idOf q = pid ∧ evtOf q = pid := by
  have hp : w1.procs[w.procs.length]? = some { pid := pid } := by
    simp only [step] at hs
    by_cases hf : free w pid = true
    · rw [if_pos hf] at hs
      cases hs
      simp
    · rw [if_neg hf] at hs
      cases hs
  obtain ⟨q, hq, ho, he⟩ := own_run hr hp ⟨Or.inl rfl, Or.inl rfl⟩
  exact ⟨q, hq, he, (own_id ho).trans he, (own_evt ho).trans he⟩

/-- So does a process, however it came to be, once it has started another program by `exec`. -/
theorem C129_exec (w w1 w2 : World) (i : Nat) (p : Proc) (b : List Op) (hp : w.procs[i]? = some p)
    (hs : step w (.exec i) = some w1) (hr : run w1 b = some w2) :
    ∃ q, w2.procs[i]? = some q ∧ q.pid = p.pid ∧ idOf q = p.pid ∧ evtOf q = p.pid := by
  obtain ⟨r, hl, rfl⟩ := change_some hs
  have hr1 := (living_some hl).1
  rw [hp] at hr1
  cases hr1
  have hi : i < w.procs.length := by
    rcases Nat.lt_or_ge i w.procs.length with h | h
    · exact h
    · rw [List.getElem?_eq_none h] at hp
      cases hp
  have h1 : (w.procs.set i { pid := p.pid })[i]? = some { pid := p.pid } := by
    rw [List.getElem?_set, if_pos rfl, if_pos hi]
  obtain ⟨q, hq, ho, he⟩ := own_run hr h1 ⟨Or.inl rfl, Or.inl rfl⟩
  exact ⟨q, hq, he, (own_id ho).trans he, (own_evt ho).trans he⟩

/-- **The rule behind the violations**: a process forked by one that has read its id reports the id of its
parent – in every history, for good, unless it starts another program. -/
theorem C129_violated_inherits (w w1 w2 : World) (i pid : Nat) (p : Proc) (b : List Op) (hp : w.procs[i]? = some p)
    (hc : p.cachePid ≠ 0) (hs : step w (.fork i pid) = some w1) (hr : run w1 b = some w2) (hb : .exec w.procs.length ∉ b) :
    ∃ q, w2.procs[w.procs.length]? = some q ∧ q.pid = pid ∧ idOf q = idOf p := by
  obtain ⟨r, hl, _, rfl⟩ := forkStep_some hs
  have hr1 := (living_some hl).1
  rw [hp] at hr1
  cases hr1
  have h1 : (w.procs ++ [{ p with pid := pid }])[w.procs.length]? = some { p with pid := pid } := by simp
  obtain ⟨q, hq, h2, h3⟩ := keeps_run hr h1 hb hc
  exact ⟨q, hq, h3, by rw [idOf_of_cache (p := { p with pid := pid }) hc h2, idOf_def, if_neg hc]⟩

/-! ### The host name -/

theorem host_step {w w' : World} {o : Op} (hs : step w o = some w') (ho : ∀ g, o ≠ .rename g) : w'.host = w.host := by
  cases o with
  | spawn pid =>
    simp only [step] at hs
    by_cases hf : free w pid = true
    · rw [if_pos hf] at hs
      cases hs
      rfl
    · rw [if_neg hf] at hs
      cases hs
  | fork i pid =>
    obtain ⟨p, _, _, rfl⟩ := forkStep_some hs
    rfl
  | exec i =>
    obtain ⟨p, _, rfl⟩ := change_some hs
    rfl
  | exit i =>
    obtain ⟨p, _, rfl⟩ := change_some hs
    rfl
  | getId i =>
    obtain ⟨p, _, rfl⟩ := change_some hs
    rfl
  | getHost i =>
    obtain ⟨p, _, rfl⟩ := change_some hs
    rfl
  | ok i =>
    obtain ⟨p, _, _, he, _⟩ := okStep_some hs
    exact he
  | rename g => exact absurd rfl (ho g)
  | shutdown n =>
    cases hs
    rfl

theorem readPid_host (p : Proc) : (readPid p).cacheHost = p.cacheHost := by unfold readPid; split <;> rfl
theorem readEvt_host (p : Proc) : (readEvt p).cacheHost = p.cacheHost := by unfold readEvt; split <;> exact readPid_host p
theorem hostOf_def (h : String) (p : Proc) : hostOf h p = if p.cacheHost = "" then h else p.cacheHost := by
  unfold hostOf readHost; split <;> rfl

def HostInv (w : World) : Prop := ∀ (i : Nat) (p : Proc), w.procs[i]? = some p → p.cacheHost = "" ∨ p.cacheHost = w.host

theorem hostInv_step {w w' : World} {o : Op} (h : HostInv w) (hs : step w o = some w') (ho : ∀ g, o ≠ .rename g) : HostInv w' := by
  have hh := host_step hs ho
  have set' : ∀ (j : Nat) (r q : Proc), living w j = some r → (q.cacheHost = r.cacheHost ∨ q.cacheHost = "" ∨ q.cacheHost = w.host) →
      w'.procs = w.procs.set j q → HostInv w' := by
    intro j r q hl hq he i p hp
    rw [he] at hp
    rw [hh]
    rcases get_set hp with ⟨_, h1⟩ | ⟨_, rfl⟩
    · exact h i p h1
    · rcases hq with hq | hq
      · rw [hq]; exact h j r (living_some hl).1
      · exact hq
  have app' : ∀ q : Proc, (q.cacheHost = "" ∨ q.cacheHost = w.host) → w'.procs = w.procs ++ [q] → HostInv w' := by
    intro q hq he i p hp
    rw [he] at hp
    rw [hh]
    rcases get_append hp with h1 | ⟨_, rfl⟩
    · exact h i p h1
    · exact hq
  rcases step_effect hs with ⟨he, _⟩ | ⟨pid, _, he, _⟩ | ⟨j, pid, r, _, hl, he, _⟩ | ⟨j, r, hl, he, _⟩ | ⟨j, r, hl, he, _⟩ |
    ⟨j, r, hl, he, _⟩ | ⟨j, r, hl, he, _⟩ | ⟨j, r, hl, he, _⟩
  · intro i p hp
    rw [he] at hp
    rw [hh]
    exact h i p hp
  · exact app' _ (Or.inl rfl) he
  · exact app' { r with pid := pid } (h j r (living_some hl).1) he
  · exact set' j r _ hl (Or.inr (Or.inl rfl)) he
  · exact set' j r { r with alive := false } hl (Or.inl rfl) he
  · exact set' j r _ hl (Or.inl (readPid_host r)) he
  · refine set' j r _ hl ?_ he
    unfold readHost
    by_cases h0 : r.cacheHost = ""
    · rw [if_pos h0]; exact Or.inr (Or.inr rfl)
    · rw [if_neg h0]; exact Or.inl rfl
  · exact set' j r _ hl (Or.inl (readEvt_host r)) he

theorem hostInv_run {w w' : World} {ls : List Op} (h : HostInv w) (hr : run w ls = some w') (hn : ∀ g, .rename g ∉ ls) :
    HostInv w' ∧ w'.host = w.host := by
  induction ls generalizing w with
  | nil =>
    cases hr
    exact ⟨h, rfl⟩
  | cons o r ih =>
    simp only [run] at hr
    cases hs : step w o with
    | none => simp [hs] at hr
    | some w1 =>
      simp only [hs] at hr
      have ho : ∀ g, o ≠ .rename g := fun g hh => hn g (by rw [hh]; exact List.mem_cons_self)
      obtain ⟨h1, h2⟩ := ih (hostInv_step h hs ho) hr (fun g hh => hn g (List.mem_cons_of_mem _ hh))
      exact ⟨h1, h2.trans (host_step hs ho)⟩

/-- As long as the host is not renamed, every process reports its name. -/
theorem C129_host_partial (h : String) (ls : List Op) (w : World) (hr : run (start h) ls = some w) (hn : ∀ g, .rename g ∉ ls)
    (i : Nat) (p : Proc) (hp : w.procs[i]? = some p) : hostOf w.host p = h := by
  obtain ⟨h1, h2⟩ := hostInv_run (w := start h) (fun i p hp => by simp [start] at hp) hr hn
  rw [hostOf_def, h2]
  by_cases h0 : p.cacheHost = ""
  · rw [if_pos h0]; rfl
  · rw [if_neg h0]
    rcases h1 i p hp with h3 | h3
    · exact absurd h3 h0
    · rw [h3, h2]; rfl

/-! ### Requests to stop -/

/-- If processes fork first, a request that is sent to the number of a living process is seen by this
process when it asks next, whatever the others do in the meantime. -/
theorem C129_stop_partial (h : String) (a b : List Op) (w w' : World) (i : Nat) (p : Proc)
    (hr : run (start h) a = some w) (hp : w.procs[i]? = some p) (hl : p.alive = true)
    (hr' : run w (.shutdown p.pid :: b ++ [.ok i]) = some w') (hf : ForksFirst (a ++ .shutdown p.pid :: b ++ [.ok i]))
    (h1 : .ok i ∉ b) (h2 : .exit i ∉ b) : i ∈ w'.told := by
  -- the request is pending after every part of `b`
  have key : ∀ (n : Nat) (c d : List Op), c.length = n → b = c ++ d → ∀ w1, run w (.shutdown p.pid :: c) = some w1 →
      p.pid ∈ w1.flags ∧ ∃ q, w1.procs[i]? = some q ∧ q.alive = true ∧ q.pid = p.pid := by
    intro n
    induction n with
    | zero =>
      intro c d hc hb w1 hw
      have : c = [] := List.length_eq_zero_iff.1 hc
      subst this
      simp only [run, step, Option.some.injEq] at hw
      subst hw
      exact ⟨List.mem_cons_self, p, hp, hl, rfl⟩
    | succ n ih =>
      intro c d hc hb w2 hw
      rcases List.eq_nil_or_concat c with rfl | ⟨e, o, rfl⟩
      · simp at hc
      · rw [List.concat_eq_append] at hw hb hc
        have ha : run w (.shutdown p.pid :: (e ++ [o])) = (run w (.shutdown p.pid :: e)).bind (fun w1 => step w1 o) :=
          run_snoc w (.shutdown p.pid :: e) o
        rw [ha] at hw
        cases hw1 : run w (.shutdown p.pid :: e) with
        | none => simp [hw1] at hw
        | some w1 =>
          simp only [hw1, Option.bind_some] at hw
          obtain ⟨hfl, q, hq, hqa, hqp⟩ := ih e ([o] ++ d) (by simpa using hc) (by simp [hb]) w1 hw1
          have hall : run (start h) (a ++ .shutdown p.pid :: e) = some w1 := by rw [run_append, hr]; exact hw1
          have hinv := inv_run rfl hall (first_left (b := o :: d ++ [.ok i]) (by
            have : a ++ .shutdown p.pid :: e ++ (o :: d ++ [.ok i]) = a ++ .shutdown p.pid :: b ++ [.ok i] := by simp [hb]
            rw [this]; exact hf))
          have hap := apart_run (apart_start h) hall
          have ho : o ∈ b := by simp [hb]
          have hi : i < w1.procs.length := by
            rcases Nat.lt_or_ge i w1.procs.length with h | h
            · exact h
            · rw [List.getElem?_eq_none h] at hq
              cases hq
          have set' : ∀ (j : Nat) (r x : Proc), living w1 j = some r → (j = i → x.alive = r.alive) → x.pid = r.pid →
              ∃ q', (w1.procs.set j x)[i]? = some q' ∧ q'.alive = true ∧ q'.pid = p.pid := by
            intro j r x hlj hx1 hx2
            rw [List.getElem?_set]
            by_cases hj : j = i
            · rw [if_pos hj, if_pos (by omega)]
              have hr1 := (living_some hlj).1
              rw [hj, hq] at hr1
              cases hr1
              exact ⟨x, rfl, (hx1 hj).trans hqa, hx2.trans hqp⟩
            · rw [if_neg hj]
              exact ⟨q, hq, hqa, hqp⟩
          have app' : ∀ x : Proc, ∃ q', (w1.procs ++ [x])[i]? = some q' ∧ q'.alive = true ∧ q'.pid = p.pid :=
            fun x => ⟨q, by rw [List.getElem?_append_left hi]; exact hq, hqa, hqp⟩
          cases o with
          | spawn pid =>
            simp only [step] at hw
            by_cases hfr : free w1 pid = true
            · rw [if_pos hfr] at hw
              cases hw
              exact ⟨hfl, app' _⟩
            · rw [if_neg hfr] at hw
              cases hw
          | fork j pid =>
            obtain ⟨r, _, _, rfl⟩ := forkStep_some hw
            exact ⟨hfl, app' _⟩
          | exec j =>
            obtain ⟨r, hlj, rfl⟩ := change_some hw
            exact ⟨hfl, set' j r _ hlj (fun _ => (living_some hlj).2.symm) rfl⟩
          | exit j =>
            obtain ⟨r, hlj, rfl⟩ := change_some hw
            exact ⟨hfl, set' j r _ hlj (fun hj => absurd (hj ▸ ho) h2) rfl⟩
          | getId j =>
            obtain ⟨r, hlj, rfl⟩ := change_some hw
            exact ⟨hfl, set' j r _ hlj (fun _ => readPid_alive r) (readPid_pid r)⟩
          | getHost j =>
            obtain ⟨r, hlj, rfl⟩ := change_some hw
            exact ⟨hfl, set' j r _ hlj (fun _ => readHost_alive _ r) (readHost_pid _ r)⟩
          | ok j =>
            obtain ⟨r, hlj, he, _, hcase⟩ := okStep_some hw
            have hji : j ≠ i := fun hj => h1 (hj ▸ ho)
            obtain ⟨hr1, hra⟩ := living_some hlj
            have hne : evtOf r ≠ p.pid := by
              rw [own_evt (hinv j r hr1).1, ← hqp]
              exact hap.2 j i r q hr1 hq hra hqa hji
            refine ⟨?_, ?_⟩
            · rcases hcase with ⟨_, hf2, _⟩ | ⟨_, hf2, _⟩ <;> rw [hf2]
              · exact List.mem_filter.2 ⟨hfl, by simpa using fun hh => hne hh.symm⟩
              · exact hfl
            · rw [he]
              exact set' j r _ hlj (fun _ => readEvt_alive r) (readEvt_pid r)
          | rename g =>
            cases hw
            exact ⟨hfl, q, hq, hqa, hqp⟩
          | shutdown m =>
            cases hw
            exact ⟨List.mem_cons_of_mem _ hfl, q, hq, hqa, hqp⟩
  have hlast : run w (.shutdown p.pid :: b ++ [.ok i]) = (run w (.shutdown p.pid :: b)).bind (fun w1 => step w1 (.ok i)) :=
    run_snoc w (.shutdown p.pid :: b) (.ok i)
  rw [hlast] at hr'
  cases hw1 : run w (.shutdown p.pid :: b) with
  | none => simp [hw1] at hr'
  | some w1 =>
    simp only [hw1, Option.bind_some] at hr'
    obtain ⟨hfl, q, hq, hqa, hqp⟩ := key b.length b [] rfl (by simp) w1 hw1
    have hall : run (start h) (a ++ .shutdown p.pid :: b) = some w1 := by rw [run_append, hr]; exact hw1
    have hinv := inv_run rfl hall (first_left hf)
    obtain ⟨r, hlj, _, _, hcase⟩ := okStep_some hr'
    have hr1 := (living_some hlj).1
    rw [hq] at hr1
    cases hr1
    have he : evtOf q = p.pid := (own_evt (hinv i q hq).1).trans hqp
    rcases hcase with ⟨_, _, ht⟩ | ⟨hno, _⟩
    · rw [ht]; exact List.mem_cons_self
    · rw [he] at hno
      exact absurd hfl hno

/-- And a process that sees a request was meant: somebody has sent one to its number. -/
theorem C129_meant_partial (h : String) (ls : List Op) (w : World) (hr : run (start h) ls = some w) (hf : ForksFirst ls)
    (i : Nat) (hi : i ∈ w.told) : ∃ p, w.procs[i]? = some p ∧ .shutdown p.pid ∈ ls := by
  have key : ∀ (n : Nat) (ls : List Op), ls.length = n → ForksFirst ls → ∀ w, run (start h) ls = some w →
      (∀ m ∈ w.flags, .shutdown m ∈ ls) ∧ ∀ i ∈ w.told, ∃ p, w.procs[i]? = some p ∧ .shutdown p.pid ∈ ls := by
    intro n
    induction n with
    | zero =>
      intro ls hl _ w hw
      have : ls = [] := List.length_eq_zero_iff.1 hl
      subst this
      cases hw
      exact ⟨by simp [start], by simp [start]⟩
    | succ n ih =>
      intro ls hl hf w hw
      rcases List.eq_nil_or_concat ls with rfl | ⟨e, o, rfl⟩
      · simp at hl
      · rw [List.concat_eq_append] at hw hf hl ⊢
        rw [run_snoc] at hw
        cases hw1 : run (start h) e with
        | none => simp [hw1] at hw
        | some w1 =>
          simp only [hw1, Option.bind_some] at hw
          obtain ⟨hA, hB⟩ := ih e (by simpa using hl) (first_snoc hf) w1 hw1
          have hinv := inv_run rfl hw1 (first_snoc hf)
          have up : ∀ {x : Op}, x ∈ e → x ∈ e ++ [o] := fun hx => List.mem_append_left _ hx
          have grow : ∀ i ∈ w1.told, ∃ p, w.procs[i]? = some p ∧ .shutdown p.pid ∈ e ++ [o] := by
            intro i hi
            obtain ⟨p, hp, hm⟩ := hB i hi
            obtain ⟨q, hq, _, hqp⟩ := own_step hw hp (hinv i p hp).1
            exact ⟨q, hq, by rw [hqp]; exact up hm⟩
          have plain : w.flags = w1.flags → w.told = w1.told → (∀ m ∈ w.flags, .shutdown m ∈ e ++ [o]) ∧
              ∀ i ∈ w.told, ∃ p, w.procs[i]? = some p ∧ .shutdown p.pid ∈ e ++ [o] := by
            intro h1 h2
            rw [h1, h2]
            exact ⟨fun m hm => up (hA m hm), grow⟩
          cases o with
          | spawn pid =>
            refine plain ?_ ?_ <;>
            · simp only [step] at hw
              by_cases hfr : free w1 pid = true
              · rw [if_pos hfr] at hw
                cases hw
                rfl
              · rw [if_neg hfr] at hw
                cases hw
          | fork j pid =>
            obtain ⟨r, _, _, he⟩ := forkStep_some hw
            exact plain (by rw [he]) (by rw [he])
          | exec j =>
            obtain ⟨r, _, he⟩ := change_some hw
            exact plain (by rw [he]) (by rw [he])
          | exit j =>
            obtain ⟨r, _, he⟩ := change_some hw
            exact plain (by rw [he]) (by rw [he])
          | getId j =>
            obtain ⟨r, _, he⟩ := change_some hw
            exact plain (by rw [he]) (by rw [he])
          | getHost j =>
            obtain ⟨r, _, he⟩ := change_some hw
            exact plain (by rw [he]) (by rw [he])
          | ok j =>
            obtain ⟨r, hlj, he, _, hcase⟩ := okStep_some hw
            rcases hcase with ⟨hin, hf2, ht⟩ | ⟨_, hf2, ht⟩
            · rw [hf2, ht]
              refine ⟨fun m hm => up (hA m (List.mem_filter.1 hm).1), ?_⟩
              intro i hi
              rcases List.mem_cons.1 hi with rfl | hi
              · have hr1 := (living_some hlj).1
                obtain ⟨q, hq, _, hqp⟩ := own_step hw hr1 (hinv i r hr1).1
                rw [own_evt (hinv i r hr1).1] at hin
                exact ⟨q, hq, by rw [hqp]; exact up (hA _ hin)⟩
              · exact grow i hi
            · exact plain hf2 ht
          | rename g =>
            cases hw
            exact plain rfl rfl
          | shutdown m =>
            cases hw
            refine ⟨?_, grow⟩
            intro k hk
            rcases List.mem_cons.1 hk with rfl | hk
            · simp
            · exact up (hA k hk)
  exact (key ls.length ls rfl hf w hr).2 i hi

/-! ### A history that meets the hypotheses -/

/-- A server forks a worker before it touches the library, starts a tool by `fork` and `exec`; all of them
ask; the number of the tool is used again after its end. -/
def goodRun : List Op :=
  [.spawn 5, .fork 0 6, .fork 0 7, .exec 2, .getId 0, .ok 1, .getHost 1, .ok 2, .exit 2, .spawn 7, .getId 3]

/-- Whether a history has forks only of processes that have not asked, as a computation. -/
def firstB : List Nat → List Op → Bool
  | _, [] => true
  | u, .fork i _ :: r => !u.contains i && firstB u r
  | u, .getId i :: r => firstB (i :: u) r
  | u, .ok i :: r => firstB (i :: u) r
  | u, _ :: r => firstB u r

theorem firstB_sound (ls : List Op) (u : List Nat) (pre : List Op) (hu : ∀ i, Asked pre i → i ∈ u) (h : firstB u ls = true) :
    ∀ a i pid b, ls = a ++ .fork i pid :: b → ¬ Asked (pre ++ a) i := by
  induction ls generalizing u pre with
  | nil => intro a i pid b he; simp at he
  | cons o r ih =>
    have hask : ∀ {i : Nat}, Asked (pre ++ [o]) i → i ∈ u ∨ o = .getId i ∨ o = .ok i := by
      rintro i ⟨c, x, d, he, hx, hd⟩
      rcases List.eq_nil_or_concat d with rfl | ⟨d', y, rfl⟩
      · have := List.append_inj_right' he rfl
        simp only [List.cons.injEq, and_true] at this
        rw [this]
        exact Or.inr hx
      · rw [List.concat_eq_append] at he hd
        have he' : pre ++ [o] = (c ++ x :: d') ++ [y] := by simpa using he
        have h1 := List.append_inj_left' he' rfl
        exact Or.inl (hu i ⟨c, x, d', h1, hx, fun hh => hd (List.mem_append_left _ hh)⟩)
    have next : ∀ u', (∀ i, Asked (pre ++ [o]) i → i ∈ u') → firstB u' r = true →
        ∀ a i pid b, r = a ++ .fork i pid :: b → ¬ Asked (pre ++ o :: a) i := by
      intro u' hu' hb a i pid b he
      have := ih u' (pre ++ [o]) hu' hb a i pid b he
      simpa using this
    have main : ¬ (∃ i pid, o = .fork i pid ∧ Asked pre i) ∧ ∃ u', (∀ i, Asked (pre ++ [o]) i → i ∈ u') ∧ firstB u' r = true := by
      cases o with
      | fork i pid =>
        simp only [firstB, Bool.and_eq_true, Bool.not_eq_true', List.contains_eq_mem, decide_eq_false_iff_not] at h
        refine ⟨?_, u, ?_, h.2⟩
        · rintro ⟨j, q, he, ha⟩
          cases he
          exact h.1 (hu _ ha)
        · intro j hj
          rcases hask hj with h1 | h1 | h1
          · exact h1
          · cases h1
          · cases h1
      | getId i =>
        refine ⟨(by rintro ⟨j, q, he, _⟩; cases he), i :: u, ?_, h⟩
        intro j hj
        rcases hask hj with h1 | h1 | h1
        · exact List.mem_cons_of_mem _ h1
        · cases h1; exact List.mem_cons_self
        · cases h1
      | ok i =>
        refine ⟨(by rintro ⟨j, q, he, _⟩; cases he), i :: u, ?_, h⟩
        intro j hj
        rcases hask hj with h1 | h1 | h1
        · exact List.mem_cons_of_mem _ h1
        · cases h1
        · cases h1; exact List.mem_cons_self
      | spawn _ | exec _ | exit _ | getHost _ | rename _ | shutdown _ =>
        refine ⟨(by rintro ⟨j, q, he, _⟩; cases he), u, ?_, h⟩
        intro j hj
        rcases hask hj with h1 | h1 | h1
        · exact h1
        · cases h1
        · cases h1
    obtain ⟨hn, u', hu', hb⟩ := main
    intro a i pid b he
    cases a with
    | nil =>
      simp only [List.nil_append, List.cons.injEq] at he
      rw [List.append_nil]
      exact fun ha => hn ⟨i, pid, he.1, ha⟩
    | cons x a =>
      simp only [List.cons_append, List.cons.injEq] at he
      rw [← he.1]
      exact next u' hu' hb a i pid b he.2

theorem goodRun_first : ForksFirst goodRun := by
  have := firstB_sound goodRun [] [] (by rintro i ⟨a, o, b, he, _⟩; simp at he) (by decide +kernel)
  intro a i pid b he
  exact this a i pid b he

example : ∃ w p q r, run (start "h") goodRun = some w ∧ w.procs[0]? = some p ∧ w.procs[1]? = some q ∧ w.procs[3]? = some r ∧
    p.alive = true ∧ q.alive = true ∧ r.alive = true ∧ idOf p = 5 ∧ idOf q = 6 ∧ idOf r = 7 ∧ evtOf q = 6 ∧
    isHostGroupMember (filterOf true "h" p) (sampleOf .regPublisher w.host "" "" q) = true :=
  ⟨_, _, _, _, rfl, rfl, rfl, rfl, rfl, rfl, rfl, by decide +kernel, by decide +kernel, by decide +kernel, by decide +kernel, by decide +kernel⟩

/-- A request among other steps reaches the worker. -/
def stopPart : List Op := [.getId 0, .ok 0, .shutdown 9, .exit 2]

theorem stop_first : ForksFirst ([.spawn 5, .fork 0 6, .spawn 7] ++ .shutdown 6 :: stopPart ++ [.ok 1]) := by
  have := firstB_sound ([.spawn 5, .fork 0 6, .spawn 7] ++ .shutdown 6 :: stopPart ++ [.ok 1]) [] []
    (by rintro i ⟨a, o, b, he, _⟩; simp at he) (by decide +kernel)
  intro a i pid b he
  exact this a i pid b he

example : ∃ w w', run (start "h") [.spawn 5, .fork 0 6, .spawn 7] = some w ∧ w.procs[1]? = some { pid := 6 } ∧
    run w (.shutdown 6 :: stopPart ++ [.ok 1]) = some w' ∧ .ok 1 ∉ stopPart ∧ .exit 1 ∉ stopPart ∧ w'.told = [1] :=
  ⟨_, _, rfl, rfl, rfl, by decide +kernel, by decide +kernel, by decide +kernel⟩

/-! ### Violations -/

/-- **Violation**: a program reads its id and forks afterwards.  Parent and child report the same id; every
registration the child sends is dropped by the parent as its own, and the other way round, whatever it
registers: publishers and subscribers, servers and clients of the two never meet. -/
theorem C129_violated_fork : ∃ w p q, run (start "h") [.spawn 5, .getId 0, .fork 0 6] = some w ∧
    w.procs[0]? = some p ∧ w.procs[1]? = some q ∧ p.pid = 5 ∧ q.pid = 6 ∧ idOf p = 5 ∧ idOf q = 5 ∧
    ∀ (network : Bool) (cmd : Cmd) (phg : String),
      apply (filterOf network "h" p) (sampleOf cmd w.host "" phg q) = none ∧
      apply (filterOf network "h" q) (sampleOf cmd w.host "" phg p) = none := by
  refine ⟨_, _, _, rfl, rfl, rfl, rfl, rfl, by decide +kernel, by decide +kernel, ?_⟩
  intro network cmd phg
  have m : ∀ cmd, (if sampleHg ⟨cmd, "h", 5, "", phg⟩ = "" then "h" else sampleHg ⟨cmd, "h", 5, "", phg⟩) = "h" := by
    intro cmd; cases cmd <;> rfl
  have g : accept ⟨network, false, "h", 5⟩ ⟨cmd, "h", 5, "", phg⟩ = false := by
    simp only [accept, isHostGroupMember, isSameProcess, m]
    rfl
  constructor
  · show apply ⟨network, false, "h", 5⟩ ⟨cmd, "h", 5, "", phg⟩ = none
    unfold apply
    rw [g]
    rfl
  · show apply ⟨network, false, "h", 5⟩ ⟨cmd, "h", 5, "", phg⟩ = none
    unfold apply
    rw [g]
    rfl

/-- **Violation**: a request to stop that is sent to the number of such a child is never seen by it. -/
theorem C129_violated_not_told : ∃ w, run (start "h") [.spawn 5, .getId 0, .fork 0 6, .shutdown 6, .ok 1, .ok 1, .ok 0] = some w ∧
    w.told = [] ∧ w.flags = [6] :=
  ⟨_, rfl, by decide +kernel, by decide +kernel⟩

/-- **Violation**: a request that is sent to the parent is taken by the child if it asks first; the parent
goes on. -/
theorem C129_violated_wrong_one : ∃ w, run (start "h") [.spawn 5, .ok 0, .fork 0 6, .shutdown 5, .ok 1, .ok 0] = some w ∧
    w.told = [1] ∧ w.flags = [] :=
  ⟨_, rfl, by decide +kernel, by decide +kernel⟩

/-- **Violation**: the parent ends and its number is given to a program that has nothing to do with it: the
child, still living, and the new program report the same id. -/
theorem C129_violated_reuse : ∃ w p q, run (start "h") [.spawn 5, .getId 0, .fork 0 6, .exit 0, .spawn 5] = some w ∧
    w.procs[1]? = some p ∧ w.procs[2]? = some q ∧ p.alive = true ∧ q.alive = true ∧ idOf p = idOf q ∧ p.pid ≠ q.pid :=
  ⟨_, _, _, rfl, rfl, rfl, rfl, rfl, by decide +kernel, by decide +kernel⟩

/-- **Violation**: after the host has been renamed, a program that has read the name before and one that has
not report different hosts; with the default host group they are strangers to each other: without network
mode neither accepts a registration of the other. -/
theorem C129_violated_rename : ∃ w p q, run (start "old") [.spawn 5, .getHost 0, .spawn 6, .rename "new", .getHost 1] = some w ∧
    w.procs[0]? = some p ∧ w.procs[1]? = some q ∧ hostOf w.host p = "old" ∧ hostOf w.host q = "new" ∧
    accept (filterOf false "old" p) (sampleOf .regPublisher w.host "" "" q) = false ∧
    accept (filterOf false "new" q) (sampleOf .regPublisher w.host "" "" p) = false :=
  ⟨_, _, _, rfl, rfl, rfl, by decide +kernel, by decide +kernel, by decide +kernel, by decide +kernel⟩

end Ecal.Proc.Fork
