import Verif.Sync.NamedEventSpec

/-!
# C117: processes that open an event of the same name share one event
-/

namespace Ecal.Sync.NamedEvent

/-- C117 (holds under `Calm`): in every history in which no system call fails, nobody opens a name while
another object of that name is being constructed or destroyed, owners close last and processes die only
outside of constructor and destructor, all waits, of all processes, return what they would return if every
name were one flag.  Missing: histories that are not calm, see the violations. -/
theorem C117_one_event_per_name_partial (l : List Step) (hc : Calm {} l) :
    (run {} l).crash = none ∧ (run {} l).waits = (refRun {} {} l).waits :=
  ⟨(inv_run l _ inv_init hc).crash, (rel_run l _ _ inv_init rel_init hc).waits⟩

/-- C117 (holds under `Calm`): two open events of the same name are the same shared object, two of different
names never are. -/
theorem C117_same_object_partial (l : List Step) (hc : Calm {} l) (h k : Nat)
    (hh : isOpen (run {} l) h = true) (hk : isOpen (run {} l) k = true) :
    ∃ a b, ((run {} l).objs h).han = .ready a ∧ ((run {} l).objs k).han = .ready b ∧
      (a = b ↔ ((run {} l).objs h).name = ((run {} l).objs k).name) := by
  have hi := inv_run l _ inv_init hc
  have h1 := hi.objs h
  have h2 := hi.objs k
  have aux : ∀ j, isOpen (run {} l) j = true → objOk (run {} l) j → ∃ a, ((run {} l).objs j).han = .ready a := by
    intro j hj ho
    unfold isOpen at hj
    unfold objOk at ho
    revert hj ho
    cases ((run {} l).objs j).han <;> simp
  obtain ⟨a, ha⟩ := aux h hh h1
  obtain ⟨b, hb⟩ := aux k hk h2
  refine ⟨a, b, ha, hb, ?_⟩
  simp only [objOk, ha] at h1
  simp only [objOk, hb] at h2
  constructor
  · intro e; subst e; exact hi.inj _ _ _ h1.1 h2.1
  · intro e; rw [e, h2.1] at h1; exact (Option.some.inj h1.1).symm

/-- C117 (holds under `Calm`): what one process signals the next wait of any other reports, once. -/
theorem C117_signal_seen_partial (l : List Step) (hc : Calm {} l) (h k : Nat)
    (hh : isOpen (run {} l) h = true) (hk : isOpen (run {} l) k = true)
    (hn : ((run {} l).objs h).name = ((run {} l).objs k).name) :
    (run {} (l ++ [.set h, .wait k, .wait k])).waits = (run {} l).waits ++ [(k, true), (k, false)] := by
  obtain ⟨a, b, h1, h2, h3⟩ := C117_same_object_partial l hc h k hh hk
  have hi := inv_run l _ inv_init hc
  have hab := h3.2 hn
  subst hab
  have h4 := hi.objs h
  simp only [objOk, h1] at h4
  have e : run {} (l ++ [.set h, .wait k, .wait k]) =
      step (step (step (run {} l) (.set h)) (.wait k)) (.wait k) := by simp [run]
  rw [e]
  obtain ⟨i1, w1, o1, f1⟩ := after_set (run {} l) h a hi h1
  obtain ⟨i2, w2, o2, f2⟩ := after_wait _ k a i1 (by rw [o1]; exact h2)
  obtain ⟨i3, w3, o3, f3⟩ := after_wait _ k a i2 (by rw [o2, o1]; exact h2)
  rw [w3, w2, w1, f2, f1]
  simp

/-- The steps of a publisher that opens the event of a subscriber, the subscriber's opening, signals in both
directions of time, and the subscriber's and the publisher's closing are calm. -/
def sampleCalm : List Step :=
  create 1 7 true ++ openExisting 2 7 false ++ [.set 1, .wait 2, .wait 2] ++ create 3 8 false ++
    [.set 3, .wait 1, .close 2, .close 1, .sys 1 true]

example : Calm {} sampleCalm ∧ (run {} sampleCalm).waits = [(2, true), (2, false), (1, false)] ∧
    isOpen (run {} (sampleCalm.take 9)) 1 = true ∧ isOpen (run {} (sampleCalm.take 9)) 2 = true :=
  ⟨calm_of_calmB 4 sampleCalm {} (fun _ _ => rfl) (by decide), by decide, by decide, by decide⟩

/-- A user leaves the event `h` alone, apart from setting it and waiting for it. -/
def keeps (h : Nat) : Step → Bool
  | .close k => k != h
  | .die k => k != h
  | _ => true

/-- The null handle stays one. -/
theorem mute_step (s : State) (a : Step) (h : Nat) (hm : (s.objs h).han = .mute) (hk : keeps h a = true) :
    ((step s a).objs h).han = .mute ∧
      (step s a).waits.filter (fun w => w.1 == h && w.2) = s.waits.filter (fun w => w.1 == h && w.2) := by
  unfold step
  split
  · exact ⟨hm, rfl⟩
  · cases a <;> simp only [keeps] at hk
    case new k n w =>
      simp only [newEvent]
      split
      · rename_i hg
        have : h ≠ k := by intro e; subst e; rw [hm] at hg; cases hg
        simp [upd, this, hm]
      · exact ⟨hm, rfl⟩
    case sys k ok =>
      by_cases e : h = k
      · subst e; simp [sys, hm]
      · simp only [sys]; repeat' split
        all_goals simp [setHan, setInode, upd, e, hm]
    case set k =>
      simp only [setEvent]; repeat' split
      all_goals simp [setInode, hm]
    case wait k =>
      by_cases e : h = k
      · subst e; simp [waitEvent, hm]
      · have e' : (k == h) = false := by simpa using (fun c : k = h => e c.symm)
        simp only [waitEvent]; repeat' split
        all_goals simp [setInode, hm, List.filter_append, e']
    case close k =>
      have e : h ≠ k := by intro c; subst c; simp at hk
      simp only [closeEvent]; repeat' split
      all_goals simp [setHan, upd, e, hm]
    case die k =>
      have e : h ≠ k := by intro c; subst c; simp at hk
      simp [setHan, upd, e, hm]

/-- C117: an event whose opening failed reported success, and stays deaf: whatever anybody does, no wait on
it ever returns true. -/
theorem C117_null_event_deaf (s : State) (h : Nat) (hm : (s.objs h).han = .mute) (l : List Step)
    (hk : ∀ a ∈ l, keeps h a = true) :
    (run s l).waits.filter (fun w => w.1 == h && w.2) = s.waits.filter (fun w => w.1 == h && w.2) := by
  induction l generalizing s with
  | nil => rfl
  | cons a l ih =>
    have h1 := mute_step s a h hm (hk a (by simp))
    have := ih (step s a) h1.1 (fun b hb => hk b (by simp [hb]))
    rw [← h1.2, ← this]; rfl

/-- Publisher and subscriber open the event at the same time: both find that it does not exist, one creates
it, the other's exclusive creation fails. -/
def bothOpen : List Step :=
  [.new 1 7 true, .new 2 7 false, .sys 1 true, .sys 2 true, .sys 1 true, .sys 2 true, .sys 1 true, .sys 1 true, .sys 1 true]

/-- C117 is violated by processes that open a name at the same time: opening succeeds for both, no system
call fails for a reason other than the race, and from then on nothing the publisher signals reaches the
subscriber, for any continuation in which the subscriber keeps its event. -/
theorem C117_violated_simultaneous_open :
    isOpen (run {} bothOpen) 1 = true ∧ isOpen (run {} bothOpen) 2 = true ∧
    (∀ l, (∀ a ∈ l, keeps 2 a = true) → ∀ w ∈ (run (run {} bothOpen) l).waits, w.1 = 2 → w.2 = false) ∧
    (run (run {} bothOpen) [.set 1, .wait 2]).waits = [(2, false)] := by
  refine ⟨by decide, by decide, fun l hl w hw h2 => ?_, by decide⟩
  have := C117_null_event_deaf (run {} bothOpen) 2 (by decide) l hl
  have hnil : (run {} bothOpen).waits.filter (fun w => w.1 == 2 && w.2) = [] := by decide
  rw [hnil] at this
  rw [List.filter_eq_nil_iff] at this
  have := this w hw
  simpa [h2] using this

/-- C117 is violated by a process that opens the event between its creation and the call that gives it a
size: the first access to the event kills the process (`SIGBUS`). -/
theorem C117_violated_opened_too_early :
    (run {} ([.new 1 7 true, .sys 1 true, .sys 1 true] ++ openExisting 2 7 false ++ [.wait 2])).crash = some .sigbus ∧
    (run {} ([.new 1 7 true, .sys 1 true, .sys 1 true] ++ openExisting 2 7 false ++ [.set 2])).crash = some .sigbus := by
  decide

/-- C117 is violated by a process that opens the event after it got its size and before its mutex is
initialised: it locks a mutex nobody has initialised. -/
theorem C117_violated_opened_before_init :
    (run {} ([.new 1 7 true, .sys 1 true, .sys 1 true, .sys 1 true] ++ openExisting 2 7 false ++ [.set 2])).crash =
      some .uninit := by decide

/-- C117 is violated by owners that close first: a process that opens the event afterwards gets another one,
and its signals do not reach those who have held the event all the time. -/
theorem C117_violated_owner_closes_first :
    (run {} (create 1 7 true ++ openExisting 2 7 false ++ [.close 1, .sys 1 true] ++ create 3 7 true ++
      [.set 3, .wait 2, .wait 3])).waits = [(2, false), (3, true)] := by decide

/-- C117 is violated by two owners, as `Ok` and `ShutdownProcess` are: the first closes, a third process
creates the event anew, the second closes its old one and thereby removes the name of the new one. -/
theorem C117_violated_two_owners :
    (run {} (create 1 7 true ++ openExisting 2 7 true ++ [.close 1, .sys 1 true] ++ create 3 7 false ++
      [.close 2, .sys 2 true] ++ create 4 7 false ++ [.set 4, .wait 3, .wait 4])).waits = [(3, false), (4, true)] := by
  decide

/-- C117 is violated when the mapping of an existing event fails: the result of `mmap` is not checked, the
first access kills the process. -/
theorem C117_violated_mmap_fails :
    isOpen (run {} (create 1 7 true ++ [.new 2 7 false, .sys 2 true, .sys 2 false])) 2 = true ∧
    (run {} (create 1 7 true ++ [.new 2 7 false, .sys 2 true, .sys 2 false, .set 2])).crash = some .sigsegv ∧
    (run {} [.new 1 7 true, .sys 1 true, .sys 1 true, .sys 1 true, .sys 1 false]).crash = some .sigsegv := by
  decide

/-- C117 is violated when there is no room for a new event: the creator gives up but leaves the name behind,
and every process that opens the name from then on is killed by its first access, also when there is room
again. -/
theorem C117_violated_no_room :
    (run {} ([.new 1 7 true, .sys 1 true, .sys 1 true, .sys 1 false, .close 1] ++ openExisting 2 7 false ++ [.wait 2])).crash =
      some .sigbus ∧
    (run {} [.new 1 7 true, .sys 1 true, .sys 1 true, .sys 1 false, .close 1]).link 7 = some 0 := by decide

/-- C117 is violated by a subscriber that opens the event after the publisher has gone: it creates the event
and, not being the owner, leaves it behind when it closes; nobody has the event open, the name exists. -/
theorem C117_violated_left_behind :
    (run {} (create 1 7 true ++ [.close 1, .sys 1 true] ++ create 2 7 false ++ [.close 2])).link 7 = some 1 ∧
    (∀ h, isOpen (run {} (create 1 7 true ++ [.close 1, .sys 1 true] ++ create 2 7 false ++ [.close 2])) h = false) := by
  refine ⟨by decide, fun h => ?_⟩
  rcases Nat.lt_or_ge h 3 with hl | hl
  · have : h = 0 ∨ h = 1 ∨ h = 2 := by omega
    rcases this with e | e | e <;> subst e <;> decide
  · have e : (run {} (create 1 7 true ++ [.close 1, .sys 1 true] ++ create 2 7 false ++ [.close 2])).objs h = {} := by
      have h1 : h ≠ 1 := by omega
      have h2 : h ≠ 2 := by omega
      simp [run, step, create, newEvent, sys, setHan, upd, setInode, closeEvent, h1, h2]
    unfold isOpen; rw [e]

/-- C117 is violated across generations of users: a signal nobody took before the process died is seen by
the next process that opens the name, however much later. -/
theorem C117_violated_stale_signal :
    (run {} (create 1 7 true ++ openExisting 2 7 false ++ [.set 2, .close 2, .die 1] ++ openExisting 3 7 true ++
      [.wait 3])).waits = [(3, true)] := by decide

end Ecal.Sync.NamedEvent
