import Verif.Service.ClientNotify

/-!
# C91: which notifications an application gets from a service client
-/

namespace Ecal.Service.ClientNotify

open Ecal

/-! ## Specification -/

/-- What the application did last about the callback for events of kind `k`: nothing since the beginning or the end of the client, removed it,
or added callback `c`. -/
inductive Choice where
  | nothing
  | removed
  | added (c : Nat)
deriving DecidableEq, Repr

/-- `alive`: the client is not stopped. -/
def choice (k : Kind) : List Step → Bool → Choice → Choice
  | [], _, h => h
  | .add j c :: as, alive, h => choice k as alive (if j = k ∧ alive = true then .added c else h)
  | .rem j :: as, alive, h => choice k as alive (if j = k ∧ alive = true then .removed else h)
  | .stop :: as, _, _ => choice k as false .nothing
  | _ :: as, alive, h => choice k as alive h

/-- The choice in force after a history. -/
def latest (steps : List Step) (k : Kind) : Choice := choice k steps true .nothing

/-- Reads the events about one server: `some b` – they alternate, beginning with `connected`, and the last one was `connected` iff `b`. -/
def altStep (k : Nat) (s : Option Bool) : Event → Option Bool
  | .connected j => if j = k then (if s = some false then some true else none) else s
  | .disconnected j => if j = k then (if s = some true then some false else none) else s
  | .timeout => s

def alternation (k : Nat) (l : List (Nat × Event)) : Option Bool := l.foldl (fun s x => altStep k s x.2) (some false)

/-! ## The stored callbacks are the choice in force -/

def Choice.handler : Choice → Handler
  | .nothing => .absent
  | .removed => .empty
  | .added c => .fn c

/-- The parts of the state no notification changes. -/
structure Frame (s s' : State) : Prop where
  created : s'.created = s.created
  handler : s'.handler = s.handler

theorem Frame.refl (s : State) : Frame s s := ⟨rfl, rfl⟩

theorem Frame.trans {a b c : State} (h : Frame a b) (h' : Frame b c) : Frame a c :=
  ⟨h'.created.trans h.created, h'.handler.trans h.handler⟩

theorem notify_some {s s' : State} {e : Event} (h : notify s e = some s') :
    s' = { s with log := s'.log } ∧ ((s.handler e.kind = .absent ∧ s'.log = s.log) ∨
      ∃ c, s.handler e.kind = .fn c ∧ s'.log = s.log ++ [(c, e)]) := by
  unfold notify at h
  split at h
  · rename_i hh
    obtain rfl := Option.some.inj h
    exact ⟨rfl, .inl ⟨hh, rfl⟩⟩
  · cases h
  · rename_i c hh
    obtain rfl := Option.some.inj h
    exact ⟨rfl, .inr ⟨c, hh, rfl⟩⟩

theorem notify_frame {s s' : State} {e : Event} (h : notify s e = some s') : Frame s s' := by
  rw [(notify_some h).1]
  exact ⟨rfl, rfl⟩

theorem notify_none {s : State} {e : Event} : notify s e = none ↔ s.handler e.kind = .empty := by
  unfold notify
  split <;> rename_i hh <;> simp [hh]

theorem checkNew_frame (s : State) (k : Nat) :
    Frame s (checkNew s k) ∧ (checkNew s k).connected = s.connected ∧ (checkNew s k).log = s.log := by
  unfold checkNew
  split <;> exact ⟨⟨rfl, rfl⟩, rfl, rfl⟩

theorem foldNew_frame (l : List Nat) (s : State) :
    Frame s (l.foldl checkNew s) ∧ (l.foldl checkNew s).connected = s.connected ∧ (l.foldl checkNew s).log = s.log := by
  induction l generalizing s with
  | nil => exact ⟨.refl s, rfl, rfl⟩
  | cons k l ih =>
    obtain ⟨a, b, c⟩ := ih (checkNew s k)
    obtain ⟨a', b', c'⟩ := checkNew_frame s k
    exact ⟨a'.trans a, b.trans b', c.trans c'⟩

/-- New entries of the log come from the callbacks in force. -/
def Told (s s' : State) : Prop := ∃ new, s'.log = s.log ++ new ∧ ∀ x ∈ new, s.handler x.2.kind = .fn x.1

theorem Told.refl (s : State) : Told s s := ⟨[], by simp, by simp⟩

theorem Told.of_log {s s' : State} (h : s'.log = s.log) : Told s s' := ⟨[], by simp [h], by simp⟩

theorem Told.trans {a b c : State} (hf : Frame a b) (h : Told a b) (h' : Told b c) : Told a c := by
  obtain ⟨n, e, p⟩ := h
  obtain ⟨n', e', p'⟩ := h'
  refine ⟨n ++ n', by rw [e', e, List.append_assoc], ?_⟩
  intro x hx
  rcases List.mem_append.1 hx with hx | hx
  · exact p x hx
  · rw [← hf.handler]; exact p' x hx

theorem notify_told {s s' : State} {e : Event} (h : notify s e = some s') : Told s s' := by
  rcases (notify_some h).2 with ⟨_, hl⟩ | ⟨c, hc, hl⟩
  · exact .of_log hl
  · exact ⟨[(c, e)], hl, by simp [hc]⟩

theorem registerService_good {s s' : State} {key : Nat} (h : registerService s key = some s') : Frame s s' ∧ Told s s' := by
  unfold registerService at h
  split at h
  · obtain rfl := Option.some.inj h
    exact ⟨.refl s, .refl s⟩
  · split at h
    · cases h
    · rename_i s1 h1
      obtain rfl := Option.some.inj h
      have t := notify_told h1
      exact ⟨⟨(notify_frame h1).created, (notify_frame h1).handler⟩, t⟩

theorem checkGone_good {s s' : State} {x : Nat × Sess} (h : checkGone s x = some s') : Frame s s' ∧ Told s s' := by
  unfold checkGone at h
  split at h
  · split at h
    · split at h
      · cases h
      · rename_i s1 h1
        obtain rfl := Option.some.inj h
        have t := notify_told h1
        exact ⟨⟨(notify_frame h1).created, (notify_frame h1).handler⟩, t⟩
    · obtain rfl := Option.some.inj h
      exact ⟨.refl s, .refl s⟩
  · obtain rfl := Option.some.inj h
    exact ⟨.refl s, .refl s⟩

theorem checkGoneAll_good (xs : List (Nat × Sess)) {s s' : State} (h : checkGoneAll xs s = some s') : Frame s s' ∧ Told s s' := by
  induction xs generalizing s with
  | nil =>
    obtain rfl := Option.some.inj h
    exact ⟨.refl s, .refl s⟩
  | cons x xs ih =>
    unfold checkGoneAll at h
    split at h
    · cases h
    · rename_i s1 h1
      obtain ⟨f, t⟩ := checkGone_good h1
      obtain ⟨f', t'⟩ := ih h
      exact ⟨f.trans f', t.trans f t'⟩

theorem timeouts_good (n : Nat) {s s' : State} (h : timeouts n s = some s') : Frame s s' ∧ Told s s' := by
  induction n generalizing s with
  | zero =>
    obtain rfl := Option.some.inj h
    exact ⟨.refl s, .refl s⟩
  | succ n ih =>
    unfold timeouts at h
    split at h
    · cases h
    · rename_i s1 h1
      obtain ⟨f', t'⟩ := ih h
      exact ⟨(notify_frame h1).trans f', (notify_told h1).trans (notify_frame h1) t'⟩

/-- A step that is not an exception of the library. -/
def Next (s : State) (a : Step) (s' : State) : Prop := step s a = .ok s' ∨ step s a = .thrown s'

theorem inLibrary_next {o : Option State} {s : State} (h : inLibrary o = .ok s ∨ inLibrary o = .thrown s) : o = some s := by
  cases o with
  | none => rcases h with h | h <;> cases h
  | some t => rcases h with h | h <;> cases h; rfl

theorem next_told {s s' : State} {a : Step} (h : Next s a s') : Told s s' := by
  unfold Next at h
  cases a with
  | add k c =>
    simp only [step] at h
    split at h <;> rcases h with h | h <;> cases h <;> exact .of_log rfl
  | rem k =>
    simp only [step] at h
    split at h <;> rcases h with h | h <;> cases h <;> exact .of_log rfl
  | announce key =>
    simp only [step] at h
    split at h
    · exact (registerService_good (inLibrary_next h)).2
    · rcases h with h | h <;> cases h
      exact .of_log rfl
  | expire key =>
    simp only [step] at h
    rcases h with h | h <;> cases h
    exact .of_log rfl
  | cycle =>
    simp only [step] at h
    split at h
    · have hf := foldNew_frame s.known s
      exact Told.trans hf.1 (.of_log hf.2.2) (checkGoneAll_good _ (inLibrary_next h)).2
    · rcases h with h | h <;> cases h
      exact .refl s
  | established key =>
    simp only [step] at h
    split at h <;> rcases h with h | h <;> cases h <;> exact .of_log rfl
  | failed key =>
    simp only [step] at h
    split at h <;> rcases h with h | h <;> cases h <;> exact .of_log rfl
  | call limit answers =>
    simp only [step] at h
    split at h
    · split at h
      · rcases h with h | h <;> cases h
        exact .refl s
      · rename_i s1 h1
        rcases h with h | h <;> cases h
        exact (timeouts_good _ h1).2
    · rcases h with h | h <;> cases h
      exact .refl s
  | stop =>
    simp only [step] at h
    split at h <;> rcases h with h | h <;> cases h <;> exact .of_log rfl

/-- How a step changes what the application has chosen. -/
theorem next_handler {s s' : State} {a : Step} (h : Next s a s') (as : List Step) (k : Kind) (ch : Choice)
    (hk : s.handler k = ch.handler) (hs : s.created = false → ch = .nothing) :
    ∃ ch', choice k (a :: as) s.created ch = choice k as s'.created ch' ∧ s'.handler k = ch'.handler ∧
      (s'.created = false → ch' = .nothing) := by
  have keep : ∀ t : State, Frame s t → t.handler k = ch.handler ∧ (t.created = false → ch = .nothing) :=
    fun t f => ⟨by rw [f.handler]; exact hk, by rw [f.created]; exact hs⟩
  unfold Next at h
  cases a with
  | add j c =>
    simp only [step] at h
    split at h
    · rename_i hc
      rcases h with h | h <;> cases h
      refine ⟨if j = k then .added c else ch, by simp [choice, setHandler, hc], ?_, by simp [setHandler, hc]⟩
      by_cases hj : j = k
      · subst hj; simp [setHandler, Choice.handler]
      · simp [setHandler, hj, Ne.symm hj, hk]
    · rename_i hc
      rcases h with h | h <;> cases h
      exact ⟨ch, by simp [choice, hc], keep s (.refl s)⟩
  | rem j =>
    simp only [step] at h
    split at h
    · rename_i hc
      rcases h with h | h <;> cases h
      refine ⟨if j = k then .removed else ch, by simp [choice, setHandler, hc], ?_, by simp [setHandler, hc]⟩
      by_cases hj : j = k
      · subst hj; simp [setHandler, Choice.handler]
      · simp [setHandler, hj, Ne.symm hj, hk]
    · rename_i hc
      rcases h with h | h <;> cases h
      exact ⟨ch, by simp [choice, hc], keep s (.refl s)⟩
  | announce key =>
    refine ⟨ch, ?_, ?_⟩
    · simp only [choice]
      simp only [step] at h
      split at h
      · rw [(registerService_good (inLibrary_next h)).1.created]
      · rcases h with h | h <;> cases h
        rfl
    · simp only [step] at h
      split at h
      · have f := (registerService_good (inLibrary_next h)).1
        exact keep s' ⟨f.created, f.handler⟩
      · rcases h with h | h <;> cases h
        exact ⟨hk, hs⟩
  | expire key =>
    simp only [step] at h
    rcases h with h | h <;> cases h
    exact ⟨ch, by simp [choice], hk, hs⟩
  | cycle =>
    simp only [step] at h
    split at h
    · have f := (foldNew_frame s.known s).1.trans (checkGoneAll_good _ (inLibrary_next h)).1
      exact ⟨ch, by simp [choice, f.created], keep s' f⟩
    · rcases h with h | h <;> cases h
      exact ⟨ch, by simp [choice], hk, hs⟩
  | established key =>
    simp only [step] at h
    split at h <;> rcases h with h | h <;> cases h <;> exact ⟨ch, by simp [choice], hk, hs⟩
  | failed key =>
    simp only [step] at h
    split at h <;> rcases h with h | h <;> cases h <;> exact ⟨ch, by simp [choice], hk, hs⟩
  | call limit answers =>
    simp only [step] at h
    split at h
    · split at h
      · rcases h with h | h <;> cases h
        exact ⟨ch, by simp [choice], hk, hs⟩
      · rename_i s1 h1
        have f := (timeouts_good _ h1).1
        rcases h with h | h <;> cases h
        exact ⟨ch, by simp [choice, f.created], keep _ f⟩
    · rcases h with h | h <;> cases h
      exact ⟨ch, by simp [choice], hk, hs⟩
  | stop =>
    simp only [step] at h
    split at h
    · rcases h with h | h <;> cases h
      exact ⟨.nothing, by simp [choice], rfl, fun _ => rfl⟩
    · rename_i hc
      rcases h with h | h <;> cases h
      have hc' : s.created = false := by simpa using hc
      exact ⟨.nothing, by simp [choice, hc'], by rw [hk, hs hc'], fun _ => rfl⟩

theorem run_cons {s s' : State} {a : Step} {as : List Step} (h : run s (a :: as) = .ok s') :
    ∃ s1, Next s a s1 ∧ run s1 as = .ok s' := by
  simp only [run] at h
  split at h
  · rename_i s1 h1
    exact ⟨s1, .inl h1, h⟩
  · rename_i s1 h1
    exact ⟨s1, .inr h1, h⟩
  · cases h

theorem run_append (l l' : List Step) {s s' : State} (h : run s l = .ok s') : run s (l ++ l') = run s' l' := by
  induction l generalizing s with
  | nil =>
    obtain rfl := Out.ok.inj h
    rfl
  | cons a as ih =>
    simp only [List.cons_append, run] at h ⊢
    split <;> rename_i heq <;> rw [heq] at h
    · exact ih h
    · exact ih h
    · cases h

theorem run_handler (steps : List Step) {s s' : State} (h : run s steps = .ok s') (k : Kind) (ch : Choice)
    (hk : s.handler k = ch.handler) (hs : s.created = false → ch = .nothing) :
    s'.handler k = (choice k steps s.created ch).handler := by
  induction steps generalizing s ch with
  | nil =>
    obtain rfl := Out.ok.inj h
    exact hk
  | cons a as ih =>
    obtain ⟨s1, h1, h2⟩ := run_cons h
    obtain ⟨ch', e, hk', hs'⟩ := next_handler h1 as k ch hk hs
    rw [e]
    exact ih h2 ch' hk' hs'

theorem handler_latest {steps : List Step} {s : State} (h : run {} steps = .ok s) (k : Kind) :
    s.handler k = (latest steps k).handler :=
  run_handler steps h k .nothing rfl (fun _ => rfl)

theorem run_created (steps : List Step) {s s' : State} (h : run s steps = .ok s') :
    s'.created = (s.created && decide (.stop ∉ steps)) := by
  induction steps generalizing s with
  | nil =>
    obtain rfl := Out.ok.inj h
    simp
  | cons a as ih =>
    obtain ⟨s1, h1, h2⟩ := run_cons h
    rw [ih h2]
    unfold Next at h1
    cases a with
    | stop =>
      simp only [step] at h1
      split at h1
      · rcases h1 with h | h <;> cases h
        simp
      · rename_i hc
        rcases h1 with h | h <;> cases h
        simp_all
    | add k c => simp only [step] at h1; split at h1 <;> rcases h1 with h | h <;> cases h <;> simp [setHandler]
    | rem k => simp only [step] at h1; split at h1 <;> rcases h1 with h | h <;> cases h <;> simp [setHandler]
    | announce key =>
      simp only [step] at h1
      split at h1
      · rw [(registerService_good (inLibrary_next h1)).1.created]; simp
      · rcases h1 with h | h <;> cases h; simp
    | expire key => simp only [step] at h1; rcases h1 with h | h <;> cases h; simp
    | cycle =>
      simp only [step] at h1
      split at h1
      · rw [((foldNew_frame s.known s).1.trans (checkGoneAll_good _ (inLibrary_next h1)).1).created]; simp
      · rcases h1 with h | h <;> cases h; simp
    | established key => simp only [step] at h1; split at h1 <;> rcases h1 with h | h <;> cases h <;> simp
    | failed key => simp only [step] at h1; split at h1 <;> rcases h1 with h | h <;> cases h <;> simp
    | call limit answers =>
      simp only [step] at h1
      split at h1
      · split at h1
        · rcases h1 with h | h <;> cases h; simp
        · rename_i s2 h3
          rcases h1 with h | h <;> cases h
          rw [(timeouts_good _ h3).1.created]; simp
      · rcases h1 with h | h <;> cases h; simp

/-! ## Property theorems -/

/-- **C91, the right callback.**  After every history: whatever a step tells the application, it tells the callback that was added last for
this kind of event and not removed since. -/
theorem C91_latest_callback (steps : List Step) (s s' : State) (a : Step) (h : run {} steps = .ok s)
    (ha : step s a = .ok s' ∨ step s a = .thrown s') :
    ∃ new, s'.log = s.log ++ new ∧ ∀ x ∈ new, latest steps x.2.kind = .added x.1 := by
  obtain ⟨new, e, p⟩ := next_told ha
  refine ⟨new, e, ?_⟩
  intro x hx
  have h1 := p x hx
  rw [handler_latest h] at h1
  cases hl : latest steps x.2.kind with
  | nothing => rw [hl] at h1; cases h1
  | removed => rw [hl] at h1; cases h1
  | added c => rw [hl] at h1; cases h1; rfl

/-- Two callbacks for the same kind, one after the other. -/
example : ∃ s s', run {} [.add .connected 1, .announce 5, .add .connected 2] = .ok s ∧ step s (.announce 6) = .ok s' ∧
    s'.log = [(1, .connected 5), (2, .connected 6)] := ⟨_, _, rfl, rfl, rfl⟩

theorem handler_empty {steps : List Step} {s : State} (h : run {} steps = .ok s) (k : Kind) :
    s.handler k = .empty ↔ latest steps k = .removed := by
  rw [handler_latest h]
  cases latest steps k <;> simp [Choice.handler]

theorem timeouts_none (n : Nat) (s : State) : timeouts n s = none ↔ 0 < n ∧ s.handler .timeout = .empty := by
  induction n generalizing s with
  | zero => simp [timeouts]
  | succ n ih =>
    unfold timeouts
    split
    · rename_i h
      exact ⟨fun _ => ⟨Nat.succ_pos n, notify_none.1 h⟩, fun _ => rfl⟩
    · rename_i s1 h1
      have hne : s.handler .timeout ≠ .empty := fun h => by rw [(notify_none (e := .timeout)).2 h] at h1; cases h1
      rw [ih, (notify_frame h1).handler]
      exact ⟨fun h => absurd h.2 hne, fun h => absurd h.2 hne⟩

/-- **C91, timeouts of a removed callback.**  After every history, exactly: a call throws instead of returning its result iff it has a time limit,
some server did not answer, and the timeout callback was removed and not added again. -/
theorem C91_call_throws_iff (steps : List Step) (s : State) (h : run {} steps = .ok s) (limit : Bool) (answers : List Bool) :
    (∃ s', step s (.call limit answers) = .thrown s') ↔
      .stop ∉ steps ∧ limit = true ∧ false ∈ answers ∧ latest steps .timeout = .removed := by
  have hc := run_created steps h
  rw [← handler_empty h]
  have hn : timeouts (answers.count false) s = none ↔ false ∈ answers ∧ s.handler .timeout = .empty := by
    rw [timeouts_none, List.count_pos_iff]
  simp only [step]
  by_cases hcr : s.created = true ∧ limit = true
  · rw [if_pos hcr]
    have hs : .stop ∉ steps := by
      rw [hcr.1] at hc
      simpa using hc.symm
    cases ht : timeouts (answers.count false) s with
    | none => exact ⟨fun _ => ⟨hs, hcr.2, hn.1 ht⟩, fun _ => ⟨s, rfl⟩⟩
    | some s1 =>
      refine ⟨fun ⟨s', h'⟩ => (by cases h'), fun ⟨_, _, hx⟩ => ?_⟩
      rw [hn.2 hx] at ht
      cases ht
  · rw [if_neg hcr]
    refine ⟨fun ⟨s', h'⟩ => (by cases h'), fun ⟨h1, h2, _⟩ => absurd ⟨?_, h2⟩ hcr⟩
    rw [hc]
    simp [h1]

/-- **C91, registrations with a removed callback.**  After every history, exactly: the registration of a server terminates the process iff the
server is new for the client and the callback for connections was removed and not added again. -/
theorem C91_announce_terminates_iff (steps : List Step) (s : State) (h : run {} steps = .ok s) (key : Nat) :
    step s (.announce key) = .terminated ↔ .stop ∉ steps ∧ key ∉ s.connected ∧ latest steps .connected = .removed := by
  have hc := run_created steps h
  rw [← handler_empty h]
  simp only [step]
  by_cases hcr : s.created = true
  · rw [if_pos hcr]
    have hs : .stop ∉ steps := by
      rw [hcr] at hc
      simpa using hc.symm
    unfold registerService
    simp only
    by_cases hk : key ∈ s.connected
    · rw [if_pos hk]
      exact ⟨fun h => (by cases h), fun h => absurd hk h.2.1⟩
    · rw [if_neg hk]
      split
      · rename_i h1
        exact ⟨fun _ => ⟨hs, hk, notify_none.1 h1⟩, fun _ => rfl⟩
      · rename_i s1 h1
        refine ⟨fun h => (by cases h), fun hx => ?_⟩
        exfalso
        have := (notify_none (s := { s with known := if key ∈ s.known then s.known else key :: s.known }) (e := .connected key)).2 hx.2.2
        rw [this] at h1
        cases h1
  · rw [if_neg hcr]
    refine ⟨fun h => (by cases h), fun hx => absurd ?_ hcr⟩
    rw [hc]
    simp [hx.1]

theorem checkGoneAll_none (xs : List (Nat × Sess)) (s : State) :
    checkGoneAll xs s = none ↔ s.handler .disconnected = .empty ∧ ∃ x ∈ xs, x.2 = .failed ∧ x.1 ∈ s.connected := by
  induction xs generalizing s with
  | nil => simp [checkGoneAll]
  | cons x xs ih =>
    unfold checkGoneAll
    split
    · rename_i h
      refine ⟨fun _ => ?_, fun _ => rfl⟩
      unfold checkGone at h
      split at h
      · rename_i hf
        split at h
        · rename_i hm
          split at h
          · rename_i h1
            exact ⟨notify_none.1 h1, x, List.mem_cons_self .., hf, hm⟩
          · cases h
        · cases h
      · cases h
    · rename_i s1 h1
      rw [ih]
      obtain ⟨f, _⟩ := checkGone_good h1
      rw [f.handler]
      by_cases he : s.handler .disconnected = .empty
      · have hs : s1 = s ∧ ¬ (x.2 = .failed ∧ x.1 ∈ s.connected) := by
          unfold checkGone at h1
          split at h1
          · rename_i hf
            split at h1
            · have hn : notify s (.disconnected x.1) = none := notify_none.2 he
              rw [hn] at h1
              cases h1
            · rename_i hm
              obtain rfl := Option.some.inj h1
              exact ⟨rfl, fun hx => hm hx.2⟩
          · rename_i hf
            obtain rfl := Option.some.inj h1
            exact ⟨rfl, fun hx => hf hx.1⟩
        rw [hs.1]
        refine ⟨fun ⟨a, y, hy, p⟩ => ⟨a, y, List.mem_cons_of_mem _ hy, p⟩, fun ⟨a, y, hy, p⟩ => ⟨a, y, ?_, p⟩⟩
        rcases List.mem_cons.1 hy with rfl | hy
        · exact absurd p hs.2
        · exact hy
      · exact ⟨fun h => absurd h.1 he, fun h => absurd h.1 he⟩

/-- **C91, the registration cycle with a removed callback.**  After every history, exactly: the registration cycle terminates the process iff a
connection to a server that counts as connected has failed and the callback for disconnections was removed and not added again. -/
theorem C91_cycle_terminates_iff (steps : List Step) (s : State) (h : run {} steps = .ok s) :
    step s .cycle = .terminated ↔
      .stop ∉ steps ∧ latest steps .disconnected = .removed ∧
        ∃ x ∈ (s.known.foldl checkNew s).sessions, x.2 = .failed ∧ x.1 ∈ s.connected := by
  have hc := run_created steps h
  rw [← handler_empty h]
  simp only [step]
  have hf := foldNew_frame s.known s
  by_cases hcr : s.created = true
  · rw [if_pos hcr]
    have hs : .stop ∉ steps := by
      rw [hcr] at hc
      simpa using hc.symm
    have hn := checkGoneAll_none (s.known.foldl checkNew s).sessions (s.known.foldl checkNew s)
    rw [hf.1.handler, hf.2.1] at hn
    cases hg : checkGoneAll (s.known.foldl checkNew s).sessions (s.known.foldl checkNew s) with
    | none => exact ⟨fun _ => ⟨hs, hn.1 hg⟩, fun _ => rfl⟩
    | some s1 =>
      refine ⟨fun h => (by cases h), fun hx => ?_⟩
      rw [hn.2 hx.2] at hg
      cases hg
  · rw [if_neg hcr]
    refine ⟨fun h => (by cases h), fun hx => absurd ?_ hcr⟩
    rw [hc]
    simp [hx.1]

/-- A history to which the three theorems apply. -/
example : ∃ s, run {} [.add .disconnected 1, .announce 5, .cycle, .failed 5, .rem .disconnected, .rem .timeout] = .ok s ∧
    s.connected = [5] ∧ s.created = true := ⟨_, rfl, rfl, rfl⟩

theorem latest_not_removed (steps : List Step) (k : Kind) (hr : .rem k ∉ steps) (b : Bool) (ch : Choice) (hch : ch ≠ .removed) :
    choice k steps b ch ≠ .removed := by
  induction steps generalizing b ch with
  | nil => exact hch
  | cons a as ih =>
    have hr' : .rem k ∉ as := fun h => hr (List.mem_cons_of_mem _ h)
    cases a with
    | add j c =>
      simp only [choice]
      refine ih hr' _ _ ?_
      split
      · simp
      · exact hch
    | rem j =>
      simp only [choice]
      refine ih hr' _ _ ?_
      split
      · rename_i hj
        exact absurd (List.mem_cons_self ..) (hj.1 ▸ hr)
      · exact hch
    | stop => exact ih hr' _ _ (by simp)
    | announce key => exact ih hr' _ _ hch
    | expire key => exact ih hr' _ _ hch
    | cycle => exact ih hr' _ _ hch
    | established key => exact ih hr' _ _ hch
    | failed key => exact ih hr' _ _ hch
    | call limit answers => exact ih hr' _ _ hch

/-- **C91, no removal (partial).**  If the application never removes a callback, every step of every history succeeds: no call throws and the
process is never terminated.  Missing: the same with removals. -/
theorem C91_no_removal_partial (steps : List Step) (hr : ∀ k, .rem k ∉ steps) (s : State) (h : run {} steps = .ok s) (a : Step) :
    ∃ s', step s a = .ok s' := by
  have hl : ∀ k, latest steps k ≠ .removed := fun k => latest_not_removed steps k (hr k) true .nothing (by simp)
  cases hst : step s a with
  | ok s' => exact ⟨s', rfl⟩
  | thrown s' =>
    exfalso
    cases a with
    | call limit answers => exact hl _ ((C91_call_throws_iff steps s h limit answers).1 ⟨s', hst⟩).2.2.2
    | add k c => simp only [step] at hst; split at hst <;> cases hst
    | rem k => simp only [step] at hst; split at hst <;> cases hst
    | announce key =>
      simp only [step] at hst
      split at hst
      · revert hst; cases registerService _ key <;> intro h <;> cases h
      · cases hst
    | expire key => cases hst
    | cycle =>
      simp only [step] at hst
      split at hst
      · revert hst; cases checkGoneAll _ _ <;> intro h <;> cases h
      · cases hst
    | established key => simp only [step] at hst; split at hst <;> cases hst
    | failed key => simp only [step] at hst; split at hst <;> cases hst
    | stop => simp only [step] at hst; split at hst <;> cases hst
  | terminated =>
    exfalso
    cases a with
    | announce key => exact hl _ ((C91_announce_terminates_iff steps s h key).1 hst).2.2
    | cycle => exact hl _ ((C91_cycle_terminates_iff steps s h).1 hst).2.1
    | add k c => simp only [step] at hst; split at hst <;> cases hst
    | rem k => simp only [step] at hst; split at hst <;> cases hst
    | expire key => cases hst
    | established key => simp only [step] at hst; split at hst <;> cases hst
    | failed key => simp only [step] at hst; split at hst <;> cases hst
    | call limit answers =>
      simp only [step] at hst
      split at hst
      · revert hst; cases timeouts (answers.count false) s <;> intro h <;> cases h
      · cases hst
    | stop => simp only [step] at hst; split at hst <;> cases hst

example : (∀ k, Step.rem k ∉ [Step.add .connected 1, .announce 5, .cycle, .failed 5, .call true [false]]) ∧
    ∃ s, run {} [.add .connected 1, .announce 5, .cycle, .failed 5, .call true [false]] = .ok s ∧ s.log = [(1, .connected 5)] :=
  ⟨by simp, _, rfl, rfl⟩

/-! ### Alternation -/

structure Alt (s : State) : Prop where
  conn : ∃ c, s.handler .connected = .fn c
  disc : ∃ c, s.handler .disconnected = .fn c
  alt : ∀ k, alternation k s.log = some (decide (k ∈ s.connected))

theorem alternation_snoc (k : Nat) (l : List (Nat × Event)) (x : Nat × Event) :
    alternation k (l ++ [x]) = altStep k (alternation k l) x.2 := by simp [alternation]

theorem alt_notify {s : State} {e : Event} {c : Nat} (h : s.handler e.kind = .fn c) :
    notify s e = some { s with log := s.log ++ [(c, e)] } := by
  unfold notify
  rw [h]

theorem alt_register {s s' : State} (h : Alt s) (key : Nat) (hs : registerService s key = some s') : Alt s' := by
  unfold registerService at hs
  by_cases hk : key ∈ s.connected
  · rw [if_pos hk] at hs
    obtain rfl := Option.some.inj hs
    exact h
  · rw [if_neg hk] at hs
    obtain ⟨c, hc⟩ := h.conn
    rw [alt_notify (e := .connected key) hc] at hs
    obtain rfl := Option.some.inj hs
    refine ⟨h.conn, h.disc, fun k => ?_⟩
    show alternation k (s.log ++ [(c, .connected key)]) = some (decide (k ∈ key :: s.connected))
    rw [alternation_snoc, h.alt k]
    by_cases hkk : key = k
    · subst hkk; simp [altStep, hk]
    · have hkk' : ¬ k = key := fun h => hkk h.symm
      simp [altStep, hkk, hkk']

theorem alt_checkGone {s s' : State} (h : Alt s) (x : Nat × Sess) (hs : checkGone s x = some s') : Alt s' := by
  unfold checkGone at hs
  by_cases h1 : x.2 = .failed
  · rw [if_pos h1] at hs
    by_cases h2 : x.1 ∈ s.connected
    · rw [if_pos h2] at hs
      obtain ⟨c, hc⟩ := h.disc
      rw [alt_notify (e := .disconnected x.1) hc] at hs
      obtain rfl := Option.some.inj hs
      refine ⟨h.conn, h.disc, fun k => ?_⟩
      show alternation k (s.log ++ [(c, .disconnected x.1)]) = some (decide (k ∈ s.connected.filter (fun k => k != x.1)))
      rw [alternation_snoc, h.alt k]
      by_cases hkk : x.1 = k
      · subst hkk; simp [altStep, h2]
      · have hkk' : ¬ k = x.1 := fun h => hkk h.symm
        simp [altStep, hkk, hkk']
    · rw [if_neg h2] at hs
      obtain rfl := Option.some.inj hs
      exact h
  · rw [if_neg h1] at hs
    obtain rfl := Option.some.inj hs
    exact h

theorem alt_checkGoneAll (xs : List (Nat × Sess)) {s s' : State} (h : Alt s) (hs : checkGoneAll xs s = some s') : Alt s' := by
  induction xs generalizing s with
  | nil =>
    obtain rfl := Option.some.inj hs
    exact h
  | cons x xs ih =>
    unfold checkGoneAll at hs
    split at hs
    · cases hs
    · rename_i s1 h1
      exact ih (alt_checkGone h x h1) hs

theorem alt_timeouts (n : Nat) {s s' : State} (h : Alt s) (hs : timeouts n s = some s') : Alt s' := by
  induction n generalizing s with
  | zero =>
    obtain rfl := Option.some.inj hs
    exact h
  | succ n ih =>
    unfold timeouts at hs
    split at hs
    · cases hs
    · rename_i s1 h1
      refine ih ?_ hs
      rcases notify_some h1 with ⟨e, ⟨_, hl⟩ | ⟨c, hc, hl⟩⟩
      · rw [e, hl]; exact h
      · rw [e, hl]
        refine ⟨h.conn, h.disc, fun k => ?_⟩
        show alternation k (s.log ++ [(c, .timeout)]) = _
        rw [alternation_snoc, h.alt k]
        rfl

theorem alt_next {s s' : State} {a : Step} (h : Alt s) (hr : ∀ k, a ≠ .rem k) (hst : a ≠ .stop) (hs : Next s a s') : Alt s' := by
  unfold Next at hs
  cases a with
  | add k c =>
    simp only [step] at hs
    split at hs <;> rcases hs with hs | hs <;> cases hs
    · refine ⟨?_, ?_, h.alt⟩
      · by_cases hk : k = .connected
        · exact ⟨c, by simp [setHandler, hk]⟩
        · obtain ⟨d, hd⟩ := h.conn
          exact ⟨d, by simp [setHandler, Ne.symm hk, hd]⟩
      · by_cases hk : k = .disconnected
        · exact ⟨c, by simp [setHandler, hk]⟩
        · obtain ⟨d, hd⟩ := h.disc
          exact ⟨d, by simp [setHandler, Ne.symm hk, hd]⟩
    · exact h
  | rem k => exact absurd rfl (hr k)
  | announce key =>
    simp only [step] at hs
    split at hs
    · exact alt_register (s := { s with known := if key ∈ s.known then s.known else key :: s.known }) ⟨h.conn, h.disc, h.alt⟩ key
        (inLibrary_next hs)
    · rcases hs with hs | hs <;> cases hs
      exact ⟨h.conn, h.disc, h.alt⟩
  | expire key =>
    simp only [step] at hs
    rcases hs with hs | hs <;> cases hs
    exact ⟨h.conn, h.disc, h.alt⟩
  | cycle =>
    simp only [step] at hs
    split at hs
    · have hf := foldNew_frame s.known s
      refine alt_checkGoneAll _ ⟨?_, ?_, fun k => ?_⟩ (inLibrary_next hs)
      · rw [hf.1.handler]; exact h.conn
      · rw [hf.1.handler]; exact h.disc
      · rw [hf.2.1, hf.2.2]; exact h.alt k
    · rcases hs with hs | hs <;> cases hs
      exact h
  | established key =>
    simp only [step] at hs
    split at hs <;> rcases hs with hs | hs <;> cases hs <;> exact ⟨h.conn, h.disc, h.alt⟩
  | failed key =>
    simp only [step] at hs
    split at hs <;> rcases hs with hs | hs <;> cases hs <;> exact ⟨h.conn, h.disc, h.alt⟩
  | call limit answers =>
    simp only [step] at hs
    split at hs
    · split at hs
      · rcases hs with hs | hs <;> cases hs
        exact h
      · rename_i s1 h1
        rcases hs with hs | hs <;> cases hs
        exact alt_timeouts _ h h1
    · rcases hs with hs | hs <;> cases hs
      exact h
  | stop => exact absurd rfl hst

theorem alt_run (steps : List Step) (hr : ∀ k, .rem k ∉ steps) (hst : .stop ∉ steps) {s s' : State} (h : Alt s)
    (hs : run s steps = .ok s') : Alt s' := by
  induction steps generalizing s with
  | nil =>
    obtain rfl := Out.ok.inj hs
    exact h
  | cons a as ih =>
    obtain ⟨s1, h1, h2⟩ := run_cons hs
    refine ih (fun k hk => hr k (List.mem_cons_of_mem _ hk)) (fun hk => hst (List.mem_cons_of_mem _ hk)) (alt_next h ?_ ?_ h1) h2
    · rintro k rfl
      exact hr k (List.mem_cons_self ..)
    · rintro rfl
      exact hst (List.mem_cons_self ..)

/-- **C91, every connection is told (partial).**  If the application adds callbacks for connections and disconnections at the beginning and only
ever replaces them, it is told about every server alternately `connected` and `disconnected`, and the last notice is the state of the client. -/
theorem C91_alternate_partial (c d : Nat) (steps : List Step) (hr : ∀ k, .rem k ∉ steps) (hst : .stop ∉ steps) :
    ∃ s, run {} (.add .connected c :: .add .disconnected d :: steps) = .ok s ∧
      ∀ key, alternation key s.log = some (decide (key ∈ s.connected)) := by
  have ex : ∀ (rest pre : List Step) (s : State), (∀ k, .rem k ∉ pre ++ rest) → run {} pre = .ok s → ∃ s', run s rest = .ok s' := by
    intro rest
    induction rest with
    | nil => exact fun _ s _ _ => ⟨s, rfl⟩
    | cons a as ih =>
      intro pre s hl hs
      obtain ⟨s1, h1⟩ := C91_no_removal_partial pre (fun k hk => hl k (List.mem_append_left _ hk)) s hs a
      obtain ⟨s2, h2⟩ := ih (pre ++ [a]) s1 (by simpa using hl) (by rw [run_append _ _ hs]; simp [run, h1])
      exact ⟨s2, by simp [run, h1, h2]⟩
  have hr' : ∀ k, .rem k ∉ Step.add .connected c :: .add .disconnected d :: steps := by
    intro k hk
    simp only [List.mem_cons, reduceCtorEq, false_or] at hk
    exact hr k hk
  obtain ⟨s, hs⟩ := ex _ [] {} hr' rfl
  refine ⟨s, hs, (alt_run steps hr hst (s := setHandler (setHandler {} .connected (.fn c)) .disconnected (.fn d)) ?_ hs).alt⟩
  exact ⟨⟨c, rfl⟩, ⟨d, rfl⟩, fun k => rfl⟩

example : (∀ k, Step.rem k ∉ [Step.announce 5, .cycle, .failed 5, .cycle, .announce 5]) ∧
    (∃ s, run {} [.add .connected 1, .add .disconnected 2, .announce 5, .cycle, .failed 5, .cycle, .announce 5] = .ok s ∧
      s.log = [(1, .connected 5), (2, .disconnected 5), (1, .connected 5)]) :=
  ⟨by simp, _, rfl, rfl⟩

/-! ### Violations -/

/-- **C91 (violated: connection).**  The application adds a callback for connections and removes it again; the next server that appears
terminates the process. -/
theorem C91_violated_connected (c key : Nat) : run {} [.add .connected c, .rem .connected, .announce key] = .terminated := rfl

/-- **C91 (violated: disconnection).**  The application removes its callback for disconnections; the next server whose connection fails
terminates the process. -/
theorem C91_violated_disconnected (c key : Nat) :
    run {} [.add .disconnected c, .announce key, .cycle, .failed key, .rem .disconnected, .cycle] = .terminated := by
  simp [run, step, inLibrary, registerService, notify, setHandler, Event.kind, checkNew, checkGoneAll, checkGone, AMap.set, AMap.find]

/-- **C91 (violated: timeout).**  The application removes its callback for timeouts; a call with a time limit that one server does not answer
throws, and the answers of the other servers are lost for the caller that is told by callback. -/
theorem C91_violated_timeout (c : Nat) (answers : List Bool) (h : false ∈ answers) :
    ∃ s s', run {} [.add .timeout c, .rem .timeout] = .ok s ∧ step s (.call true answers) = .thrown s' := by
  obtain ⟨s', hs⟩ := (C91_call_throws_iff [.add .timeout c, .rem .timeout]
    (setHandler (setHandler {} .timeout (.fn c)) .timeout .empty) rfl true answers).2 ⟨by simp, rfl, h, rfl⟩
  exact ⟨_, s', rfl, hs⟩

/-- **C91 (violated: removing what was never added).**  A removal alone, without any callback before, has the same effect. -/
theorem C91_violated_remove_only (key : Nat) : run {} [.rem .connected, .announce key] = .terminated := rfl

/-- **C91, a server that is gone.**  A server that sends no registrations any more is forgotten, all others are kept; the application is told
nothing by that, and no new connection to the server is opened in the next registration cycle. -/
theorem C91_forgotten (s : State) (key : Nat) :
    ∃ s1, step s (.expire key) = .ok s1 ∧ s1.log = s.log ∧ s1.sessions = s.sessions ∧ (∀ k, k ∈ s1.known ↔ k ∈ s.known ∧ k ≠ key) ∧
      ((s.sessions.find key = none) → (s1.known.foldl checkNew s1).sessions.find key = none) := by
  refine ⟨_, rfl, rfl, rfl, fun k => by simp, ?_⟩
  intro hn
  have hk : ∀ (l : List Nat) (t : State), key ∉ l → t.sessions.find key = none → (l.foldl checkNew t).sessions.find key = none := by
    intro l
    induction l with
    | nil => intro t _ h; exact h
    | cons k l ih =>
      intro t hm h
      have h1 : k ≠ key := fun e => hm (by simp [e])
      apply ih _ (fun e => hm (by simp [e]))
      unfold checkNew
      split
      · rw [AMap.find_set_ne _ _ _ _ (by simpa using h1)]; exact h
      · exact h
  exact hk _ _ (by simp) hn

example : ∃ s, run {} [.announce 1, .announce 2, .expire 1, .cycle] = .ok s ∧ s.sessions.map (·.1) = [2] := ⟨_, rfl, rfl⟩

/-- **C91, after the end.**  Once the client has been stopped it has no sessions, and whatever happens then, the application is told
nothing and the process is not terminated. -/
theorem C91_silent_after_stop (steps : List Step) (s : State) (h : run {} steps = .ok s) (hs : .stop ∈ steps) (more : List Step) :
    s.sessions = [] ∧ ∃ s', run s more = .ok s' ∧ s'.log = s.log ∧ s'.sessions = [] := by
  have hstep : ∀ (s : State) (a : Step), s.created = false → s.sessions = [] →
      ∃ s', step s a = .ok s' ∧ s'.created = false ∧ s'.sessions = [] ∧ s'.log = s.log := by
    intro s a hc he
    cases a with
    | call l as => exact ⟨s, by simp [step, hc], hc, he, rfl⟩
    | announce k =>
      exact ⟨{ s with known := if k ∈ s.known then s.known else k :: s.known }, by simp [step, hc], hc, he, rfl⟩
    | expire k => exact ⟨_, rfl, hc, he, rfl⟩
    | established k => exact ⟨s, by simp [step, he], hc, he, rfl⟩
    | failed k => exact ⟨s, by simp [step, he], hc, he, rfl⟩
    | _ => exact ⟨s, by simp [step, hc], hc, he, rfl⟩
  have hrun : ∀ (l : List Step) (s : State), s.created = false → s.sessions = [] →
      ∃ s', run s l = .ok s' ∧ s'.created = false ∧ s'.sessions = [] ∧ s'.log = s.log := by
    intro l
    induction l with
    | nil => intro s hc he; exact ⟨s, rfl, hc, he, rfl⟩
    | cons a l ih =>
      intro s hc he
      obtain ⟨s1, e1, c1, d1, l1⟩ := hstep s a hc he
      obtain ⟨s2, e2, c2, d2, l2⟩ := ih s1 c1 d1
      exact ⟨s2, by simp only [run, e1, e2], c2, d2, l2.trans l1⟩
  have hinv : ∀ (l : List Step) (s s' : State), run s l = .ok s' → (s.created = false → s.sessions = []) →
      (s'.created = false → s'.sessions = []) := by
    intro l
    induction l with
    | nil => intro s s' hr hi; simp only [run, Out.ok.injEq] at hr; exact hr ▸ hi
    | cons a l ih =>
      intro s s' hr hi
      cases hcr : s.created with
      | false =>
        obtain ⟨s1, e1, c1, d1, _⟩ := hstep s a hcr (hi hcr)
        simp only [run, e1] at hr
        exact ih s1 s' hr (fun _ => d1)
      | true =>
        simp only [run] at hr
        have hn : ∀ s1, (step s a = .ok s1 ∨ step s a = .thrown s1) → s1.created = false → s1.sessions = [] := by
          intro s1 h1 hc1
          have := run_created [a] (s := s) (s' := s1) (by rcases h1 with h1 | h1 <;> simp [run, h1])
          rw [hcr] at this
          by_cases ha : a = .stop
          · subst ha
            simp [step, hcr] at h1
            rw [← h1]
          · simp [hc1] at this; exact absurd this.symm ha
        cases hst : step s a with
        | ok s1 => rw [hst] at hr; exact ih s1 s' hr (hn s1 (.inl hst))
        | thrown s1 => rw [hst] at hr; exact ih s1 s' hr (hn s1 (.inr hst))
        | terminated => rw [hst] at hr; cases hr
  have hc := run_created steps h
  have hcf : s.created = false := by simpa [hs] using hc
  have he := hinv steps {} s h (by simp) hcf
  obtain ⟨s', e, _, d, l⟩ := hrun more s hcf he
  exact ⟨he, s', e, l, d⟩

example : ∃ s, run {} [.add .connected 7, .announce 1, .cycle, .stop] = .ok s ∧ s.log = [(7, .connected 1)] := ⟨_, rfl, rfl⟩

end Ecal.Service.ClientNotify
