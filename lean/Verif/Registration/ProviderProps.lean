import Verif.Registration.Provider

/-! # Properties C54, C60: unregistrations -/

namespace Ecal.Provider

/-! ## C54 -/

/-- **C54 violated.** An entity is unregistered, then the process stops its registration.
The registration thread sees the stop flag first: neither the unregistration of the entity
nor that of the process is ever sent. -/
theorem C54_violated_stop_wins :
    let s := run init [.create 1 true, .wake, .collect, .sendList, .sendApplied,
      .leaveGate 1, .unregister 1, .stopBegin, .stopFlag, .wake]
    s.pc = .dead ∧ Smp.unreg 1 ∉ s.trace ∧ Smp.procUnreg ∉ s.trace ∧
      s.pending = [.unreg 1, .procUnreg] := by
  decide +kernel

/-- A stopped registration thread stays stopped and sends nothing any more. -/
theorem C54_dead_sends_nothing (s : State) (h : List Op) (hd : s.pc = .dead) :
    (run s h).trace = s.trace ∧ (run s h).pc = .dead := by
  induction h generalizing s with
  | nil => exact ⟨rfl, hd⟩
  | cons op h ih =>
    have : (step s op).pc = .dead ∧ (step s op).trace = s.trace := by
      cases op <;> simp only [step, hd] <;> first | exact ⟨trivial, trivial⟩ | exact ⟨hd, rfl⟩ | (split <;> first | exact ⟨hd, rfl⟩ | exact ⟨rfl, rfl⟩ | (split <;> first | exact ⟨hd, rfl⟩ | exact ⟨rfl, rfl⟩))
    obtain ⟨h1, h2⟩ := ih _ this.1
    exact ⟨h1.trans this.2, h2⟩

/-- **C54 (what holds).** In every interleaving: once the registration thread completes a
cycle (`sendApplied`) after an entity was unregistered, the unregistration has been sent.
Missing: the stop of the thread may prevent that cycle. -/
theorem C54_sent_by_next_cycle_partial (s : State) (e : Nat) (h1 h2 : List Op)
    (he : e ∈ s.used) (hg : e ∉ s.gate)
    (hc : (run s (.unregister e :: h1)).pc = .sentList) :
    Smp.unreg e ∈ (run s (.unregister e :: h1 ++ .sendApplied :: h2)).trace := by
  have mono : ∀ (h : List Op) (s : State), (Smp.unreg e ∈ s.trace ∨ Smp.unreg e ∈ s.pending) →
      (Smp.unreg e ∈ (run s h).trace ∨ Smp.unreg e ∈ (run s h).pending) := by
    intro h
    induction h with
    | nil => intro s h; exact h
    | cons op h ih =>
      intro s hs
      apply ih
      cases op <;> simp only [step]
      · split
        · exact hs
        · split
          · simp only [List.mem_append, List.mem_singleton]; rcases hs with h | h <;> simp [h]
          · exact hs
      · split
        · simp only [List.mem_append, List.mem_singleton]; rcases hs with h | h <;> simp [h]
        · exact hs
      · exact hs
      · split
        · simp only [List.mem_append, List.mem_singleton]; rcases hs with h | h <;> simp [h]
        · exact hs
      · simp only [List.mem_append, List.mem_singleton]; rcases hs with h | h <;> simp [h]
      · exact hs
      · split
        · split <;> exact hs
        · exact hs
      · split <;> exact hs
      · split
        · simp only [List.mem_append]; rcases hs with h | h <;> simp [h]
        · exact hs
      · split
        · left; simp only [List.mem_append]; exact hs
        · exact hs
  have tmono : ∀ (h : List Op) (s : State), Smp.unreg e ∈ s.trace → Smp.unreg e ∈ (run s h).trace := by
    intro h
    induction h with
    | nil => intro s h; exact h
    | cons op h ih =>
      intro s hs
      apply ih
      cases op <;> simp only [step] <;> (repeat' split) <;> simp [hs]
  have h0 : Smp.unreg e ∈ (run s (.unregister e :: h1)).trace ∨
      Smp.unreg e ∈ (run s (.unregister e :: h1)).pending := by
    have := mono h1 (step s (.unregister e)) (by simp [step, he, hg])
    simpa [run] using this
  have hrun : run s (.unregister e :: h1 ++ .sendApplied :: h2)
      = run (step (run s (.unregister e :: h1)) .sendApplied) h2 := by
    simp [run, List.foldl_append]
  rw [hrun]
  apply tmono
  simp only [step, hc, List.mem_append]
  exact h0

example : (run (run init [.create 1 true, .leaveGate 1]) [.unregister 1, .wake, .collect, .sendList]).pc
    = .sentList := by decide +kernel

/-- Nothing handed over is lost or sent twice while the thread runs: what was sent from the
list of single samples followed by what is pending is exactly what was handed over, in
order. -/
def handedOver (s : State) : Op → List Smp
  | .create e announce => if e ∈ s.used then [] else if announce then [.reg e] else []
  | .reRegister e => if e ∈ s.gate then [.reg e] else []
  | .unregister e => if e ∈ s.used ∧ e ∉ s.gate then [.unreg e] else []
  | .stopBegin => [.procUnreg]
  | _ => []

def handedAll (s : State) : List Op → List Smp
  | [] => []
  | op :: h => handedOver s op ++ handedAll (step s op) h

/-- What the thread sent out of the list of single samples. -/
def sentApplied (s : State) : List Op → List Smp
  | [] => []
  | op :: h => (if op = .sendApplied ∧ s.pc = .sentList then s.pending else []) ++ sentApplied (step s op) h

theorem C54_exactly_once_partial (s : State) (h : List Op) :
    s.pending ++ handedAll s h = sentApplied s h ++ (run s h).pending := by
  induction h generalizing s with
  | nil => simp [handedAll, sentApplied, run]
  | cons op h ih =>
    have hr : run s (op :: h) = run (step s op) h := rfl
    rw [hr]
    simp only [handedAll, sentApplied]
    have : s.pending ++ handedOver s op =
        (if op = .sendApplied ∧ s.pc = .sentList then s.pending else []) ++ (step s op).pending := by
      cases op <;> simp only [handedOver, step, reduceCtorEq, false_and, if_false, List.nil_append]
      · split
        · simp
        · split <;> simp
      · split <;> simp
      · simp
      · split <;> simp
      · simp
      · split
        · split <;> simp
        · simp
      · split <;> simp
      · split <;> simp
      · by_cases hp : s.pc = .sentList
        · simp [hp]
        · cases hpc : s.pc <;> simp_all
    rw [← List.append_assoc, this, List.append_assoc, ih, List.append_assoc]

/-! ## C60 -/

/-- No registration of `e` after an unregistration of `e`. -/
def Final (e : Nat) (l : List Smp) : Prop :=
  ∀ pre post, l = pre ++ .unreg e :: post → Smp.reg e ∉ post

theorem Final.append {e : Nat} {a b : List Smp} (ha : Final e a) (hb : Final e b)
    (h : Smp.unreg e ∈ a → Smp.reg e ∉ b) : Final e (a ++ b) := by
  intro pre post heq
  rcases List.append_eq_append_iff.1 heq with ⟨c, h1, h2⟩ | ⟨c, h1, h2⟩
  · exact hb c post h2
  · cases c with
    | nil =>
      simp only [List.nil_append] at h2
      exact hb [] post (by simpa using h2.symm)
    | cons x c =>
      simp only [List.cons_append, List.cons.injEq] at h2
      obtain ⟨rfl, rfl⟩ := h2
      simp only [List.mem_append, not_or]
      exact ⟨ha pre c h1, h (by rw [h1]; simp)⟩

theorem Final.snoc_unreg {e : Nat} {a : List Smp} (ha : Final e a) (x : Smp) (hx : x ≠ .reg e) :
    Final e (a ++ [x]) := by
  apply ha.append
  · intro pre post h
    cases pre with
    | nil => simp at h; rw [h.2]; simp
    | cons y pre => simp at h
  · intro _; simp; exact fun h => hx h.symm

theorem final_of_no_unreg {e : Nat} {a : List Smp} (h : Smp.unreg e ∉ a) : Final e a := by
  intro pre post he; rw [he] at h; simp at h

/-- The invariant for entity `e`. -/
structure Inv (e : Nat) (s : State) : Prop where
  fresh : e ∉ s.used → e ∉ s.gate ∧ Smp.reg e ∉ s.pending ∧ Smp.unreg e ∉ s.pending ∧
    Smp.reg e ∉ s.trace ∧ Smp.unreg e ∉ s.trace ∧ ∀ l, s.pc = .collected l → Smp.reg e ∉ l
  live : e ∈ s.gate → Smp.unreg e ∉ s.pending ∧ Smp.unreg e ∉ s.trace
  pend : Final e s.pending
  gone : Smp.unreg e ∈ s.trace → Smp.reg e ∉ s.pending ∧ ∀ l, s.pc = .collected l → Smp.reg e ∉ l
  coll : ∀ l, s.pc = .collected l → Smp.unreg e ∉ l
  trac : Final e s.trace

theorem Inv.init (e : Nat) : Inv e init := by
  refine ⟨?_, ?_, ?_, ?_, ?_, ?_⟩ <;> simp [Provider.init, Final]

theorem Inv.step {e : Nat} {s : State} (h : Inv e s) (op : Op) : Inv e (step s op) := by
  obtain ⟨h1, h2, h3, h4, h5, h6⟩ := h
  cases op with
  | create x ann =>
    simp only [Provider.step]
    by_cases hx : x ∈ s.used
    · rw [if_pos hx]; exact ⟨h1, h2, h3, h4, h5, h6⟩
    · rw [if_neg hx]
      by_cases hxe : x = e
      · subst hxe
        obtain ⟨a, b, c, d, f, g⟩ := h1 hx
        cases ann
        · refine ⟨by simp, ?_, h3, ?_, h5, h6⟩
          · intro _; exact ⟨c, f⟩
          · intro hu; exact absurd hu f
        · refine ⟨by simp, ?_, ?_, ?_, h5, h6⟩
          · intro _; simp [c, f]
          · apply final_of_no_unreg; simp [c]
          · intro hu; exact absurd hu f
      · have hne : Smp.reg x ≠ Smp.reg e := by simpa using hxe
        cases ann
        · refine ⟨?_, ?_, h3, h4, h5, h6⟩
          · intro hu
            simp only [Bool.false_eq_true, if_false, List.mem_cons, not_or] at hu
            obtain ⟨a, b⟩ := h1 hu.2
            exact ⟨by simp [a, Ne.symm hxe], b⟩
          · intro hg
            simp only [Bool.false_eq_true, if_false, List.mem_cons, Ne.symm hxe, false_or] at hg
            exact h2 hg
        · refine ⟨?_, ?_, h3.snoc_unreg _ hne, ?_, h5, h6⟩
          · intro hu
            simp only [if_true, List.mem_cons, not_or] at hu
            obtain ⟨a, b, c, d, f, g⟩ := h1 hu.2
            refine ⟨by simp [a, Ne.symm hxe], ?_, by simp [c], d, f, g⟩
            simp [b, Ne.symm hxe]
          · intro hg
            simp only [if_true, List.mem_cons, Ne.symm hxe, false_or] at hg
            obtain ⟨a, b⟩ := h2 hg
            exact ⟨by simp [a], b⟩
          · intro hu
            obtain ⟨a, b⟩ := h4 hu
            exact ⟨by simp [a, Ne.symm hxe], b⟩
  | reRegister x =>
    simp only [Provider.step]
    by_cases hx : x ∈ s.gate
    · rw [if_pos hx]
      by_cases hxe : x = e
      · subst hxe
        obtain ⟨a, b⟩ := h2 hx
        refine ⟨?_, ?_, ?_, ?_, h5, h6⟩
        · intro hu; exact absurd hx (h1 hu).1
        · intro _; exact ⟨by simp [a], b⟩
        · apply final_of_no_unreg; simp [a]
        · intro hu; exact absurd hu b
      · have hne : Smp.reg x ≠ Smp.reg e := by simpa using hxe
        refine ⟨?_, ?_, h3.snoc_unreg _ hne, ?_, h5, h6⟩
        · intro hu
          obtain ⟨a, b, c, d, f, g⟩ := h1 hu
          exact ⟨a, by simp [b, Ne.symm hxe], by simp [c], d, f, g⟩
        · intro hg
          obtain ⟨a, b⟩ := h2 hg
          exact ⟨by simp [a], b⟩
        · intro hu
          obtain ⟨a, b⟩ := h4 hu
          exact ⟨by simp [a, Ne.symm hxe], b⟩
    · rw [if_neg hx]; exact ⟨h1, h2, h3, h4, h5, h6⟩
  | leaveGate x =>
    refine ⟨?_, ?_, h3, h4, h5, h6⟩
    · intro hu
      obtain ⟨a, b⟩ := h1 hu
      exact ⟨fun hm => a (List.mem_filter.1 hm).1, b⟩
    · intro hg; exact h2 (List.mem_filter.1 hg).1
  | unregister x =>
    simp only [Provider.step]
    by_cases hx : x ∈ s.used ∧ x ∉ s.gate
    · rw [if_pos hx]
      refine ⟨?_, ?_, h3.snoc_unreg _ (by simp), ?_, h5, h6⟩
      · intro hu
        obtain ⟨a, b, c, d, f, g⟩ := h1 hu
        have hxe : x ≠ e := fun h => hu (h ▸ hx.1)
        exact ⟨a, by simp [b], by simp [c, Ne.symm hxe], d, f, g⟩
      · intro hg
        obtain ⟨a, b⟩ := h2 hg
        have hxe : x ≠ e := fun h => hx.2 (h ▸ hg)
        exact ⟨by simp [a, Ne.symm hxe], b⟩
      · intro hu
        obtain ⟨a, b⟩ := h4 hu
        exact ⟨by simp [a], b⟩
    · rw [if_neg hx]; exact ⟨h1, h2, h3, h4, h5, h6⟩
  | stopBegin =>
    refine ⟨?_, ?_, h3.snoc_unreg _ (by simp), ?_, h5, h6⟩
    · intro hu
      obtain ⟨a, b, c, d, f, g⟩ := h1 hu
      exact ⟨a, by simp [Provider.step, b], by simp [Provider.step, c], d, f, g⟩
    · intro hg
      obtain ⟨a, b⟩ := h2 hg
      exact ⟨by simp [Provider.step, a], b⟩
    · intro hu
      obtain ⟨a, b⟩ := h4 hu
      exact ⟨by simp [Provider.step, a], b⟩
  | stopFlag => exact ⟨h1, h2, h3, h4, h5, h6⟩
  | wake =>
    simp only [Provider.step]
    split
    · split
      · exact ⟨fun hu => by obtain ⟨a, b, c, d, f, _⟩ := h1 hu; exact ⟨a, b, c, d, f, by simp⟩,
          h2, h3, fun hu => ⟨(h4 hu).1, by simp⟩, by simp, h6⟩
      · exact ⟨fun hu => by obtain ⟨a, b, c, d, f, _⟩ := h1 hu; exact ⟨a, b, c, d, f, by simp⟩,
          h2, h3, fun hu => ⟨(h4 hu).1, by simp⟩, by simp, h6⟩
    · exact ⟨h1, h2, h3, h4, h5, h6⟩
  | collect =>
    simp only [Provider.step]
    split
    · have hl : ∀ l, Pc.collected (Smp.procReg :: s.gate.map Smp.reg) = Pc.collected l →
          (Smp.reg e ∈ l → e ∈ s.gate) ∧ Smp.unreg e ∉ l := by
        intro l hl
        cases hl
        constructor
        · intro h; simpa using h
        · simp
      refine ⟨?_, h2, h3, ?_, fun l hl' => (hl l hl').2, h6⟩
      · intro hu
        obtain ⟨a, b, c, d, f, _⟩ := h1 hu
        exact ⟨a, b, c, d, f, fun l hl' hm => a ((hl l hl').1 hm)⟩
      · intro hu
        refine ⟨(h4 hu).1, fun l hl' hm => ?_⟩
        exact (h2 ((hl l hl').1 hm)).2 hu
    · exact ⟨h1, h2, h3, h4, h5, h6⟩
  | sendList =>
    simp only [Provider.step]
    split
    · next l hl =>
      have hu5 := h5 l hl
      refine ⟨?_, ?_, h3, ?_, by simp, ?_⟩
      · intro hu
        obtain ⟨a, b, c, d, f, g⟩ := h1 hu
        exact ⟨a, b, c, by simp [d, g l hl], by simp [f, hu5], by simp⟩
      · intro hg
        obtain ⟨a, b⟩ := h2 hg
        exact ⟨a, by simp [b, hu5]⟩
      · intro hu
        simp only [List.mem_append, hu5, or_false] at hu
        exact ⟨(h4 hu).1, by simp⟩
      · exact h6.append (final_of_no_unreg hu5) (fun hu => (h4 hu).2 l hl)
    · exact ⟨h1, h2, h3, h4, h5, h6⟩
  | sendApplied =>
    simp only [Provider.step]
    split
    · refine ⟨?_, ?_, by simp [Final], ?_, by simp, ?_⟩
      · intro hu
        obtain ⟨a, b, c, d, f, g⟩ := h1 hu
        exact ⟨a, by simp, by simp, by simp [d, b], by simp [f, c], by simp⟩
      · intro hg
        obtain ⟨a, b⟩ := h2 hg
        exact ⟨by simp, by simp [a, b]⟩
      · intro _; exact ⟨by simp, by simp⟩
      · exact h6.append h3 (fun hu => (h4 hu).1)
    · exact ⟨h1, h2, h3, h4, h5, h6⟩

theorem Inv.run {e : Nat} {s : State} (h : Inv e s) (l : List Op) : Inv e (run s l) := by
  induction l generalizing s with
  | nil => exact h
  | cons op l ih => exact ih (h.step op)

/-- **C60.** In every interleaving of entity creation, re-registration, destruction and the
registration thread: after the unregistration of an entity has been sent, no registration of
it is sent any more. -/
theorem C60_unregistration_is_final (e : Nat) (h : List Op) :
    ∀ pre post, (run init h).trace = pre ++ .unreg e :: post → Smp.reg e ∉ post :=
  ((Inv.init e).run h).trac

example : (run init [.create 1 true, .wake, .collect, .leaveGate 1, .unregister 1, .sendList, .sendApplied,
    .wake, .collect, .sendList, .sendApplied]).trace
      = [.procReg, .reg 1, .reg 1, .unreg 1, .procReg] := by
  decide +kernel

/-- **C54, C60** Every cycle of the registration thread sends the registration of the process and of every entity
that lives when the cycle collects, whether or not the entity was announced when it was created. -/
theorem C54_each_cycle_announces_live (h : List Op) (hr : (run init h).pc = .running) :
    Smp.procReg ∈ (run init (h ++ [.collect, .sendList])).trace.drop (run init h).trace.length ∧
    ∀ h1 h2 e a, h = h1 ++ .create e a :: h2 → .leaveGate e ∉ h2 → (∀ b, Op.create e b ∉ h1) →
      Smp.reg e ∈ (run init (h ++ [.collect, .sendList])).trace.drop (run init h).trace.length := by
  have hsend : (run init (h ++ [.collect, .sendList])).trace =
      (run init h).trace ++ .procReg :: (run init h).gate.map .reg := by
    simp [run, List.foldl_append] at hr ⊢
    simp [Provider.step, hr]
  rw [hsend, List.drop_left]
  refine ⟨by simp, ?_⟩
  intro h1 h2 e a hh hl hf
  have hused : ∀ (l : List Op) (s : State), (∀ b, Op.create e b ∉ l) → e ∉ s.used → e ∉ (run s l).used := by
    intro l
    induction l with
    | nil => intro s _ hu; exact hu
    | cons op l ih =>
      intro s hc hu
      refine ih _ (fun b hb => hc b (by simp [hb])) ?_
      have hop : ∀ b, op ≠ .create e b := fun b hb => hc b (by simp [hb])
      cases op with
      | create x b =>
        have hx : x ≠ e := by rintro rfl; exact hop b rfl
        simp only [Provider.step]
        split
        · exact hu
        · split <;> simp [hu, Ne.symm hx]
      | _ => simp only [Provider.step] <;> (try split) <;> (try split) <;> exact hu
  have hgate : ∀ (l : List Op) (s : State), .leaveGate e ∉ l → e ∈ s.gate → e ∈ (run s l).gate := by
    intro l
    induction l with
    | nil => intro s _ hu; exact hu
    | cons op l ih =>
      intro s hc hu
      refine ih _ (by intro hb; exact hc (by simp [hb])) ?_
      cases op with
      | leaveGate x =>
        have hx : x ≠ e := by rintro rfl; exact hc (by simp)
        simp [Provider.step, hu, Ne.symm hx]
      | create x b =>
        simp only [Provider.step]
        split
        · exact hu
        · split <;> simp [hu]
      | _ => simp only [Provider.step] <;> (try split) <;> (try split) <;> exact hu
  have : e ∈ (run init h).gate := by
    rw [hh]
    have : run init (h1 ++ .create e a :: h2) = run (Provider.step (run init h1) (.create e a)) h2 := by
      simp [run, List.foldl_append]
    rw [this]
    apply hgate _ _ hl
    have hu := hused h1 init hf (by simp [init])
    simp only [Provider.step, hu, if_false]
    cases a <;> simp
  simp [this]

/-- **C54** A registration asked for, and the end of the process, wake the registration thread: from then on
until the thread wakes up its condition is true. -/
theorem C54_triggers (s : State) (op : Op) (h : List Op)
    (ho : (∃ e, op = .create e true ∧ e ∉ s.used) ∨ (∃ e, op = .reRegister e ∧ e ∈ s.gate) ∨ op = .stopBegin)
    (hw : .wake ∉ h) : (run s (op :: h)).trigger = true := by
  have hk : ∀ (l : List Op) (s : State), .wake ∉ l → s.trigger = true → (run s l).trigger = true := by
    intro l
    induction l with
    | nil => intro s _ hu; exact hu
    | cons op l ih =>
      intro s hc hu
      refine ih _ (by intro hb; exact hc (by simp [hb])) ?_
      cases op with
      | wake => simp at hc
      | create x b => simp only [Provider.step]; split <;> (try split) <;> simp [hu]
      | reRegister x => simp only [Provider.step]; split <;> simp [hu]
      | unregister x => simp only [Provider.step]; split <;> simp [hu]
      | _ => simp only [Provider.step] <;> (try split) <;> simp [hu]
  apply hk h _ hw
  rcases ho with ⟨e, rfl, he⟩ | ⟨e, rfl, he⟩ | rfl
  · simp [Provider.step, he]
  · simp [Provider.step, he]
  · simp [Provider.step]

/-- **C54** An unregistration does not wake the thread: it waits for the next cycle. -/
theorem C54_unregister_waits (s : State) (e : Nat) : (Provider.step s (.unregister e)).trigger = s.trigger := by
  simp only [Provider.step]; split <;> rfl

example : (run init [.create 1 false, .create 2 true, .wake]).pc = .running ∧
    (run init [.create 1 false, .create 2 true, .wake, .collect, .sendList]).trace = [.procReg, .reg 2, .reg 1] := by
  decide +kernel

end Ecal.Provider
