import Verif.Msg.Owner

/-! # Properties of typed subscriber objects (C103) -/

namespace Ecal.Msg.Owner

/-! ## Auxiliary -/

/-- Between operations: a bound object is alive, owns the reader and has a callback; no reader has two
owners; readers are numbered by the counter. -/
structure Good (c : Core) : Prop where
  bound : ∀ r o, c.bound r = some o → (c.obj o).alive = true ∧ (c.obj o).reader = some r ∧
    (c.obj o).cb ≠ none
  owner : ∀ o p r, (c.obj o).reader = some r → (c.obj p).reader = some r → o = p
  live  : ∀ o r, (c.obj o).reader = some r → (c.obj o).alive = true ∧ r < c.next

/-- Every bound object is alive, every bound reader exists. -/
def Alive (c : Core) : Prop := ∀ r o, c.bound r = some o → (c.obj o).alive = true ∧ r < c.next

theorem Good.alive {c : Core} (h : Good c) : Alive c := fun r o hb =>
  ⟨(h.bound r o hb).1, (h.live o r (h.bound r o hb).2.1).2⟩

/-- Operations with a callback that is not empty, and not the old destructor. -/
def Fine : Api → Prop
  | .addCb _ none => False
  | .deleteOld _ => False
  | _ => True

def after (c : Core) (ms : List Micro) : Core := ms.foldl mexec c

/-- All states on the way are alive. -/
def AliveAll : Core → List Micro → Prop
  | c, [] => Alive c
  | c, m :: ms => Alive c ∧ AliveAll (mexec c m) ms

theorem AliveAll.head {c : Core} {ms : List Micro} (h : AliveAll c ms) : Alive c := by
  cases ms with
  | nil => exact h
  | cons => exact h.1

theorem aliveAll_append {a b : List Micro} : ∀ {c : Core}, AliveAll c a → AliveAll (after c a) b →
    AliveAll c (a ++ b) := by
  induction a with
  | nil => intro c _ hb; exact hb
  | cons m a ih => intro c ha hb; exact ⟨ha.1, ih ha.2 hb⟩

/-- The second half of a move. -/
def moveTail (dst src : Nat) : List Micro :=
  [.moveBase dst src, .moveCb dst src, .remIf dst, .addIf dst]

theorem destroy_good (c : Core) (o : Nat) (hg : Good c) :
    Good (after c (destroyProg o)) ∧ AliveAll c (destroyProg o) := by
  have hal := hg.alive
  obtain ⟨hb, ho, hl⟩ := hg
  cases hr : (c.obj o).reader with
  | none =>
    refine ⟨⟨?_, ?_, ?_⟩, hal, ?_, ?_, ?_⟩ <;>
      simp only [after, destroyProg, List.foldl, mexec, hr, Core.setObj, AliveAll, Alive,
        if_true] <;> grind
  | some r =>
    refine ⟨⟨?_, ?_, ?_⟩, hal, ?_, ?_, ?_⟩ <;>
      simp only [after, destroyProg, List.foldl, mexec, hr, Core.setObj, Core.setBound, AliveAll,
        Alive, if_true] <;> grind

theorem moveTail_good (c : Core) (dst src : Nat) (hg : Good c) (h1 : (c.obj dst).alive = true)
    (h0 : (c.obj dst).reader = none) (h2 : (c.obj src).alive = true) (h3 : dst ≠ src) :
    Good (after c (moveTail dst src)) ∧ AliveAll c (moveTail dst src) := by
  have hal := hg.alive
  obtain ⟨hb, ho, hl⟩ := hg
  cases hr : (c.obj src).reader with
  | none =>
    cases hc : (c.obj src).cb <;> refine ⟨⟨?_, ?_, ?_⟩, hal, ?_, ?_, ?_, ?_⟩ <;>
      simp [after, moveTail, mexec, hr, hc, h3, Core.setObj, AliveAll, Alive] <;> grind
  | some r =>
    cases hc : (c.obj src).cb <;> refine ⟨⟨?_, ?_, ?_⟩, hal, ?_, ?_, ?_, ?_⟩ <;>
      simp [after, moveTail, mexec, hr, hc, h3, Core.setObj, Core.setBound, AliveAll, Alive] <;> grind

theorem api_good (c : Core) (a : Api) (hg : Good c) (ha : allowed c a = true) (hf : Fine a) :
    Good (after c (program a)) ∧ AliveAll c (program a) := by
  have hal := hg.alive
  obtain ⟨hb, ho, hl⟩ := hg
  cases a with
  | new o =>
    simp only [allowed, Bool.not_eq_true'] at ha
    have hno : ∀ r, c.bound r ≠ some o := by
      intro r h; have := (hb r o h).1; simp [ha] at this
    refine ⟨⟨?_, ?_, ?_⟩, hal, ?_, ?_⟩ <;>
      simp only [after, program, List.foldl, mexec, Core.setObj, AliveAll, Alive] <;> grind
  | addCb o cb =>
    simp only [allowed] at ha
    cases cb with
    | none => exact hf.elim
    | some f =>
      cases hr : (c.obj o).reader with
      | none =>
        refine ⟨⟨?_, ?_, ?_⟩, hal, ?_, ?_, ?_, ?_⟩ <;>
          simp only [after, program, List.foldl, mexec, hr, Core.setObj, AliveAll, Alive] <;> grind
      | some r =>
        refine ⟨⟨?_, ?_, ?_⟩, hal, ?_, ?_, ?_, ?_⟩ <;>
          simp only [after, program, List.foldl, mexec, hr, Core.setObj, Core.setBound, AliveAll,
            Alive] <;> grind
  | remCb o =>
    cases hr : (c.obj o).reader with
    | none =>
      refine ⟨⟨?_, ?_, ?_⟩, hal, ?_, ?_⟩ <;>
        simp only [after, program, List.foldl, mexec, hr, Core.setObj, AliveAll, Alive] <;> grind
    | some r =>
      refine ⟨⟨?_, ?_, ?_⟩, hal, ?_, ?_⟩ <;>
        simp only [after, program, List.foldl, mexec, hr, Core.setObj, Core.setBound, AliveAll, Alive] <;> grind
  | destroy o => exact destroy_good c o ⟨hb, ho, hl⟩
  | delete o =>
    cases hr : (c.obj o).reader with
    | none =>
      refine ⟨⟨?_, ?_, ?_⟩, hal, ?_, ?_, ?_, ?_⟩ <;>
        simp only [after, program, destroyProg, List.foldl, mexec, hr, Core.setObj, AliveAll, Alive,
          if_true, List.cons_append, List.nil_append] <;> grind
    | some r =>
      refine ⟨⟨?_, ?_, ?_⟩, hal, ?_, ?_, ?_, ?_⟩ <;>
        simp only [after, program, destroyProg, List.foldl, mexec, hr, Core.setObj, Core.setBound, AliveAll,
          Alive, if_true, List.cons_append, List.nil_append] <;> grind
  | deleteOld o => exact hf.elim
  | moveNew dst src =>
    simp only [allowed, Bool.and_eq_true, Bool.not_eq_true', decide_eq_true_eq] at ha
    obtain ⟨⟨h1, h2⟩, h3⟩ := ha
    have hno : ∀ r, c.bound r ≠ some dst := by
      intro r h; have := (hb r dst h).1; simp [h1] at this
    have hnr : (c.obj dst).reader = none := by
      cases h : (c.obj dst).reader with
      | none => rfl
      | some r => have := (hl dst r h).1; simp [h1] at this
    have hg' : Good (mexec c (.born dst)) := by
      refine ⟨?_, ?_, ?_⟩ <;> simp only [mexec, Core.setObj] <;> grind
    have ht := moveTail_good (mexec c (.born dst)) dst src hg'
      (by simp [mexec, Core.setObj]) (by simp [mexec, Core.setObj])
      (by have : ¬ src = dst := fun h => h3 h.symm
          simp [mexec, Core.setObj, this, h2]) h3
    exact ⟨ht.1, hal, ht.2⟩
  | moveTo dst src =>
    simp only [allowed, Bool.and_eq_true, decide_eq_true_eq] at ha
    obtain ⟨⟨h1, h2⟩, h3⟩ := ha
    have h3' : ¬ src = dst := fun h => h3 h.symm
    have hd := destroy_good c dst ⟨hb, ho, hl⟩
    have hobj : ((after c (destroyProg dst)).obj dst).reader = none ∧
        ((after c (destroyProg dst)).obj dst).alive = true ∧
        ((after c (destroyProg dst)).obj src).alive = true := by
      cases hr : (c.obj dst).reader <;>
        simp [after, destroyProg, mexec, hr, Core.setObj, Core.setBound, h3', h1, h2]
    have ht := moveTail_good _ dst src hd.1 hobj.2.1 hobj.1 hobj.2.2 h3
    refine ⟨?_, ?_⟩
    · have : after c (program (.moveTo dst src)) = after (after c (destroyProg dst)) (moveTail dst src) := by
        simp only [after, program, moveTail, List.foldl_append]
      rw [this]; exact ht.1
    · exact aliveAll_append hd.2 ht.2

/-- The object a receiving thread is working on. -/
def rxObj : Rx → Option Nat
  | .idle => none
  | .entered o _ => some o
  | .copying o _ => some o
  | .copied o _ _ => some o

structure Inv (s : State) : Prop where
  good  : Good (after s.core s.prog)
  alive : AliveAll s.core s.prog
  rx    : ∀ r o, rxObj (s.rx r) = some o → s.core.bound r = some o

theorem mexec_bound (s : State) (m : Micro) (he : enabled s m = true) (r o : Nat)
    (hb : rxObj (s.rx r) = some o) : (mexec s.core m).bound r = s.core.bound r := by
  have hbusy : busy s r = true := by
    unfold busy
    cases h : s.rx r <;> simp [h, rxObj] at hb ⊢
  cases m with
  | rem p =>
    simp only [enabled, mexec] at he ⊢
    cases hr : (s.core.obj p).reader with
    | none => rfl
    | some q =>
      simp only [hr] at he
      simp only [Core.setBound]
      split
      · subst_vars; simp [hbusy] at he
      · rfl
  | add p =>
    simp only [enabled, mexec] at he ⊢
    cases hr : (s.core.obj p).reader with
    | none => rfl
    | some q =>
      simp only [hr] at he
      simp only [Core.setBound]
      split
      · subst_vars; simp [hbusy] at he
      · rfl
  | remIf p =>
    simp only [enabled, mexec] at he ⊢
    by_cases hc : (s.core.obj p).cb = none
    · simp [hc]
    · rw [if_neg hc] at he ⊢
      cases hr : (s.core.obj p).reader with
      | none => rfl
      | some q =>
        simp only [hr] at he
        simp only [Core.setBound]
        split
        · subst_vars; simp [hbusy] at he
        · rfl
  | addIf p =>
    simp only [enabled, mexec] at he ⊢
    by_cases hc : (s.core.obj p).cb = none
    · simp [hc]
    · rw [if_neg hc] at he ⊢
      cases hr : (s.core.obj p).reader with
      | none => rfl
      | some q =>
        simp only [hr] at he
        simp only [Core.setBound]
        split
        · subst_vars; simp [hbusy] at he
        · rfl
  | _ => rfl

def FineStep : Step → Prop
  | .call a => Fine a
  | _ => True

theorem inv_step (s : State) (op : Step) (hi : Inv s) (hu : s.ub ≠ some .freed) (hf : FineStep op) :
    Inv (step s op) ∧ (step s op).ub ≠ some .freed := by
  unfold step
  by_cases h0 : s.ub ≠ none
  · rw [if_pos h0]; exact ⟨hi, hu⟩
  · rw [if_neg h0]
    obtain ⟨hg, ha, hr⟩ := hi
    have hsafe : ∀ r o, rxObj (s.rx r) = some o → (s.core.obj o).alive = true :=
      fun r o h => (ha.head r o (hr r o h)).1
    cases op with
    | call a =>
      simp only
      by_cases hc : s.prog = [] ∧ allowed s.core a = true
      · rw [if_pos hc]
        rw [hc.1] at hg
        have := api_good s.core a hg hc.2 hf
        exact ⟨⟨this.1, this.2, hr⟩, hu⟩
      · rw [if_neg hc]; exact ⟨⟨hg, ha, hr⟩, hu⟩
    | app =>
      simp only
      cases hp : s.prog with
      | nil => exact ⟨⟨hg, ha, hr⟩, hu⟩
      | cons m rest =>
        simp only
        rw [hp] at hg ha
        by_cases h2 : enabled s m = true
        · rw [if_neg (by simp [h2])]
          by_cases h1 : races s m = true
          · rw [if_pos h1]
            refine ⟨⟨?_, ?_, hr⟩, by simp⟩
            · exact hg
            · exact ha
          · rw [if_neg h1]
            refine ⟨⟨hg, ha.2, ?_⟩, hu⟩
            intro r o h
            exact (mexec_bound s m h2 r o h).trans (hr r o h)
        · rw [if_pos (by simp [h2])]
          refine ⟨⟨?_, ?_, hr⟩, hu⟩
          · rw [hp]; exact hg
          · rw [hp]; exact ha
    | arrive r x =>
      simp only
      by_cases h1 : s.rx r = .idle
      · rw [if_pos h1]
        cases hb : s.core.bound r with
        | none => exact ⟨⟨hg, ha, hr⟩, hu⟩
        | some o =>
          refine ⟨⟨hg, ha, ?_⟩, hu⟩
          intro q p h
          simp only [setRx] at h
          by_cases hq : q = r
          · subst hq; simp [rxObj] at h; subst h; exact hb
          · rw [if_neg hq] at h; exact hr q p h
      · rw [if_neg h1]; exact ⟨⟨hg, ha, hr⟩, hu⟩
    | rx r =>
      simp only
      have keep : ∀ v, (rxObj v = none ∨ rxObj v = rxObj (s.rx r)) → ∀ q p,
          rxObj ((setRx s r v).rx q) = some p → s.core.bound q = some p := by
        intro v hv q p h
        simp only [setRx] at h
        by_cases hq : q = r
        · subst hq
          rw [if_pos rfl] at h
          rcases hv with hv | hv
          · rw [hv] at h; cases h
          · rw [hv] at h; exact hr _ _ h
        · rw [if_neg hq] at h; exact hr q p h
      cases hx : s.rx r with
      | idle => exact ⟨⟨hg, ha, hr⟩, hu⟩
      | entered o x =>
        have hal := hsafe r o (by simp [hx, rxObj])
        simp only [hal, if_true]
        exact ⟨⟨hg, ha, keep _ (by simp [hx, rxObj])⟩, hu⟩
      | copying o x =>
        have hal := hsafe r o (by simp [hx, rxObj])
        simp only [hal, if_true]
        exact ⟨⟨hg, ha, keep _ (by simp [hx, rxObj])⟩, hu⟩
      | copied o cb x =>
        have hal := hsafe r o (by simp [hx, rxObj])
        cases cb with
        | none => exact ⟨⟨hg, ha, keep .idle (by simp [rxObj])⟩, hu⟩
        | some f =>
          simp only [hal, if_true]
          exact ⟨⟨hg, ha, keep .idle (by simp [rxObj])⟩, hu⟩

theorem inv_init : Inv {} := by
  refine ⟨⟨?_, ?_, ?_⟩, ?_, ?_⟩
  · intro r o h; simp [after] at h
  · intro o p r h; simp [after] at h
  · intro o r h; simp [after] at h
  · intro r o h; simp at h
  · intro r o h; simp [rxObj] at h

/-! ## C103 -/

/-- **C103 (no callback on a destroyed object).** Whatever subscriber objects the application constructs,
gives callbacks, moves, destroys and deletes, and however samples arrive meanwhile: no receiving thread
ever touches an object whose memory has ended.
Missing: empty callbacks, see `C103_violated_empty_callback`, and objects of the older class, see
`C103_violated_old_destructor`. -/
theorem C103_never_freed_partial (h : List Step) (hf : ∀ op ∈ h, FineStep op) :
    (run {} h).ub ≠ some .freed := by
  have key : ∀ h s, Inv s → s.ub ≠ some .freed → (∀ op ∈ h, FineStep op) →
      (run s h).ub ≠ some .freed := by
    intro h
    induction h with
    | nil => intro s _ hu _; exact hu
    | cons op h ih =>
      intro s hi hu hf
      have := inv_step s op hi hu (hf op (List.mem_cons_self ..))
      exact ih _ this.1 this.2 (fun o ho => hf o (List.mem_cons_of_mem _ ho))
  exact key h {} inv_init (by simp) hf

/-- A subscriber moved twice and deleted, samples in between. -/
example : (run {} (whole (.new 0) ++ whole (.addCb 0 (some 7)) ++ sample 0 1 ++ whole (.moveNew 1 0) ++
    whole (.delete 0) ++ sample 0 2 ++ whole (.new 2) ++ whole (.moveTo 2 1) ++ sample 0 3 ++
    whole (.delete 2) ++ sample 0 4)).log = [(0, 7, 1), (0, 7, 2), (0, 7, 3)] := by decide +kernel

/-- Operations other than moves. -/
def NoMove : Step → Prop
  | .call (.moveNew _ _) => False
  | .call (.moveTo _ _) => False
  | _ => True

def isMoveCb : Micro → Bool
  | .moveCb _ _ => true
  | _ => false

/-- Where the lock of the object is free nobody copies its callback. -/
theorem copies_of_locked (s : State) (o : Nat) (h : (List.range s.core.next).all (fun r =>
    match s.rx r with | .copying p _ => p ≠ o | _ => true) = true) : copies s o = false := by
  rw [List.all_eq_true] at h
  unfold copies
  rw [List.any_eq_false]
  intro r hr
  have := h r hr
  cases hx : s.rx r <;> simp_all

/-- **C103 (no data race without moves).** As long as no subscriber is moved, the callback member of an
object is never accessed by two threads at once; so together with the theorem above nothing undefined
happens at all. -/
theorem C103_no_race_partial (h : List Step) (hm : ∀ op ∈ h, NoMove op) :
    (run {} h).ub ≠ some .race := by
  have key : ∀ h s, (∀ m ∈ s.prog, isMoveCb m = false) → s.ub ≠ some .race → (∀ op ∈ h, NoMove op) →
      (run s h).ub ≠ some .race := by
    intro h
    induction h with
    | nil => intro s _ hu _; exact hu
    | cons op h ih =>
      intro s hp hu hm
      have ho := hm op (List.mem_cons_self ..)
      have hrest := fun o ho => hm o (List.mem_cons_of_mem op ho)
      have hstep : (∀ m ∈ (step s op).prog, isMoveCb m = false) ∧ (step s op).ub ≠ some .race := by
        unfold step
        by_cases h0 : s.ub ≠ none
        · rw [if_pos h0]; exact ⟨hp, hu⟩
        · rw [if_neg h0]
          cases op with
          | call a =>
            simp only
            split
            · refine ⟨?_, hu⟩
              cases a <;> simp [NoMove] at ho <;> simp [program, destroyProg, isMoveCb]
            · exact ⟨hp, hu⟩
          | app =>
            simp only
            cases hq : s.prog with
            | nil => exact ⟨by rw [hq]; simp, hu⟩
            | cons m rest =>
              simp only
              rw [hq] at hp
              by_cases h2 : enabled s m = true
              · have hnr : races s m = false := by
                  have h3 := hp m (List.mem_cons_self ..)
                  cases m <;> simp [isMoveCb] at h3 <;> try rfl
                  all_goals exact copies_of_locked s _ h2
                simp only [h2, hnr]
                exact ⟨fun k hk => hp k (List.mem_cons_of_mem _ hk), hu⟩
              · simp only [h2]
                exact ⟨by simpa [hq] using hp, hu⟩
          | arrive r x =>
            simp only
            split
            · split
              · exact ⟨hp, hu⟩
              · exact ⟨hp, hu⟩
            · exact ⟨hp, hu⟩
          | rx r =>
            simp only
            split
            · exact ⟨hp, hu⟩
            · split
              · exact ⟨hp, hu⟩
              · exact ⟨hp, by simp⟩
            · split
              · exact ⟨hp, hu⟩
              · exact ⟨hp, by simp⟩
            · split
              · exact ⟨hp, hu⟩
              · split
                · exact ⟨hp, hu⟩
                · exact ⟨hp, by simp⟩
      exact ih _ hstep.1 hstep.2 hrest
  exact key h {} (by simp) (by simp) hm

example : NoMove (.call (.delete 3)) ∧ FineStep (.call (.addCb 3 (some 1))) := ⟨trivial, trivial⟩

/-- **C103 (a received sample reaches the callback).** A sample for a reader that is bound to an object
reaches this object's callback. -/
theorem C103_delivered (s : State) (r o f x : Nat) (hu : s.ub = none) (hx : s.rx r = .idle)
    (hb : s.core.bound r = some o) (ha : (s.core.obj o).alive = true) (hc : (s.core.obj o).cb = some f) :
    (run s (sample r x)).log = s.log ++ [(r, f, x)] ∧ (run s (sample r x)).rx r = .idle := by
  simp [run, sample, step, hu, hx, hb, ha, hc, setRx]

/-- **C103 (a moved subscriber keeps its callback).** After an undisturbed move construction the samples of
the reader reach the same callback, now through the new object; the old object owns nothing any more and
may be deleted. -/
theorem C103_move_keeps (s : State) (dst src r f x : Nat) (hu : s.ub = none)
    (hp : s.prog = []) (hidle : ∀ q, s.rx q = .idle) (hd : (s.core.obj dst).alive = false)
    (hs : (s.core.obj src).alive = true) (hne : dst ≠ src) (hr : (s.core.obj src).reader = some r)
    (hc : (s.core.obj src).cb = some f) :
    (run s (whole (.moveNew dst src) ++ sample r x)).log = s.log ++ [(r, f, x)] ∧
    (run s (whole (.moveNew dst src))).core.bound r = some dst ∧
    (run s (whole (.moveNew dst src))).core.obj src = { s.core.obj src with reader := none, cb := none } := by
  have hne' : ¬ src = dst := fun h => hne h.symm
  have hrun : run s (whole (.moveNew dst src)) =
      { s with core := after s.core (program (.moveNew dst src)), prog := [] } := by
    simp [run, whole, program, step, hu, hp, allowed, hd, hs, hne, races, copies, enabled, hidle, busy, after,
      mexec, Core.setObj, Core.setBound, hr, hc, hne']
  have hb : (after s.core (program (.moveNew dst src))).bound r = some dst ∧
      ((after s.core (program (.moveNew dst src))).obj dst).alive = true ∧
      ((after s.core (program (.moveNew dst src))).obj dst).cb = some f ∧
      (after s.core (program (.moveNew dst src))).obj src =
        { s.core.obj src with reader := none, cb := none } := by
    simp [after, program, mexec, Core.setObj, Core.setBound, hr, hc, hne, hne']
  refine ⟨?_, by rw [hrun]; exact hb.1, by rw [hrun]; exact hb.2.2.2⟩
  have : run s (whole (.moveNew dst src) ++ sample r x) =
      run (run s (whole (.moveNew dst src))) (sample r x) := by simp [run]
  rw [this, hrun]
  exact (C103_delivered { s with core := after s.core (program (.moveNew dst src)), prog := [] } r dst f x hu
    (hidle r) hb.1 hb.2.1 hb.2.2.1).1

/-- The state after creating a subscriber with a callback meets the hypotheses. -/
example : (run {} (whole (.new 0) ++ whole (.addCb 0 (some 7)))).core.bound 0 = some 0 ∧
    ((run {} (whole (.new 0) ++ whole (.addCb 0 (some 7)))).core.obj 0).cb = some 7 ∧
    (run {} (whole (.new 0) ++ whole (.addCb 0 (some 7)))).prog = [] := by decide +kernel

/-- The step is one of a receiving thread. -/
def isRx : Step → Bool
  | .arrive _ _ => true
  | .rx _ => true
  | _ => false

/-- **C103 (nothing after the removal).** When `RemReceiveCallback` or `Destroy` has returned - the reader is
not bound and its receiving thread is not inside a callback - no user callback runs for this reader,
whatever arrives. -/
theorem C103_removed_is_silent (r : Nat) (h : List Step) : ∀ (s : State), s.core.bound r = none →
    s.rx r = .idle → (∀ op ∈ h, isRx op = true) →
    (run s h).log.filter (fun e => e.1 = r) = s.log.filter (fun e => e.1 = r) := by
  induction h with
  | nil => intro s _ _ _; rfl
  | cons op h ih =>
    intro s hb hx ho
    have hop := ho op (List.mem_cons_self ..)
    have hrest := fun o h' => ho o (List.mem_cons_of_mem op h')
    have hrun : run s (op :: h) = run (step s op) h := rfl
    rw [hrun]
    have hstep : (step s op).core.bound r = none ∧ (step s op).rx r = .idle ∧
        (step s op).log.filter (fun e => e.1 = r) = s.log.filter (fun e => e.1 = r) := by
      unfold step
      by_cases h0 : s.ub ≠ none
      · rw [if_pos h0]; exact ⟨hb, hx, rfl⟩
      · rw [if_neg h0]
        cases op with
        | call a => simp [isRx] at hop
        | app => simp [isRx] at hop
        | arrive q x =>
          simp only
          by_cases hq : q = r
          · subst hq; simp [hx, hb]
          · have hq' : ¬ r = q := fun h => hq h.symm
            split
            · split
              · exact ⟨hb, hx, rfl⟩
              · exact ⟨hb, by simp [setRx, hq', hx], rfl⟩
            · exact ⟨hb, hx, rfl⟩
        | rx q =>
          simp only
          by_cases hq : q = r
          · subst hq; simp [hx, hb]
          · have hq' : ¬ r = q := fun h => hq h.symm
            split
            · exact ⟨hb, hx, rfl⟩
            · split
              · exact ⟨hb, by simp [setRx, hq', hx], rfl⟩
              · exact ⟨hb, hx, rfl⟩
            · split
              · exact ⟨hb, by simp [setRx, hq', hx], rfl⟩
              · exact ⟨hb, hx, rfl⟩
            · split
              · exact ⟨hb, by simp [setRx, hq', hx], rfl⟩
              · split
                · exact ⟨hb, by simp [setRx, hq', hx], by simp [hq]⟩
                · exact ⟨hb, hx, rfl⟩
    rw [ih _ hstep.1 hstep.2.1 hrest, hstep.2.2]

/-- Removing a callback leads to such a state: it waits for the receiving thread. -/
theorem C103_remove_unbinds (s : State) (o r : Nat) (hu : s.ub = none) (hp : s.prog = [])
    (ha : (s.core.obj o).alive = true) (hr : (s.core.obj o).reader = some r) :
    (s.rx r = .idle → (run s [.call (.remCb o), .app]).core.bound r = none) ∧
    (s.rx r ≠ .idle → (run s [.call (.remCb o), .app]).prog = program (.remCb o)) := by
  constructor
  · intro hx
    simp [run, step, hu, hp, allowed, ha, program, races, enabled, hr, busy, hx, mexec, Core.setBound]
  · intro hx
    simp [run, step, hu, hp, allowed, ha, program, enabled, hr, busy, hx]

example : (run {} (whole (.new 0) ++ whole (.addCb 0 (some 7)) ++ [.arrive 0 1] ++
    [.call (.remCb 0), .app, .rx 0, .rx 0, .rx 0, .app, .app] ++ sample 0 2)).log = [(0, 7, 1)] := by
  decide +kernel

/-- **C103 (violated: moves race with the receiving thread).** The move takes the callback out of the old
object without its lock, while the reader's callback still leads there: a sample arriving during the move
makes the receiving thread copy the very same member. -/
theorem C103_violated_move_race :
    (run {} (whole (.new 0) ++ whole (.addCb 0 (some 7)) ++
      [.arrive 0 1, .rx 0, .call (.moveNew 1 0), .app, .app, .app])).ub = some .race := by decide +kernel

/-- **C103 (violated: moves lose samples).** Even where the race does no harm, a sample that arrives between
the move of the callback and the new binding reaches no callback. -/
theorem C103_violated_move_loses :
    (run {} (whole (.new 0) ++ whole (.addCb 0 (some 7)) ++
      [.call (.moveNew 1 0), .app, .app, .app] ++ sample 0 1 ++ [.app, .app] ++ sample 0 2)).lost = [(0, 1)] ∧
    (run {} (whole (.new 0) ++ whole (.addCb 0 (some 7)) ++
      [.call (.moveNew 1 0), .app, .app, .app] ++ sample 0 1 ++ [.app, .app] ++ sample 0 2)).log
      = [(0, 7, 2)] := by decide +kernel

/-- **C103 (violated: an empty callback).** `AddReceiveCallback` with an empty function binds the object all
the same. A move then finds no callback and leaves the binding with the old object; when that is deleted,
the next sample makes the receiving thread work on freed memory. -/
theorem C103_violated_empty_callback :
    (run {} (whole (.new 0) ++ whole (.addCb 0 none) ++ whole (.moveNew 1 0) ++ whole (.delete 0) ++
      sample 0 1)).ub = some .freed := by decide +kernel

/-- **C103 (violated: the older class).** `CMsgSubscriber` leaves its destruction to the base class, which
removes the callback only after the members of the derived class are gone: a sample arriving in between
is handled by a destroyed object. -/
theorem C103_violated_old_destructor :
    (run {} (whole (.new 0) ++ whole (.addCb 0 (some 7)) ++ [.call (.deleteOld 0), .app] ++
      sample 0 1)).ub = some .freed := by decide +kernel

/-- **C103 (violated: assignment to itself).** Moving a subscriber to itself destroys it. -/
theorem C103_violated_self_move (c : Core) (o : Nat) :
    ((after c (program (.moveTo o o))).obj o).reader = none ∧
    ((after c (program (.moveTo o o))).obj o).cb = none := by
  cases hr : (c.obj o).reader <;>
    simp [after, program, destroyProg, mexec, hr, Core.setObj, Core.setBound]

end Ecal.Msg.Owner
