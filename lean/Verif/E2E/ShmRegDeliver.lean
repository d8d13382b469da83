import Verif.E2E.ShmRegFiles

/-! # Lemmas for C108: a list that was announced reaches the readers -/

namespace Ecal.E2E.ShmReg

open Ecal.Wire (RegSample RTopic IsMap)
open Ecal.E2E.Disc (Proc PSt World)
open Ecal.Bcast (Event EvType Sys Reader firstPerId AllOpen)

/-! ## Specification -/

/-- The writer of `A` does nothing. -/
def QuietStep (A : Nat) : SIn → Prop
  | .wnext p _ _ => p ≠ A
  | .unbind p _ _ => p ≠ A
  | _ => True

/-- Process `q` neither starts nor ends a poll, and no process dies. -/
def NoPoll (q : Nat) : SIn → Prop
  | .pollBegin p _ _ => p ≠ q
  | .attach p => p ≠ q
  | .crash => False
  | _ => True

/-- Process `q` continues its poll, and the accesses it makes to existing files work. -/
def ReadOn (q : Nat) : SIn → Prop
  | .attach p => p ≠ q
  | .pollEnd p => p ≠ q
  | .pollNext p a b => p = q → a = true ∧ b = true
  | _ => True

/-- Process `A` hands nothing to its sender, and its accesses work. -/
def WriteOn (A : Nat) : SIn → Prop
  | .write1 p _ _ _ _ => p ≠ A
  | .write2 p _ _ => p ≠ A
  | .wnext p _ ok => p = A → ok = true
  | _ => True

/-- Is the writer about to announce that its file goes away? -/
def leaving : Option Wr → Bool
  | some r => match r.pc with | .gone _ _ => true | _ => false
  | none => false

/-- The removal of a file is announced before it disappears. -/
def RemStep (w : SW) : SIn → Prop
  | .unbind _ _ evOk => evOk = true
  | .wnext p _ ok => leaving (w.wr p) = true → ok = true
  | _ => True

def RemAnnounced (P : Nat → Proc) : SW → List SIn → Prop
  | _, [] => True
  | w, x :: h => RemStep w x ∧ RemAnnounced P (step P w x) h

/-! ## The file of one writer -/

structure Holds (w : SW) (A id : Nat) (d : Bytes) : Prop where
  wr : ∃ r, w.wr A = some r ∧ r.id = id
  obj : w.objs.find id = some d

theorem Holds.congr {w w' : SW} {A id : Nat} {d : Bytes} (h : Holds w A id d) (h1 : w'.wr A = w.wr A)
    (h2 : w'.objs.find id = w.objs.find id) : Holds w' A id d :=
  ⟨by rw [h1]; exact h.wr, by rw [h2]; exact h.obj⟩

theorem create_find (w : SW) (new id : Nat) (d : Bytes) (hf : w.objs.find new = none)
    (ho : w.objs.find id = some d) : (createFile w new).objs.find id = some d := by
  unfold createFile
  split
  · exact ho
  · simp only [AMap.find_set]
    split
    · rename_i e; rw [← e, hf] at ho; cases ho
    · exact ho

theorem Holds.beginWrite {w : SW} {A id : Nat} {d : Bytes} (h : Holds w A id d) (p : Nat) (c : Bytes)
    (new : Nat) (ok : Bool) (hf : w.objs.find new = none) : Holds (beginWrite w p c new ok) A id d := by
  obtain ⟨⟨r0, hr0, hid⟩, ho⟩ := h
  unfold ShmReg.beginWrite
  cases hr : w.wr p with
  | none => exact ⟨⟨r0, hr0, hid⟩, ho⟩
  | some r =>
    have key : ∀ (w' : SW) pc, w'.wr = upd w.wr p (some { r with pc := pc }) → w'.objs.find id = some d →
        Holds w' A id d := by
      intro w' pc h1 h2
      refine ⟨?_, h2⟩
      rw [h1]
      by_cases hp : A = p
      · subst hp
        rw [hr] at hr0; cases hr0
        exact ⟨_, upd_self _ _ _, hid⟩
      · rw [upd_ne _ _ _ _ hp]; exact ⟨r0, hr0, hid⟩
    simp only
    split
    · split
      · exact key _ _ rfl (create_find w new id d hf ho)
      · exact ⟨⟨r0, hr0, hid⟩, ho⟩
    · exact key _ _ rfl ho

theorem Holds.sendList {w : SW} {A id : Nat} {d : Bytes} (h : Holds w A id d) (p : Nat)
    (l : List RegSample) (new : Nat) (ok : Bool) (hf : w.objs.find new = none) :
    Holds (sendList w p l new ok) A id d := by
  unfold ShmReg.sendList
  simp only
  split
  · exact h.congr rfl rfl
  · exact Holds.beginWrite (w := { w with written := w.written ++ [(p, l)] }) (h.congr rfl rfl) p _ new ok hf

theorem Holds.step {P : Nat → Proc} {w : SW} {A id : Nat} {d : Bytes} (h : Holds w A id d) (hu : UInv w)
    (x : SIn) (hf : FreshStep w x) (hq : QuietStep A x) : Holds (step P w x) A id d := by
  obtain ⟨⟨r0, hr0, hid⟩, ho⟩ := h
  have h : Holds w A id d := ⟨⟨r0, hr0, hid⟩, ho⟩
  cases x with
  | act y => simp only [ShmReg.step]; split <;> first | exact h | exact h.congr rfl rfl
  | bind p id' now ok evOk =>
    simp only [ShmReg.step]
    split
    · rename_i hc
      have hp : A ≠ p := by intro e; subst e; rw [hc.1] at hr0; cases hr0
      refine h.congr (upd_ne _ _ _ _ hp) ?_
      rw [ho]; exact create_find w id' id d hf ho
    · exact h
  | unbind p now evOk =>
    have hp : A ≠ p := fun e => hq e.symm
    simp only [ShmReg.step]
    cases hr : w.wr p with
    | none => exact h
    | some r =>
      simp only
      split
      · exact h.congr (upd_ne _ _ _ _ hp) rfl
      · exact h
  | write1 p a b n ok =>
    simp only [ShmReg.step]
    split
    · refine Holds.sendList ?_ p _ n ok ?_
      · exact h.congr rfl rfl
      · exact hf
    · exact h
  | write2 p n ok =>
    simp only [ShmReg.step]
    split
    · refine Holds.sendList ?_ p _ n ok ?_
      · exact h.congr rfl rfl
      · exact hf
    · exact h
  | wnext p now ok =>
    have hp : A ≠ p := fun e => hq e.symm
    simp only [ShmReg.step, contWrite]
    cases hr : w.wr p with
    | none => exact h
    | some r =>
      simp only
      cases hpc : r.pc with
      | idle => exact h
      | access c =>
        simp only
        split
        · refine h.congr (upd_ne _ _ _ _ hp) ?_
          simp only [AMap.find_set]
          rw [if_neg]
          intro e
          have := hu.dj p A r r0 hr hr0 (Ne.symm hp) r.id (id_own r)
          rw [e, ← hid] at this
          exact this (id_own r0)
        · exact h.congr (upd_ne _ _ _ _ hp) rfl
      | _ => exact h.congr (upd_ne _ _ _ _ hp) rfl
  | crash => exact h.congr rfl rfl
  | attach q => exact h.congr rfl rfl
  | pollBegin q now ok => simp only [ShmReg.step]; split <;> first | exact h | exact h.congr rfl rfl
  | pollNext q a b => simp only [ShmReg.step]; split <;> first | exact h | exact h.congr rfl rfl
  | pollEnd q => simp only [ShmReg.step]; split <;> first | exact h | exact h.congr rfl rfl
  | apply q now => simp only [ShmReg.step]; split <;> first | exact h | exact h.congr rfl rfl

theorem Holds.run {P : Nat → Proc} {A id : Nat} {d : Bytes} (h : List SIn) {w : SW} (hh : Holds w A id d)
    (hu : UInv w) (hf : FreshIds P w h) (hq : ∀ x ∈ h, QuietStep A x) : Holds (run P w h) A id d := by
  induction h generalizing w with
  | nil => exact hh
  | cons x h ih =>
    exact ih (hh.step hu x hf.1 (hq x List.mem_cons_self)) (hu.step x hf.1) hf.2
      (fun y hy => hq y (List.mem_cons_of_mem _ hy))

/-! ## Writing -/

/-- The writer of `A` is writing `d`, or has written it and not yet announced, or is done. -/
def Writing (w : SW) (A : Nat) (d : Bytes) : Prop :=
  ∀ r, w.wr A = some r → pcData r.pc = some d ∨ (r.pc = .notify ∧ w.objs.find r.id = some d) ∨ r.pc = .idle

theorem Writing.congr {w w' : SW} {A : Nat} {d : Bytes} (h : Writing w A d) (h1 : w'.wr A = w.wr A)
    (h2 : ∀ r, w.wr A = some r → ∀ c, w.objs.find r.id = some c → w'.objs.find r.id = some c) :
    Writing w' A d := by
  intro r hr
  rw [h1] at hr
  rcases h r hr with h | ⟨h3, h4⟩ | h
  · exact Or.inl h
  · exact Or.inr (Or.inl ⟨h3, h2 r hr _ h4⟩)
  · exact Or.inr (Or.inr h)

theorem Writing.beginOther {w : SW} {A : Nat} {d : Bytes} (h : Writing w A d) (p : Nat) (c : Bytes)
    (new : Nat) (ok : Bool) (hf : w.objs.find new = none) (hp : p ≠ A) :
    Writing (ShmReg.beginWrite w p c new ok) A d := by
  unfold ShmReg.beginWrite
  cases hr : w.wr p with
  | none => exact h
  | some r =>
    simp only
    split
    · split
      · exact h.congr (upd_ne _ _ _ _ (Ne.symm hp)) (fun r _ c hc => create_find w new r.id c hf hc)
      · exact h
    · exact h.congr (upd_ne _ _ _ _ (Ne.symm hp)) (fun r _ c hc => hc)

theorem Writing.listOther {w : SW} {A : Nat} {d : Bytes} (h : Writing w A d) (p : Nat) (l : List RegSample)
    (new : Nat) (ok : Bool) (hf : w.objs.find new = none) (hp : p ≠ A) :
    Writing (ShmReg.sendList w p l new ok) A d := by
  unfold ShmReg.sendList
  simp only
  split
  · exact h.congr rfl (fun _ _ _ hc => hc)
  · exact Writing.beginOther (w := { w with written := w.written ++ [(p, l)] })
      (h.congr rfl (fun _ _ _ hc => hc)) p _ new ok hf hp

theorem Writing.step {P : Nat → Proc} {w : SW} {A : Nat} {d : Bytes} (h : Writing w A d) (hu : UInv w)
    (x : SIn) (hf : FreshStep w x) (hx : WriteOn A x) : Writing (step P w x) A d := by
  have triv : ∀ w' : SW, w'.wr A = w.wr A → w'.objs = w.objs → Writing w' A d :=
    fun w' h1 h2 => h.congr h1 (fun r _ c hc => by rw [h2]; exact hc)
  cases x with
  | act y => simp only [ShmReg.step]; split <;> exact triv _ rfl rfl
  | bind p id' now ok evOk =>
    simp only [ShmReg.step]
    split
    · by_cases hp : A = p
      · subst hp
        intro r hr
        simp only [upd_self] at hr
        cases hr
        exact Or.inr (Or.inr rfl)
      · exact h.congr (upd_ne _ _ _ _ hp) (fun r _ c hc => create_find w id' r.id c hf hc)
    · exact h
  | unbind p now evOk =>
    simp only [ShmReg.step]
    cases hr : w.wr p with
    | none => exact h
    | some r =>
      simp only
      split
      · by_cases hp : A = p
        · subst hp
          intro r hr
          simp only [upd_self] at hr
          cases hr
        · exact triv _ (upd_ne _ _ _ _ hp) rfl
      · exact h
  | write1 p a b n ok =>
    simp only [ShmReg.step]
    split
    · refine Writing.listOther ?_ p _ n ok hf hx
      exact h.congr rfl (fun _ _ _ hc => hc)
    · exact h
  | write2 p n ok =>
    simp only [ShmReg.step]
    split
    · refine Writing.listOther ?_ p _ n ok hf hx
      exact h.congr rfl (fun _ _ _ hc => hc)
    · exact h
  | wnext p now ok =>
    by_cases hp : A = p
    · subst hp
      have hok : ok = true := hx rfl
      subst hok
      simp only [ShmReg.step, contWrite]
      cases hr : w.wr A with
      | none => exact h
      | some r =>
        have h0 := h r hr
        simp only
        cases hpc : r.pc with
        | idle => exact h
        | notify =>
          intro r' hr'
          simp only [upd_self] at hr'
          cases hr'
          exact Or.inr (Or.inr rfl)
        | access c =>
          simp only [hpc, pcData, reduceCtorEq, false_and, or_false, Option.some.injEq] at h0
          subst h0
          simp only [if_true]
          intro r' hr'
          simp only [upd_self] at hr'
          cases hr'
          exact Or.inr (Or.inl ⟨rfl, by simp⟩)
        | gone c n =>
          simp only [hpc, pcData, reduceCtorEq, false_and, or_false, Option.some.injEq] at h0
          subst h0
          intro r' hr'
          simp only [upd_self] at hr'
          cases hr'
          exact Or.inl rfl
        | destroy c n =>
          simp only [hpc, pcData, reduceCtorEq, false_and, or_false, Option.some.injEq] at h0
          subst h0
          intro r' hr'
          simp only [upd_self] at hr'
          cases hr'
          exact Or.inl rfl
        | created c =>
          simp only [hpc, pcData, reduceCtorEq, false_and, or_false, Option.some.injEq] at h0
          subst h0
          intro r' hr'
          simp only [upd_self] at hr'
          cases hr'
          exact Or.inl rfl
    · simp only [ShmReg.step, contWrite]
      cases hr : w.wr p with
      | none => exact h
      | some r =>
        simp only
        cases hpc : r.pc with
        | idle => exact h
        | access c =>
          simp only
          split
          · refine h.congr (upd_ne _ _ _ _ hp) ?_
            intro r0 hr0 c0 hc0
            simp only [AMap.find_set]
            rw [if_neg]
            · exact hc0
            · intro e
              have := hu.dj p A r r0 hr hr0 (Ne.symm hp) r.id (id_own r)
              rw [e] at this
              exact this (id_own r0)
          · exact triv _ (upd_ne _ _ _ _ hp) rfl
        | _ => exact triv _ (upd_ne _ _ _ _ hp) rfl
  | crash => exact triv _ rfl rfl
  | attach q => exact triv _ rfl rfl
  | pollBegin q now ok => simp only [ShmReg.step]; split <;> exact triv _ rfl rfl
  | pollNext q a b => simp only [ShmReg.step]; split <;> exact triv _ rfl rfl
  | pollEnd q => simp only [ShmReg.step]; split <;> exact triv _ rfl rfl
  | apply q now => simp only [ShmReg.step]; split <;> exact triv _ rfl rfl

theorem Writing.run {P : Nat → Proc} {A : Nat} {d : Bytes} (h : List SIn) {w : SW} (hh : Writing w A d)
    (hu : UInv w) (hf : FreshIds P w h) (hq : ∀ x ∈ h, WriteOn A x) : Writing (run P w h) A d := by
  induction h generalizing w with
  | nil => exact hh
  | cons x h ih =>
    exact ih (hh.step hu x hf.1 (hq x List.mem_cons_self)) (hu.step x hf.1) hf.2
      (fun y hy => hq y (List.mem_cons_of_mem _ hy))

/-- A list handed to the sender is being written. -/
theorem hand_writing {P : Nat → Proc} {w : SW} {A : Nat} {l : List RegSample} (x : SIn)
    (hx : (∃ f b n, x = .write1 A f b n true) ∨ (∃ n, x = .write2 A n true))
    (hw : (step P w x).written = w.written ++ [(A, l)]) (hl : l ≠ []) :
    Writing (step P w x) A (Wire.serializeRegList l) := by
  have key : ∀ (w' : SW) n, idle w' A = true → Writing (sendList w' A l n true) A (Wire.serializeRegList l) := by
    intro w' n _
    unfold sendList
    simp only [if_neg hl]
    unfold beginWrite
    cases hr : w'.wr A with
    | none => intro r hr'; simp only at hr'; rw [hr] at hr'; cases hr'
    | some r =>
      simp only [if_true]
      split
      · intro r' hr'
        simp only [upd_self] at hr'
        cases hr'
        exact Or.inl rfl
      · intro r' hr'
        simp only [upd_self] at hr'
        cases hr'
        exact Or.inl rfl
  have wr0 : ∀ (w' : SW) (l' : List RegSample) n, (sendList w' A l' n true).written = w'.written ++ [(A, l')] := by
    intro w' l' n
    unfold sendList
    simp only
    split
    · rfl
    · unfold beginWrite
      repeat' split
      all_goals first | rfl | exact createFile_written _ _
  rcases hx with ⟨f, b, n, rfl⟩ | ⟨n, rfl⟩
  · simp only [ShmReg.step] at hw ⊢
    split at hw
    · rename_i hc
      rw [if_pos hc]
      rw [wr0] at hw
      have := List.append_cancel_left hw
      simp only [List.cons.injEq, Prod.mk.injEq, true_and, and_true] at this
      rw [this]
      refine key _ n ?_
      simp only [canSend, Bool.and_eq_true] at hc
      exact hc.1.2
    · have := congrArg List.length hw
      simp at this
  · simp only [ShmReg.step] at hw ⊢
    split at hw
    · rename_i hc
      rw [if_pos hc]
      rw [wr0] at hw
      have := List.append_cancel_left hw
      simp only [List.cons.injEq, Prod.mk.injEq, true_and, and_true] at this
      rw [this]
      refine key _ n ?_
      simp only [canFlush, Bool.and_eq_true] at hc
      exact hc.1.2
    · have := congrArg List.length hw
      simp at this

/-! ## Announcing -/

/-- The events of a step come from its writer. -/
theorem ops1_ids {w : SW} {A id : Nat} {d : Bytes} (hh : Holds w A id d) (hu : UInv w) (x : SIn)
    (hf : FreshStep w x) (hq : QuietStep A x) :
    ∀ o ∈ ops1 w x, ∀ p ts i ty, o = .send p ts i ty → i ≠ id := by
  obtain ⟨⟨r0, hr0, hid⟩, ho⟩ := hh
  have key : ∀ p r, w.wr p = some r → p ≠ A → r.id ≠ id := by
    intro p r hr hp e
    have := hu.dj p A r r0 hr hr0 hp r.id (id_own r)
    rw [e, ← hid] at this
    exact this (id_own r0)
  intro o ho' p ts i ty e
  subst e
  cases x with
  | bind p' id' now ok evOk =>
    have hf : w.objs.find id' = none := hf
    simp only [ops1] at ho'
    split at ho'
    · rw [List.mem_singleton] at ho'
      cases ho'
      intro e
      subst e
      rw [hf] at ho; cases ho
    · cases ho'
  | unbind p' now evOk =>
    simp only [ops1] at ho'
    cases hr : w.wr p' with
    | none => rw [hr] at ho'; cases ho'
    | some r =>
      rw [hr] at ho'
      simp only at ho'
      split at ho'
      · rw [List.mem_singleton] at ho'
        cases ho'
        exact key _ r hr hq
      · cases ho'
  | wnext p' now ok =>
    simp only [ops1] at ho'
    cases hr : w.wr p' with
    | none => rw [hr] at ho'; cases ho'
    | some r =>
      rw [hr] at ho'
      simp only at ho'
      split at ho'
      · split at ho'
        · rw [List.mem_singleton] at ho'; cases ho'; exact key _ r hr hq
        · cases ho'
      · split at ho'
        · rw [List.mem_singleton] at ho'; cases ho'; exact key _ r hr hq
        · cases ho'
      · split at ho'
        · rw [List.mem_singleton] at ho'; cases ho'; exact key _ r hr hq
        · cases ho'
      · cases ho'
  | crash => simp only [ops1, List.mem_singleton] at ho'; cases ho'
  | attach q => simp only [ops1, List.mem_singleton] at ho'; cases ho'
  | pollBegin q now ok =>
    simp only [ops1] at ho'
    split at ho'
    · rw [List.mem_singleton] at ho'; cases ho'
    · cases ho'
  | _ => cases ho'

/-- The number of calls in a step is at most one; seen from `q` without a poll of `q`, only events are
added. -/
theorem pend_grows {q id : Nat} (l : List Bcast.Op) (pd : List Event)
    (hq : ∀ o ∈ l, o ≠ .crash ∧ o ≠ .flushLocal q ∧ (∀ now t lb, o ≠ .poll q now t lb) ∧ (∀ now, o ≠ .flushGlobal now))
    (hid : ∀ o ∈ l, ∀ p ts i ty, o = .send p ts i ty → i ≠ id) :
    ∃ post, pendOf q pd l = pd ++ post ∧ ∀ e ∈ post, e.id ≠ id := by
  induction l generalizing pd with
  | nil => exact ⟨[], by simp [pendOf], by simp⟩
  | cons o l ih =>
    have hq' := fun o ho => hq o (List.mem_cons_of_mem _ ho)
    have hid' := fun o ho => hid o (List.mem_cons_of_mem _ ho)
    obtain ⟨a1, a2, a3, a4⟩ := hq o List.mem_cons_self
    cases o with
    | send p ts i ty =>
      obtain ⟨post, h1, h2⟩ := ih (pd ++ [⟨p, ts, i, ty⟩]) hq' hid'
      refine ⟨⟨p, ts, i, ty⟩ :: post, by simp [pendOf, h1], ?_⟩
      intro e he
      rcases List.mem_cons.1 he with rfl | he
      · exact hid _ List.mem_cons_self p ts i ty rfl
      · exact h2 e he
    | poll p now t lb =>
      have : p ≠ q := fun e => a3 now t lb (by rw [e])
      obtain ⟨post, h1, h2⟩ := ih pd hq' hid'
      exact ⟨post, by simp [pendOf, this, h1], h2⟩
    | flushLocal p =>
      have : p ≠ q := fun e => a2 (by rw [e])
      obtain ⟨post, h1, h2⟩ := ih pd hq' hid'
      exact ⟨post, by simp [pendOf, this, h1], h2⟩
    | flushGlobal now => exact absurd rfl (a4 now)
    | crash => exact absurd rfl a1

theorem ops1_nopoll {w : SW} {q : Nat} (x : SIn) (hx : NoPoll q x) :
    ∀ o ∈ ops1 w x, o ≠ .crash ∧ o ≠ .flushLocal q ∧ (∀ now t lb, o ≠ .poll q now t lb) ∧
      (∀ now, o ≠ .flushGlobal now) := by
  intro o ho
  cases x with
  | bind p' id' now ok evOk =>
    simp only [ops1] at ho
    split at ho
    · rw [List.mem_singleton] at ho; subst ho; simp
    · cases ho
  | unbind p' now evOk =>
    simp only [ops1] at ho
    split at ho
    · split at ho
      · rw [List.mem_singleton] at ho; subst ho; simp
      · cases ho
    · cases ho
  | wnext p' now ok =>
    simp only [ops1] at ho
    split at ho
    · split at ho
      · split at ho
        · rw [List.mem_singleton] at ho; subst ho; simp
        · cases ho
      · split at ho
        · rw [List.mem_singleton] at ho; subst ho; simp
        · cases ho
      · split at ho
        · rw [List.mem_singleton] at ho; subst ho; simp
        · cases ho
      · cases ho
    · cases ho
  | crash => exact absurd hx id
  | attach p =>
    have hx : p ≠ q := hx
    simp only [ops1, List.mem_singleton] at ho; subst ho; simp [hx]
  | pollBegin p now ok =>
    have hx : p ≠ q := hx
    simp only [ops1] at ho
    split at ho
    · rw [List.mem_singleton] at ho; subst ho; simp [hx]
    · cases ho
  | _ => cases ho

theorem pend_run {P : Nat → Proc} {A id q : Nat} {d : Bytes} (h : List SIn) {w : SW} (hh : Holds w A id d)
    (hu : UInv w) (hf : FreshIds P w h) (hq : ∀ x ∈ h, QuietStep A x) (hn : ∀ x ∈ h, NoPoll q x)
    (pd : List Event) :
    ∃ post, pendOf q pd (ops P w h) = pd ++ post ∧ ∀ e ∈ post, e.id ≠ id := by
  induction h generalizing w pd with
  | nil => exact ⟨[], by simp [ops, pendOf], by simp⟩
  | cons x h ih =>
    have hx := hq x List.mem_cons_self
    obtain ⟨p1, e1, h1⟩ := pend_grows (q := q) (id := id) (ops1 w x) pd
      (ops1_nopoll x (hn x List.mem_cons_self)) (ops1_ids hh hu x hf.1 hx)
    obtain ⟨p2, e2, h2⟩ := ih (hh.step hu x hf.1 hx) (hu.step x hf.1) hf.2
      (fun y hy => hq y (List.mem_cons_of_mem _ hy)) (fun y hy => hn y (List.mem_cons_of_mem _ hy)) (pd ++ p1)
    refine ⟨p1 ++ p2, by rw [ops, pendOf_append, e1, e2, List.append_assoc], ?_⟩
    intro e he
    rcases List.mem_append.1 he with he | he
    · exact h1 e he
    · exact h2 e he

/-! ## Announced files are there -/

theorem firstPerId_mono (l : List Event) (s s' : List Nat) (hs : ∀ x ∈ s', x ∈ s) :
    ∀ e ∈ firstPerId s l, e ∈ firstPerId s' l := by
  induction l generalizing s s' with
  | nil => intro e he; cases he
  | cons a l ih =>
    intro e he
    simp only [firstPerId] at he ⊢
    by_cases h1 : a.id ∈ s
    · rw [if_pos h1] at he
      by_cases h2 : a.id ∈ s'
      · rw [if_pos h2]; exact ih s s' hs e he
      · rw [if_neg h2]
        refine List.mem_cons_of_mem _ (ih s (a.id :: s') ?_ e he)
        intro x hx
        rcases List.mem_cons.1 hx with rfl | hx
        · exact h1
        · exact hs x hx
    · have h2 : a.id ∉ s' := fun hx => h1 (hs _ hx)
      rw [if_neg h1] at he
      rw [if_neg h2]
      rcases List.mem_cons.1 he with rfl | he
      · exact List.mem_cons_self
      · refine List.mem_cons_of_mem _ (ih (a.id :: s) (a.id :: s') ?_ e he)
        intro x hx
        rcases List.mem_cons.1 hx with rfl | hx
        · exact List.mem_cons_self
        · exact List.mem_cons_of_mem _ (hs x hx)

theorem firstPerId_not_seen (l : List Event) (s : List Nat) : ∀ e ∈ firstPerId s l, e.id ∉ s := by
  induction l generalizing s with
  | nil => intro e he; cases he
  | cons a l ih =>
    intro e he
    simp only [firstPerId] at he
    by_cases h1 : a.id ∈ s
    · rw [if_pos h1] at he; exact ih s e he
    · rw [if_neg h1] at he
      rcases List.mem_cons.1 he with rfl | he
      · exact h1
      · exact fun hx => ih _ e he (List.mem_cons_of_mem _ hx)

theorem firstPerId_snoc (pd : List Event) (a : Event) :
    ∀ e ∈ firstPerId [] (pd ++ [a]).reverse, e = a ∨ (e ∈ firstPerId [] pd.reverse ∧ e.id ≠ a.id) := by
  intro e he
  rw [List.reverse_append] at he
  simp only [List.reverse_cons, List.reverse_nil, List.nil_append, List.cons_append, firstPerId,
    List.not_mem_nil, if_false] at he
  rcases List.mem_cons.1 he with rfl | he
  · exact Or.inl rfl
  · refine Or.inr ⟨firstPerId_mono _ _ _ (by simp) e he, ?_⟩
    have := firstPerId_not_seen _ _ e he
    simpa using this

/-- Newest events that do not announce a removal belong to existing files. -/
structure LInv (w : SW) (pd : List Event) : Prop where
  l : ∀ e ∈ firstPerId [] pd.reverse, e.type ≠ .removed → e.id ∈ w.linked
  r : ∀ p r d n, w.wr p = some r → r.pc = .destroy d n →
    ∀ e ∈ firstPerId [] pd.reverse, e.id = r.id → e.type = .removed

theorem LInv.nil (w : SW) : LInv w [] := ⟨by simp [firstPerId], by simp [firstPerId]⟩

/-- No event, and no file is removed. -/
theorem LInv.quiet {w w' : SW} {pd : List Event} (h : LInv w pd) (h1 : ∀ x ∈ w.linked, x ∈ w'.linked)
    (h2 : ∀ p r d n, w'.wr p = some r → r.pc = .destroy d n → w.wr p = some r) : LInv w' pd :=
  ⟨fun e he ht => h1 _ (h.l e he ht), fun p r d n hr hp => h.r p r d n (h2 p r d n hr hp) hp⟩

/-- An event about an existing file. -/
theorem LInv.event {w w' : SW} {pd : List Event} (h : LInv w pd) (a : Event)
    (h1 : ∀ x ∈ w.linked, x ≠ a.id → x ∈ w'.linked) (ha : a.type ≠ .removed → a.id ∈ w'.linked)
    (h2 : ∀ p r d n, w'.wr p = some r → r.pc = .destroy d n →
      (a.id = r.id → a.type = .removed) ∧ (w.wr p = some r ∨ a.id = r.id)) : LInv w' (pd ++ [a]) := by
  constructor
  · intro e he ht
    rcases firstPerId_snoc pd a e he with rfl | ⟨he, hne⟩
    · exact ha ht
    · exact h1 _ (h.l e he ht) hne
  · intro p r d n hr hp e he hid
    rcases firstPerId_snoc pd a e he with rfl | ⟨he, hne⟩
    · exact (h2 p r d n hr hp).1 hid
    · rcases (h2 p r d n hr hp).2 with h3 | h3
      · exact h.r p r d n h3 hp e he hid
      · exact absurd (hid.trans h3.symm) hne

theorem create_linked (w : SW) (id : Nat) : ∀ x ∈ w.linked, x ∈ (createFile w id).linked := by
  intro x hx
  unfold createFile
  split
  · exact hx
  · exact List.mem_cons_of_mem _ hx

theorem create_self (w : SW) (id : Nat) : id ∈ (createFile w id).linked := by
  unfold createFile
  split
  · assumption
  · exact List.mem_cons_self

theorem LInv.sendList {w : SW} {pd : List Event} (h : LInv w pd) (p : Nat) (l : List RegSample) (new : Nat)
    (ok : Bool) : LInv (sendList w p l new ok) pd := by
  unfold ShmReg.sendList
  simp only
  split
  · exact h.quiet (fun _ hx => hx) (fun _ _ _ _ hr _ => hr)
  · unfold ShmReg.beginWrite
    have hset : ∀ (w' : SW) (r0 : Wr) (pc : Pc), w'.wr = upd w.wr p (some { r0 with pc := pc }) →
        (∀ d n, pc ≠ .destroy d n) → ∀ p' r d n, w'.wr p' = some r → r.pc = .destroy d n → w.wr p' = some r := by
      intro w' r0 pc h1 h2 p' r d n hr hp
      rw [h1] at hr
      by_cases hq : p' = p
      · subst hq
        rw [upd_self] at hr
        cases hr
        exact absurd hp (h2 d n)
      · rw [upd_ne _ _ _ _ hq] at hr; exact hr
    split
    · exact h.quiet (fun _ hx => hx) (fun _ _ _ _ hr _ => hr)
    · split
      · split
        · refine h.quiet ?_ (hset _ _ _ rfl (by intro d n; simp))
          exact create_linked { w with written := w.written ++ [(p, l)] } new
        · exact h.quiet (fun _ hx => hx) (fun _ _ _ _ hr _ => hr)
      · exact h.quiet (fun _ hx => hx) (hset _ _ _ rfl (by intro d n; simp))

theorem LInv.step {P : Nat → Proc} {w : SW} {pd : List Event} (h : LInv w pd) (hu : UInv w) (q : Nat) (x : SIn)
    (hf : FreshStep w x) (hr : RemStep w x) : LInv (step P w x) (pendOf q pd (ops1 w x)) := by
  have same : ∀ w' : SW, w'.linked = w.linked → w'.wr = w.wr → LInv w' pd := by
    intro w' h1 h2
    exact h.quiet (by rw [h1]; exact fun _ hx => hx) (by rw [h2]; exact fun _ _ _ _ hr _ => hr)
  have gone : ∀ w' : SW, LInv w' (pendOf q [] []) := fun w' => LInv.nil w'
  cases x with
  | act y => simp only [ShmReg.step]; split <;> exact same _ rfl rfl
  | bind p id now ok evOk =>
    have hf : w.objs.find id = none := hf
    have hfr : ∀ p' r, w.wr p' = some r → id ∉ own r := by
      intro p' r hr hx
      have := (hu.ex p' r hr id hx).1
      rw [hf] at this; cases this
    have hset : ∀ p' r d n, upd w.wr p (some { id := id, cap := 1024 : Wr }) p' = some r →
        r.pc = .destroy d n → w.wr p' = some r := by
      intro p' r d n hr hp
      by_cases hq : p' = p
      · subst hq; rw [upd_self] at hr; cases hr; cases hp
      · rw [upd_ne _ _ _ _ hq] at hr; exact hr
    simp only [ShmReg.step, ops1]
    by_cases hc : w.wr p = none ∧ ok = true
    · rw [if_pos hc]
      cases evOk with
      | true =>
        rw [if_pos ⟨hc.1, hc.2, rfl⟩]
        refine h.event ⟨p, now, id, .created⟩ ?_ ?_ ?_
        · intro x hx _; exact create_linked w id x hx
        · intro _; exact create_self w id
        · intro p' r d n hr' hp
          have hr' := hset p' r d n hr' hp
          refine ⟨fun e => ?_, Or.inl hr'⟩
          have e : id = r.id := e
          exact absurd (by rw [e]; exact id_own r) (hfr p' r hr')
      | false =>
        rw [if_neg (by simp)]
        exact h.quiet (create_linked w id) hset
    · rw [if_neg hc, if_neg (fun hx => hc ⟨hx.1, hx.2.1⟩)]
      exact h
  | unbind p now evOk =>
    have hr : evOk = true := hr
    subst hr
    simp only [ShmReg.step, ops1]
    cases hw : w.wr p with
    | none => exact h
    | some r =>
      simp only
      by_cases hp : r.pc = .idle
      · rw [if_pos hp, if_pos (by simp [hp])]
        refine h.event ⟨p, now, r.id, .removed⟩ ?_ (fun hx => absurd rfl hx) ?_
        · intro x hx hne
          exact List.mem_filter.2 ⟨hx, by simpa using hne⟩
        · intro p' r' d n hr' hp'
          refine ⟨fun _ => rfl, Or.inl ?_⟩
          by_cases hq : p' = p
          · subst hq; simp only [upd_self] at hr'; cases hr'
          · simp only [upd_ne _ _ _ _ hq] at hr'; exact hr'
      · rw [if_neg hp, if_neg (fun hx => hp hx.1)]
        exact h
  | write1 p a b n ok =>
    simp only [ShmReg.step]
    split
    · refine LInv.sendList ?_ p _ n ok
      exact same _ rfl rfl
    · exact h
  | write2 p n ok =>
    simp only [ShmReg.step]
    split
    · refine LInv.sendList ?_ p _ n ok
      exact same _ rfl rfl
    · exact h
  | wnext p now ok =>
    simp only [ShmReg.step, contWrite, ops1]
    cases hw : w.wr p with
    | none => exact h
    | some r =>
      have hset : ∀ r0 : Wr, (∀ d n, r0.pc ≠ .destroy d n) → ∀ p' r' d n, upd w.wr p (some r0) p' = some r' →
          r'.pc = .destroy d n → w.wr p' = some r' ∧ p' ≠ p := by
        intro r0 h2 p' r' d n hr' hp
        by_cases hq : p' = p
        · subst hq; rw [upd_self] at hr'; cases hr'; exact absurd hp (h2 d n)
        · rw [upd_ne _ _ _ _ hq] at hr'; exact ⟨hr', hq⟩
      have hne : ∀ p' r', w.wr p' = some r' → p' ≠ p → r.id ≠ r'.id := by
        intro p' r' hr' hq e
        exact hu.dj p p' r r' hw hr' (Ne.symm hq) r.id (id_own r) (e ▸ id_own r')
      have hlk := (hu.ex p r hw r.id (id_own r)).2
      simp only
      cases hp : r.pc with
      | idle => exact h
      | gone d n =>
        have hok : ok = true := hr (by rw [hw]; simp [leaving, hp])
        subst hok
        refine h.event ⟨p, now, r.id, .removed⟩ (fun x hx _ => hx) (fun hx => absurd rfl hx) ?_
        intro p' r' d' n' hr' hp'
        refine ⟨fun _ => rfl, ?_⟩
        by_cases hq : p' = p
        · subst hq; simp only [upd_self] at hr'; cases hr'; exact Or.inr rfl
        · simp only [upd_ne _ _ _ _ hq] at hr'; exact Or.inl hr'
      | destroy d n =>
        constructor
        · intro e he ht
          refine List.mem_filter.2 ⟨h.l e he ht, ?_⟩
          simp only [decide_eq_true_eq]
          intro e1
          exact ht (h.r p r d n hw hp e he e1)
        · intro p' r' d' n' hr' hp'
          have := hset { r with id := n, cap := d.length * 2, pc := .created d } (by intro d n; simp)
            p' r' d' n' hr' hp'
          exact h.r p' r' d' n' this.1 hp'
      | created d =>
        simp only
        cases ok with
        | true =>
          refine h.event ⟨p, now, r.id, .created⟩ (fun x hx _ => hx) (fun _ => hlk) ?_
          intro p' r' d' n' hr' hp'
          have := hset { r with reset := false, pc := .access d } (by intro d n; simp) p' r' d' n' hr' hp'
          exact ⟨fun e => absurd e (hne p' r' this.1 this.2), Or.inl this.1⟩
        | false =>
          exact h.quiet (fun _ hx => hx) (fun p' r' d' n' hr' hp' =>
            (hset { r with reset := false, pc := .access d } (by intro d n; simp) p' r' d' n' hr' hp').1)
      | access d =>
        simp only
        split
        · exact h.quiet (fun _ hx => hx) (fun p' r' d' n' hr' hp' =>
            (hset { r with pc := .notify } (by intro d n; simp) p' r' d' n' hr' hp').1)
        · exact h.quiet (fun _ hx => hx) (fun p' r' d' n' hr' hp' =>
            (hset { r with reset := true, pc := .idle } (by intro d n; simp) p' r' d' n' hr' hp').1)
      | notify =>
        simp only
        cases ok with
        | true =>
          refine h.event ⟨p, now, r.id, .updated⟩ (fun x hx _ => hx) (fun _ => hlk) ?_
          intro p' r' d' n' hr' hp'
          have := hset { r with pc := .idle } (by intro d n; simp) p' r' d' n' hr' hp'
          exact ⟨fun e => absurd e (hne p' r' this.1 this.2), Or.inl this.1⟩
        | false =>
          exact h.quiet (fun _ hx => hx) (fun p' r' d' n' hr' hp' =>
            (hset { r with pc := .idle } (by intro d n; simp) p' r' d' n' hr' hp').1)
  | crash => exact LInv.nil _
  | attach q' =>
    simp only [ops1, pendOf]
    split
    · exact LInv.nil _
    · exact same _ rfl rfl
  | pollBegin q' now ok =>
    simp only [ShmReg.step, ops1]
    by_cases hc : (w.rd q').work.isNone ∧ (w.rd q').inbox = []
    · rw [if_pos hc]
      cases ok with
      | true =>
        have e : (if (w.rd q').work.isNone = true ∧ (w.rd q').inbox = [] ∧ true = true
          then [Bcast.Op.poll q' now 0 true] else []) = [.poll q' now 0 true] := if_pos ⟨hc.1, hc.2, rfl⟩
        rw [e]
        by_cases hq : q' = q
        · simp only [pendOf, if_pos hq]
          exact LInv.nil _
        · simp only [pendOf, if_neg hq]
          exact same _ rfl rfl
      | false =>
        have e : (if (w.rd q').work.isNone = true ∧ (w.rd q').inbox = [] ∧ false = true
          then [Bcast.Op.poll q' now 0 true] else []) = [] := if_neg (by simp)
        rw [e]
        exact same _ rfl rfl
    · rw [if_neg hc, if_neg (fun hx => hc ⟨hx.1, hx.2.1⟩)]
      exact h
  | pollNext q' a b => simp only [ShmReg.step]; split <;> exact same _ rfl rfl
  | pollEnd q' => simp only [ShmReg.step]; split <;> exact same _ rfl rfl
  | apply q' now => simp only [ShmReg.step]; split <;> exact same _ rfl rfl

theorem LInv.run {P : Nat → Proc} (h : List SIn) {w : SW} {pd : List Event} (hl : LInv w pd) (hu : UInv w)
    (q : Nat) (hf : FreshIds P w h) (hr : RemAnnounced P w h) :
    LInv (run P w h) (pendOf q pd (ops P w h)) := by
  induction h generalizing w pd with
  | nil => exact hl
  | cons x h ih =>
    rw [ops, pendOf_append]
    exact ih (hl.step hu q x hf.1 hr.1) (hu.step x hf.1) hf.2 hr.2

/-! ## Reading -/

/-- One event, when the file is there and the accesses work. -/
theorem readEv_ok (objs : AMap Nat (List UInt8)) (linked : List Nat) (rd : Reader) (hd : List Nat)
    (msgs : List (List UInt8 × Int)) (ok : Bool) (e : Event) (ho : AllOpen rd) (hn : e.id ∉ hd) (c : List UInt8)
    (hf : e.type ≠ .removed → e.id ∈ linked ∧ objs.find e.id = some c) :
    ∃ rd', readEv objs linked true true (rd, hd, msgs, ok) e =
      (rd', e.id :: hd, msgs ++ (if e.type = .updated then [(c, e.ts)] else []), ok) ∧ AllOpen rd' := by
  have hset : AllOpen { rd with known := (rd.known.set e.id false).set e.id true } := by
    intro id
    simp only [AMap.find_set]
    split
    · simp
    · exact ho id
  unfold readEv
  simp only [if_neg hn]
  cases hk : rd.known.find e.id with
  | none =>
    simp only [Option.isNone_none, Bool.true_and, if_true]
    by_cases hr : e.type = .removed
    · simp only [hr, ne_eq, not_true_eq_false, decide_false, Bool.false_and, Bool.false_eq_true, if_false,
        reduceCtorEq, List.append_nil]
      refine ⟨_, rfl, ?_⟩
      intro id
      simp only [AMap.find_erase]
      split
      · simp
      · simp only [AMap.find_set]
        split
        · rename_i h1 h2; exact absurd h2 h1
        · exact ho id
    · obtain ⟨h1, h2⟩ := hf hr
      simp only [ne_eq, hr, not_false_eq_true, decide_true, h1, Bool.not_true,
        Bool.and_false, Bool.false_eq_true, if_false, if_true]
      cases ht : e.type with
      | removed => exact absurd ht hr
      | updated =>
        simp only [AMap.find_set, if_true, h2]
        exact ⟨_, rfl, hset⟩
      | _ =>
        simp only [reduceCtorEq, if_false, List.append_nil]
        exact ⟨_, rfl, hset⟩
  | some b =>
    have hb : b = true := by
      cases b
      · exact absurd hk (ho e.id)
      · rfl
    subst hb
    simp only [Option.isNone_some, Bool.false_and, Bool.false_eq_true, if_false]
    cases ht : e.type with
    | removed =>
      simp only [reduceCtorEq, if_false, List.append_nil]
      refine ⟨_, rfl, ?_⟩
      intro id
      simp only [AMap.find_erase]
      split
      · simp
      · exact ho id
    | updated =>
      obtain ⟨h1, h2⟩ := hf (by rw [ht]; simp)
      simp only [hk, h2, if_true]
      exact ⟨_, rfl, ho⟩
    | _ =>
      simp only [reduceCtorEq, if_false, List.append_nil]
      exact ⟨_, rfl, ho⟩

/-- A poll on its way. -/
structure PInv (w : SW) (q A id : Nat) (d : Bytes) (L : List Nat) : Prop where
  work : ∃ k, (w.rd q).work = some k ∧ k.ok = true ∧
    (∀ e ∈ firstPerId k.handled k.todo, e.type ≠ .removed → e.id ∈ L) ∧
    ((∃ ts, (d, ts) ∈ k.msgs) ∨ (id ∉ k.handled ∧ ∃ pre ts post,
      k.todo = pre ++ ⟨A, ts, id, .updated⟩ :: post ∧ ∀ e ∈ pre, e.id ≠ id))
  opened : AllOpen (w.rd q).base

theorem PInv.congr {w w' : SW} {q A id : Nat} {d : Bytes} {L : List Nat} (h : PInv w q A id d L)
    (h1 : w'.rd q = w.rd q) : PInv w' q A id d L := ⟨by rw [h1]; exact h.work, by rw [h1]; exact h.opened⟩

theorem beginWrite_rd (w : SW) (p : Nat) (d : Bytes) (n : Nat) (ok : Bool) : (beginWrite w p d n ok).rd = w.rd := by
  unfold beginWrite createFile
  repeat' split
  all_goals rfl

theorem sendList_rd (w : SW) (p : Nat) (l : List RegSample) (n : Nat) (ok : Bool) :
    (sendList w p l n ok).rd = w.rd := by
  unfold sendList
  simp only
  split
  · rfl
  · rw [beginWrite_rd]

theorem contWrite_rd (w : SW) (p : Nat) (now : Int) (ok : Bool) : (contWrite w p now ok).rd = w.rd := by
  unfold contWrite
  repeat' split
  all_goals rfl

theorem PInv.step {P : Nat → Proc} {w : SW} {q A id : Nat} {d : Bytes} {L : List Nat}
    (h : PInv w q A id d L) (hh : Holds w A id d) (hu : UInv w) (hL : ∀ x ∈ L, x ∈ w.linked) (x : SIn)
    (hx : ReadOn q x) : PInv (step P w x) q A id d L := by
  cases x with
  | act y => simp only [ShmReg.step]; split <;> exact h.congr rfl
  | bind p id' now ok evOk =>
    simp only [ShmReg.step, createFile]
    repeat' split
    all_goals exact h.congr rfl
  | unbind p now evOk =>
    simp only [ShmReg.step, destroyFile]
    repeat' split
    all_goals exact h.congr rfl
  | write1 p a b n ok =>
    simp only [ShmReg.step]
    split
    · exact h.congr (by rw [sendList_rd])
    · exact h
  | write2 p n ok =>
    simp only [ShmReg.step]
    split
    · exact h.congr (by rw [sendList_rd])
    · exact h
  | wnext p now ok => exact h.congr (by simp only [ShmReg.step]; rw [contWrite_rd])
  | crash => exact h.congr rfl
  | attach p => exact h.congr (upd_ne _ _ _ _ (Ne.symm hx))
  | pollBegin p now ok =>
    simp only [ShmReg.step]
    split
    · rename_i hc
      refine h.congr (upd_ne _ _ _ _ ?_)
      intro e
      subst e
      obtain ⟨k, hk, _⟩ := h.work
      rw [hk] at hc
      simp at hc
    · exact h
  | pollNext p a b =>
    by_cases hp : p = q
    · subst hp
      obtain ⟨rfl, rfl⟩ := hx rfl
      obtain ⟨k, hk, hok, hfl, hour⟩ := h.work
      obtain ⟨todo, handled, msgs, ok⟩ := k
      simp only at hok hfl hour
      subst hok
      simp only [ShmReg.step, hk]
      cases todo with
      | nil => exact h
      | cons e es =>
        simp only
        by_cases hs : e.id ∈ handled
        · have e1 : readEv w.objs w.linked true true ((w.rd p).base, handled, msgs, true) e =
              ((w.rd p).base, handled, msgs, true) := by simp [readEv, hs]
          rw [e1]
          refine ⟨⟨⟨es, handled, msgs, true⟩, by simp only [upd_self], rfl, ?_, ?_⟩, ?_⟩
          · simpa [firstPerId, hs] using hfl
          · rcases hour with h1 | ⟨h1, pre, ts, post, e2, h2⟩
            · exact Or.inl h1
            · refine Or.inr ⟨h1, ?_⟩
              cases pre with
              | nil =>
                simp only [List.nil_append, List.cons.injEq] at e2
                exact absurd (by rw [e2.1] at hs; exact hs) h1
              | cons a pre =>
                simp only [List.cons_append, List.cons.injEq] at e2
                exact ⟨pre, ts, post, e2.2, fun e he => h2 e (List.mem_cons_of_mem _ he)⟩
          · simp only [upd_self]; exact h.opened
        · simp only [firstPerId, if_neg hs] at hfl
          obtain ⟨c, hc⟩ : ∃ c, e.type ≠ .removed → e.id ∈ w.linked ∧ w.objs.find e.id = some c := by
            by_cases ht : e.type = .removed
            · exact ⟨[], fun hx => absurd ht hx⟩
            · have h1 := hL _ (hfl e List.mem_cons_self ht)
              obtain ⟨c, hc⟩ := Option.isSome_iff_exists.1 (hu.lk _ h1)
              exact ⟨c, fun _ => ⟨h1, hc⟩⟩
          obtain ⟨rd', e1, ho⟩ := readEv_ok w.objs w.linked (w.rd p).base handled msgs true e h.opened hs c hc
          rw [e1]
          refine ⟨⟨⟨es, e.id :: handled, msgs ++ (if e.type = .updated then [(c, e.ts)] else []), true⟩,
            by simp only [upd_self], rfl, ?_, ?_⟩, ?_⟩
          · exact fun x hx => hfl x (List.mem_cons_of_mem _ hx)
          · rcases hour with ⟨ts, h1⟩ | ⟨h1, pre, ts, post, e2, h2⟩
            · exact Or.inl ⟨ts, List.mem_append_left _ h1⟩
            · cases pre with
              | nil =>
                left
                simp only [List.nil_append, List.cons.injEq] at e2
                obtain ⟨rfl, rfl⟩ := e2
                have h3 := (hc (by simp)).2
                rw [hh.obj] at h3
                cases h3
                exact ⟨ts, by simp⟩
              | cons a pre =>
                right
                simp only [List.cons_append, List.cons.injEq] at e2
                obtain ⟨rfl, rfl⟩ := e2
                refine ⟨?_, pre, ts, post, rfl, fun e he => h2 e (List.mem_cons_of_mem _ he)⟩
                intro hx
                rcases List.mem_cons.1 hx with hx | hx
                · exact h2 e List.mem_cons_self hx.symm
                · exact h1 hx
          · simp only [upd_self]; exact ho
    · simp only [ShmReg.step]
      split
      · exact h.congr (upd_ne _ _ _ _ (Ne.symm hp))
      · exact h
  | pollEnd p =>
    simp only [ShmReg.step]
    split
    · exact h.congr (upd_ne _ _ _ _ (Ne.symm hx))
    · exact h
  | apply p now =>
    simp only [ShmReg.step]
    split
    · rename_i m ms hm
      by_cases hp : p = q
      · subst hp
        exact ⟨by simp only [upd_self]; exact h.work, by simp only [upd_self]; exact h.opened⟩
      · exact h.congr (upd_ne _ _ _ _ (Ne.symm hp))
    · exact h

theorem PInv.run {P : Nat → Proc} {q A id : Nat} {d : Bytes} {L : List Nat} (h : List SIn) {w : SW}
    (hp : PInv w q A id d L) (hh : Holds w A id d) (hu : UInv w) (hf : FreshIds P w h)
    (hq : ∀ x ∈ h, QuietStep A x) (hr : ∀ x ∈ h, ReadOn q x)
    (hL : ∀ a b, h = a ++ b → ∀ x ∈ L, x ∈ (run P w a).linked) : PInv (run P w h) q A id d L := by
  induction h generalizing w with
  | nil => exact hp
  | cons x h ih =>
    refine ih (hp.step hh hu (hL [] (x :: h) rfl) x (hr x List.mem_cons_self))
      (hh.step hu x hf.1 (hq x List.mem_cons_self)) (hu.step x hf.1) hf.2
      (fun y hy => hq y (List.mem_cons_of_mem _ hy)) (fun y hy => hr y (List.mem_cons_of_mem _ hy)) ?_
    intro a b e
    exact hL (x :: a) b (by rw [e]; rfl)

/-- A list among the messages read is delivered. -/
theorem shmReceive_mem (wr : List (Nat × List RegSample)) (hf : ∀ x ∈ wr, FitsList x.2) (l : List RegSample)
    (hl : l ≠ []) (hfl : FitsList l) (bs : List Bytes) (acc : List RegSample) (hb : ∀ b ∈ bs, Good wr b)
    (hm : Wire.serializeRegList l ∈ bs) : ∀ m ∈ l, Wire.transmitted m ∈ Wire.shmReceive acc bs := by
  induction bs generalizing acc with
  | nil => cases hm
  | cons b bs ih =>
    have hb' : ∀ b ∈ bs, Good wr b := fun b hx => hb b (List.mem_cons_of_mem _ hx)
    intro m hml
    rcases List.mem_cons.1 hm with e | hm'
    · rw [← e]
      have e1 := Wire.C28_list_roundtrip l acc hl hfl.1 hfl.2
      simp only [Wire.shmReceive, e1]
      exact List.mem_append_left _ (List.mem_append_right _ (List.mem_map_of_mem hml))
    · rcases hb b List.mem_cons_self with rfl | ⟨x, hx, hne, rfl⟩
      · have e : Wire.deserializeRegList acc [] = none := by simp [Wire.deserializeRegList]
        simp only [Wire.shmReceive, e]
        exact ih acc hb' hm' m hml
      · have e := Wire.C28_list_roundtrip x.2 acc hne (hf x hx).1 (hf x hx).2
        simp only [Wire.shmReceive, e]
        exact List.mem_append_right _ (ih _ hb' hm' m hml)

end Ecal.E2E.ShmReg
