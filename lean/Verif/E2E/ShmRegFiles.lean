import Verif.E2E.ShmRegProps

/-! # Payload files belong to one writer, and the channel seen from one process -/

namespace Ecal.E2E.ShmReg

open Ecal.Wire (RegSample RTopic IsMap)
open Ecal.E2E.Disc (Proc PSt World)
open Ecal.Bcast (Event EvType Sys Reader)

/-! ## Specification: ids are fresh, and the calls on the channel -/

/-- A file that is created has an id nobody used before (ids are values of a clock in nanoseconds). -/
def FreshStep (w : SW) : SIn → Prop
  | .bind _ id _ _ _ => w.objs.find id = none
  | .write1 _ _ _ new _ => w.objs.find new = none
  | .write2 _ new _ => w.objs.find new = none
  | _ => True

def FreshIds (P : Nat → Proc) : SW → List SIn → Prop
  | _, [] => True
  | w, x :: h => FreshStep w x ∧ FreshIds P (step P w x) h

/-- The calls on the broadcast channel in a step. -/
def ops1 (w : SW) : SIn → List Bcast.Op
  | .bind p id now ok evOk => if w.wr p = none ∧ ok = true ∧ evOk = true then [.send p now id .created] else []
  | .unbind p now evOk =>
    match w.wr p with
    | some r => if r.pc = .idle ∧ evOk = true then [.send p now r.id .removed] else []
    | none => []
  | .wnext p now ok =>
    match w.wr p with
    | some r =>
      match r.pc with
      | .gone _ _ => if ok = true then [.send p now r.id .removed] else []
      | .created _ => if ok = true then [.send p now r.id .created] else []
      | .notify => if ok = true then [.send p now r.id .updated] else []
      | _ => []
    | none => []
  | .crash => [.crash]
  | .attach q => [.flushLocal q]
  | .pollBegin q now ok =>
    if (w.rd q).work.isNone ∧ (w.rd q).inbox = [] ∧ ok = true then [.poll q now 0 true] else []
  | _ => []

def ops (P : Nat → Proc) : SW → List SIn → List Bcast.Op
  | _, [] => []
  | w, x :: h => ops1 w x ++ ops P (step P w x) h

/-- The events sent since process `p` last looked. -/
def pendOf (p : Nat) : List Event → List Bcast.Op → List Event
  | pd, [] => pd
  | pd, .send q ts id ty :: h => pendOf p (pd ++ [⟨q, ts, id, ty⟩]) h
  | pd, .poll q _ _ _ :: h => if q = p then pendOf p [] h else pendOf p pd h
  | pd, .flushLocal q :: h => if q = p then pendOf p [] h else pendOf p pd h
  | _, .flushGlobal _ :: h => pendOf p [] h
  | _, .crash :: h => pendOf p [] h

theorem pendOf_append (p : Nat) (a b : List Bcast.Op) (pd : List Event) :
    pendOf p pd (a ++ b) = pendOf p (pendOf p pd a) b := by
  induction a generalizing pd with
  | nil => rfl
  | cons x a ih =>
    cases x with
    | send q ts id ty => exact ih _
    | poll q now t lb => simp only [List.cons_append, pendOf]; split <;> exact ih _
    | flushLocal q => simp only [List.cons_append, pendOf]; split <;> exact ih _
    | flushGlobal now => exact ih _
    | crash => exact ih _

theorem ops_append (P : Nat → Proc) (a b : List SIn) (w : SW) :
    ops P w (a ++ b) = ops P w a ++ ops P (run P w a) b := by
  induction a generalizing w with
  | nil => rfl
  | cons x a ih => simp only [List.cons_append, ops, ih, List.append_assoc]; rfl

theorem strict_append {c : Int} {a b : List Bcast.Op} (h : Bcast.StrictClock c (a ++ b)) :
    Bcast.StrictClock c a := by
  induction a generalizing c with
  | nil => trivial
  | cons x a ih =>
    cases x with
    | send q ts id ty => exact ⟨h.1, ih h.2⟩
    | flushGlobal now => exact ⟨h.1, ih h.2⟩
    | poll q now t lb => exact ih h
    | flushLocal q => exact ih h
    | crash => exact ih h

/-! ## The channel -/

/-- The channel after a history of calls, seen from process `p`. -/
theorem chan_inv {s : Sys} {p : Nat} {clk : Int} {b pd : List Event} (h : Bcast.Inv s p clk b pd)
    (hist : List Bcast.Op) (hc : Bcast.StrictClock clk hist) :
    ∃ s' clk' b', Bcast.run s hist = some s' ∧ s'.cap = s.cap ∧
      Bcast.Inv s' p clk' b' (pendOf p pd hist) := by
  induction hist generalizing s clk b pd with
  | nil => exact ⟨s, clk, b, rfl, rfl, h⟩
  | cons op hist ih =>
    cases op with
    | send q ts id ty =>
      obtain ⟨s', h1, hcap, h2⟩ := h.send q ts id ty hc.1
      obtain ⟨s2, c2, b2, h3, hc2, h4⟩ := ih h2 hc.2
      exact ⟨s2, c2, b2, by simp [Bcast.run, Bcast.step, h1, h3], hc2.trans hcap, h4⟩
    | poll q now timeout lb =>
      by_cases hq : q = p
      · subst hq
        obtain ⟨res, s', b', h1, h3⟩ := h.poll_any now timeout lb
        obtain ⟨s2, c2, b2, h4, hc2, h5⟩ := ih h3 hc
        have hcap : s'.cap = s.cap := by
          unfold Bcast.receiveEvents at h1
          split at h1
          · split at h1
            · cases h1
            · cases h1; rfl
          · cases h1; rfl
        exact ⟨s2, c2, b2, by simp [Bcast.run, Bcast.step, h1, h4], hc2.trans hcap,
          by simp only [pendOf, if_pos]; exact h5⟩
      · obtain ⟨res, s', h1, hcap, h3⟩ := h.poll_other q hq now timeout lb
        obtain ⟨s2, c2, b2, h4, hc2, h5⟩ := ih h3 hc
        exact ⟨s2, c2, b2, by simp [Bcast.run, Bcast.step, h1, h4], hc2.trans hcap,
          by simp only [pendOf, if_neg hq]; exact h5⟩
    | flushLocal q =>
      have hcap : (Bcast.flushLocal s q).cap = s.cap := by unfold Bcast.flushLocal; split <;> rfl
      by_cases hq : q = p
      · subst hq
        obtain ⟨b', h3⟩ := h.flushLocal_self
        obtain ⟨s2, c2, b2, h4, hc2, h5⟩ := ih h3 hc
        exact ⟨s2, c2, b2, by simp [Bcast.run, Bcast.step, h4], hc2.trans hcap,
          by simp only [pendOf, if_pos]; exact h5⟩
      · obtain ⟨s2, c2, b2, h4, hc2, h5⟩ := ih (h.flushLocal_other q hq) hc
        exact ⟨s2, c2, b2, by simp [Bcast.run, Bcast.step, h4], hc2.trans hcap,
          by simp only [pendOf, if_neg hq]; exact h5⟩
    | flushGlobal now =>
      obtain ⟨s', h1, hcap, h2⟩ := h.flushGlobal now hc.1
      obtain ⟨s2, c2, b2, h4, hc2, h5⟩ := ih h2 hc.2
      exact ⟨s2, c2, b2, by simp [Bcast.run, Bcast.step, h1, h4], hc2.trans hcap, h5⟩
    | crash =>
      obtain ⟨s2, c2, b2, h4, hc2, h5⟩ := ih h.crash hc
      exact ⟨s2, c2, b2, by simp [Bcast.run, Bcast.step, h4], hc2, h5⟩

/-- The channel in the composition. -/
theorem step_chan (P : Nat → Proc) (w : SW) (x : SIn) (c : Sys)
    (h : Bcast.run w.chan (ops1 w x) = some c) : (step P w x).chan = c := by
  have hsend : ∀ p now id ty, Bcast.run w.chan [.send p now id ty] = some c →
      sendEv w.chan p now id ty true = c := by
    intro p now id ty hh
    simp only [Bcast.run, Bcast.step] at hh
    unfold sendEv
    cases he : Bcast.sendEvent w.chan p now id ty with
    | none => simp [he] at hh
    | some s => simp [he] at hh ⊢; exact hh
  have hnil : Bcast.run w.chan [] = some c → w.chan = c := fun hh => Option.some.inj hh
  have hfile : ∀ (w : SW) id, (createFile w id).chan = w.chan := by
    intro w id; unfold createFile; split <;> rfl
  have hbegin : ∀ (w : SW) p d n ok, (beginWrite w p d n ok).chan = w.chan := by
    intro w p d n ok; unfold beginWrite
    repeat' split
    all_goals first | rfl | exact hfile w n
  have hlist : ∀ (w : SW) p l n ok, (sendList w p l n ok).chan = w.chan := by
    intro w p l n ok; unfold sendList; simp only
    split
    · rfl
    · rw [hbegin]
  cases x with
  | act y =>
    simp only [step]
    split <;> exact hnil h
  | bind p id now ok evOk =>
    simp only [ops1] at h
    simp only [step]
    cases evOk with
    | true =>
      split at h
      · rename_i hc
        rw [if_pos ⟨hc.1, hc.2.1⟩]
        exact hsend _ _ _ _ h
      · rename_i hc
        rw [if_neg (fun hx => hc ⟨hx.1, hx.2, rfl⟩)]
        exact hnil h
    | false =>
      rw [if_neg (by simp)] at h
      split
      · exact hnil h
      · exact hnil h
  | unbind p now evOk =>
    simp only [ops1] at h
    simp only [step]
    cases hr : w.wr p with
    | none => rw [hr] at h; exact hnil h
    | some r =>
      rw [hr] at h
      simp only at h ⊢
      by_cases hp : r.pc = .idle
      · rw [if_pos hp]
        cases evOk with
        | true => rw [if_pos ⟨hp, rfl⟩] at h; exact hsend _ _ _ _ h
        | false => rw [if_neg (by simp)] at h; exact hnil h
      · rw [if_neg hp]
        rw [if_neg (fun hx => hp hx.1)] at h
        exact hnil h
  | write1 p a b n ok =>
    simp only [step]
    split
    · rw [hlist]; exact hnil h
    · exact hnil h
  | write2 p n ok =>
    simp only [step]
    split
    · rw [hlist]; exact hnil h
    · exact hnil h
  | wnext p now ok =>
    simp only [ops1] at h
    simp only [step, contWrite]
    cases hr : w.wr p with
    | none => rw [hr] at h; exact hnil h
    | some r =>
      rw [hr] at h
      simp only at h ⊢
      cases hp : r.pc with
      | idle => rw [hp] at h; exact hnil h
      | gone d n =>
        rw [hp] at h
        simp only at h ⊢
        cases ok with
        | true => exact hsend _ _ _ _ h
        | false => exact hnil h
      | destroy d n => rw [hp] at h; exact hnil h
      | created d =>
        rw [hp] at h
        simp only at h ⊢
        cases ok with
        | true => exact hsend _ _ _ _ h
        | false => exact hnil h
      | access d =>
        rw [hp] at h
        simp only at h ⊢
        split <;> exact hnil h
      | notify =>
        rw [hp] at h
        simp only at h ⊢
        cases ok with
        | true => exact hsend _ _ _ _ h
        | false => exact hnil h
  | crash =>
    simp only [ops1, Bcast.run, Bcast.step, Option.bind_some] at h
    exact Option.some.inj h
  | attach q =>
    simp only [ops1, Bcast.run, Bcast.step, Option.bind_some] at h
    exact Option.some.inj h
  | pollBegin q now ok =>
    simp only [ops1] at h
    simp only [step]
    cases ok with
    | true =>
      split at h
      · rename_i hc
        rw [if_pos ⟨hc.1, hc.2.1⟩]
        simp only [Bcast.run, Bcast.step, if_true] at h ⊢
        cases he : Bcast.receiveEvents w.chan q now 0 true with
        | none => simp [he] at h
        | some r => simp [he] at h ⊢; exact h
      · rename_i hc
        rw [if_neg (fun hx => hc ⟨hx.1, hx.2, rfl⟩)]
        exact hnil h
    | false =>
      rw [if_neg (by simp)] at h
      split <;> exact hnil h
  | pollNext q a b =>
    simp only [step]
    split <;> exact hnil h
  | pollEnd q =>
    simp only [step]
    split <;> exact hnil h
  | apply q now =>
    simp only [step]
    split <;> exact hnil h

theorem bcast_run_append (s : Sys) (a b : List Bcast.Op) :
    Bcast.run s (a ++ b) = (Bcast.run s a).bind (fun s' => Bcast.run s' b) := by
  induction a generalizing s with
  | nil => rfl
  | cons x a ih =>
    simp only [List.cons_append, Bcast.run]
    cases Bcast.step s x with
    | none => rfl
    | some r => exact ih r.1

theorem run_chan (P : Nat → Proc) (h : List SIn) (w : SW) (c : Sys)
    (hr : Bcast.run w.chan (ops P w h) = some c) : (run P w h).chan = c := by
  induction h generalizing w with
  | nil => exact Option.some.inj hr
  | cons x h ih =>
    simp only [ops, bcast_run_append] at hr
    cases h1 : Bcast.run w.chan (ops1 w x) with
    | none => rw [h1] at hr; cases hr
    | some s =>
      rw [h1] at hr
      have e := step_chan P w x s h1
      apply ih (step P w x)
      rw [e]
      exact hr

/-! ## Files and their writers -/

def own (r : Wr) : List Nat :=
  match r.pc with
  | .gone _ n => [r.id, n]
  | .destroy _ n => [r.id, n]
  | _ => [r.id]

theorem id_own (r : Wr) : r.id ∈ own r := by unfold own; split <;> simp

structure UInv (w : SW) : Prop where
  ex : ∀ p r, w.wr p = some r → ∀ x ∈ own r, (w.objs.find x).isSome ∧ x ∈ w.linked
  dj : ∀ p p' r r', w.wr p = some r → w.wr p' = some r' → p ≠ p' → ∀ x ∈ own r, x ∉ own r'
  nd : ∀ p r, w.wr p = some r → (own r).Nodup
  lk : ∀ x ∈ w.linked, (w.objs.find x).isSome

/-- Only files, links and writers matter. -/
theorem UInv.congr {w w' : SW} (h : UInv w) (h1 : w'.objs = w.objs) (h2 : w'.linked = w.linked)
    (h3 : w'.wr = w.wr) : UInv w' := by
  constructor
  · rw [h1, h2, h3]; exact h.ex
  · rw [h3]; exact h.dj
  · rw [h3]; exact h.nd
  · rw [h1, h2]; exact h.lk

/-- A writer takes another set of files, which are all there and belong to no one else. -/
theorem UInv.set {w w' : SW} (h : UInv w) (p : Nat) (o : Option Wr)
    (hw : w'.wr = upd w.wr p o)
    (hobj : ∀ x, (w.objs.find x).isSome → (w'.objs.find x).isSome)
    (hlk' : ∀ x ∈ w'.linked, (w'.objs.find x).isSome)
    (hlink : ∀ q r, q ≠ p → w.wr q = some r → ∀ x ∈ own r, x ∈ w'.linked)
    (hown : ∀ r, o = some r → ∀ x ∈ own r, (w'.objs.find x).isSome ∧ x ∈ w'.linked)
    (hnd : ∀ r, o = some r → (own r).Nodup)
    (hdj : ∀ r, o = some r → ∀ q r', q ≠ p → w.wr q = some r' → ∀ x ∈ own r, x ∉ own r') : UInv w' := by
  constructor
  · intro q r hr x hx
    rw [hw] at hr
    by_cases hq : q = p
    · subst hq; rw [upd_self] at hr; exact hown r hr x hx
    · rw [upd_ne _ _ _ _ hq] at hr
      exact ⟨hobj x (h.ex q r hr x hx).1, hlink q r hq hr x hx⟩
  · intro q q' r r' hr hr' hne x hx
    rw [hw] at hr hr'
    by_cases hq : q = p
    · subst hq
      rw [upd_self] at hr
      rw [upd_ne _ _ _ _ (Ne.symm hne)] at hr'
      exact hdj r hr q' r' (Ne.symm hne) hr' x hx
    · rw [upd_ne _ _ _ _ hq] at hr
      by_cases hq' : q' = p
      · subst hq'
        rw [upd_self] at hr'
        intro hx'
        exact hdj r' hr' q r hne hr x hx' hx
      · rw [upd_ne _ _ _ _ hq'] at hr'
        exact h.dj q q' r r' hr hr' hne x hx
  · intro q r hr
    rw [hw] at hr
    by_cases hq : q = p
    · subst hq; rw [upd_self] at hr; exact hnd r hr
    · rw [upd_ne _ _ _ _ hq] at hr; exact h.nd q r hr
  · exact hlk'

theorem create_fresh (w : SW) (id : Nat) (h : UInv w) (hf : w.objs.find id = none) :
    createFile w id = { w with objs := w.objs.set id [], linked := id :: w.linked } := by
  unfold createFile
  rw [if_neg]
  intro hx
  have := h.lk id hx
  rw [hf] at this
  cases this

theorem UInv.beginWrite {w : SW} (h : UInv w) (p : Nat) (d : Bytes) (new : Nat) (ok : Bool)
    (hid : idle w p = true) (hf : w.objs.find new = none) : UInv (beginWrite w p d new ok) := by
  unfold ShmReg.beginWrite
  cases hr : w.wr p with
  | none => exact h
  | some r =>
    have hpc : r.pc = .idle := by simpa [idle, hr] using hid
    have hown : own r = [r.id] := by unfold own; rw [hpc]
    simp only
    split
    · split
      · rw [create_fresh w new h hf]
        have hnew : ∀ q r', w.wr q = some r' → new ∉ own r' := by
          intro q r' hr' hx
          have := (h.ex q r' hr' new hx).1
          rw [hf] at this; cases this
        refine h.set p (some { r with pc := .gone d new }) rfl ?_ ?_ ?_ ?_ ?_ ?_
        · intro x hx; simp only [AMap.find_set]; split <;> simp [hx]
        · intro x hx
          simp only [AMap.find_set]
          rcases List.mem_cons.1 hx with rfl | hx
          · simp
          · split
            · rfl
            · exact h.lk x hx
        · intro q r' hq hr' x hx
          exact List.mem_cons_of_mem _ (h.ex q r' hr' x hx).2
        · intro r' hr'; cases hr'
          intro x hx
          simp only [own, List.mem_cons, List.not_mem_nil, or_false] at hx
          simp only [AMap.find_set, List.mem_cons]
          rcases hx with rfl | rfl
          · have := h.ex p r hr r.id (id_own r)
            split <;> simp [this]
          · simp
        · intro r' hr'; cases hr'
          simp only [own, List.nodup_cons, List.mem_singleton, List.not_mem_nil, not_false_eq_true,
            List.nodup_nil, and_true]
          intro e
          exact hnew p r hr (e ▸ id_own r)
        · intro r' hr'; cases hr'
          intro q r2 hq hr2 x hx
          simp only [own, List.mem_cons, List.not_mem_nil, or_false] at hx
          rcases hx with rfl | rfl
          · exact h.dj p q r r2 hr hr2 (Ne.symm hq) r.id (id_own r)
          · exact hnew q r2 hr2
      · exact h
    · refine h.set p (some { r with pc := .access d }) rfl (fun x hx => hx) h.lk
        (fun q r' hq hr' x hx => (h.ex q r' hr' x hx).2) ?_ ?_ ?_
      · intro r' hr'; cases hr'
        intro x hx
        simp only [own, List.mem_singleton] at hx
        subst hx
        exact h.ex p r hr r.id (id_own r)
      · intro r' hr'; cases hr'; simp [own]
      · intro r' hr'; cases hr'
        intro q r2 hq hr2 x hx
        simp only [own, List.mem_singleton] at hx
        subst hx
        exact h.dj p q r r2 hr hr2 (Ne.symm hq) r.id (id_own r)

/-- The writer changes without new files. -/
theorem UInv.sub {w w' : SW} (h : UInv w) (p : Nat) (r r' : Wr) (hr : w.wr p = some r)
    (hw : w'.wr = upd w.wr p (some r')) (hobj : ∀ x, (w.objs.find x).isSome → (w'.objs.find x).isSome)
    (hl : w'.linked = w.linked) (hs : (own r').Sublist (own r)) : UInv w' := by
  refine h.set p (some r') hw hobj ?_ ?_ ?_ ?_ ?_
  · intro x hx; rw [hl] at hx; exact hobj x (h.lk x hx)
  · intro q r2 hq hr2 x hx; rw [hl]; exact (h.ex q r2 hr2 x hx).2
  · intro r2 hr2; cases hr2
    intro x hx
    have := h.ex p r hr x (hs.subset hx)
    exact ⟨hobj x this.1, hl ▸ this.2⟩
  · intro r2 hr2; cases hr2; exact (h.nd p r hr).sublist hs
  · intro r2 hr2; cases hr2
    intro q r3 hq hr3 x hx
    exact h.dj p q r r3 hr hr3 (Ne.symm hq) x (hs.subset hx)

theorem UInv.contWrite {w : SW} (h : UInv w) (p : Nat) (now : Int) (ok : Bool) :
    UInv (contWrite w p now ok) := by
  unfold ShmReg.contWrite
  cases hr : w.wr p with
  | none => exact h
  | some r =>
    simp only
    cases hp : r.pc with
    | idle => exact h
    | gone d n =>
      exact h.sub p r { r with pc := .destroy d n } hr rfl (fun x hx => hx) rfl (by simp [own, hp])
    | destroy d n =>
      have ho : own r = [r.id, n] := by simp [own, hp]
      have hnd := h.nd p r hr
      rw [ho] at hnd
      have hne : n ≠ r.id := by
        intro e; subst e; simp at hnd
      refine h.set p (some { r with id := n, cap := d.length * 2, pc := .created d }) rfl (fun x hx => hx)
        ?_ ?_ ?_ ?_ ?_
      · intro x hx
        exact h.lk x (List.mem_filter.1 hx).1
      · intro q r2 hq hr2 x hx
        refine List.mem_filter.2 ⟨(h.ex q r2 hr2 x hx).2, ?_⟩
        simp only [decide_eq_true_eq]
        intro e
        subst e
        exact h.dj p q r r2 hr hr2 (Ne.symm hq) _ (id_own r) hx
      · intro r2 hr2; cases hr2
        intro x hx
        simp only [own, List.mem_singleton] at hx
        subst hx
        have := h.ex p r hr x (by rw [ho]; simp)
        exact ⟨this.1, List.mem_filter.2 ⟨this.2, by simpa using hne⟩⟩
      · intro r2 hr2; cases hr2; simp [own]
      · intro r2 hr2; cases hr2
        intro q r3 hq hr3 x hx
        simp only [own, List.mem_singleton] at hx
        subst hx
        exact h.dj p q r r3 hr hr3 (Ne.symm hq) x (by rw [ho]; simp)
    | created d =>
      exact h.sub p r { r with reset := false, pc := .access d } hr rfl (fun x hx => hx) rfl
        (by simp [own, hp])
    | access d =>
      simp only
      split
      · exact h.sub p r { r with pc := .notify } hr rfl
          (fun x hx => by simp only [AMap.find_set]; split <;> simp [hx]) rfl (by simp [own, hp])
      · exact h.sub p r { r with reset := true, pc := .idle } hr rfl (fun x hx => hx) rfl (by simp [own, hp])
    | notify =>
      exact h.sub p r { r with pc := .idle } hr rfl (fun x hx => hx) rfl (by simp [own, hp])

theorem UInv.sendList {w : SW} (h : UInv w) (p : Nat) (l : List RegSample) (new : Nat) (ok : Bool)
    (hid : idle w p = true) (hf : w.objs.find new = none) : UInv (sendList w p l new ok) := by
  unfold ShmReg.sendList
  simp only
  split
  · exact h.congr rfl rfl rfl
  · exact UInv.beginWrite (w := { w with written := w.written ++ [(p, l)] }) (h.congr rfl rfl rfl) p _ new ok
      hid hf

theorem UInv.step {P : Nat → Proc} {w : SW} (h : UInv w) (x : SIn) (hf : FreshStep w x) :
    UInv (step P w x) := by
  cases x with
  | act y => simp only [ShmReg.step]; split <;> first | exact h | exact h.congr rfl rfl rfl
  | bind p id now ok evOk =>
    simp only [ShmReg.step]
    split
    · rename_i hc
      have hf : w.objs.find id = none := hf
      rw [create_fresh w id h hf]
      refine h.set p (some { id := id, cap := 1024 }) rfl ?_ ?_ ?_ ?_ ?_ ?_
      · intro x hx; simp only [AMap.find_set]; split <;> simp [hx]
      · intro x hx
        simp only [AMap.find_set]
        rcases List.mem_cons.1 hx with rfl | hx
        · simp
        · split
          · rfl
          · exact h.lk x hx
      · intro q r' hq hr' x hx
        exact List.mem_cons_of_mem _ (h.ex q r' hr' x hx).2
      · intro r' hr'; cases hr'
        intro x hx
        simp only [own, List.mem_singleton] at hx
        subst hx
        simp
      · intro r' hr'; cases hr'; simp [own]
      · intro r' hr'; cases hr'
        intro q r2 hq hr2 x hx hx2
        simp only [own, List.mem_singleton] at hx
        subst hx
        have := (h.ex q r2 hr2 x hx2).1
        rw [hf] at this; cases this
    · exact h
  | unbind p now evOk =>
    simp only [ShmReg.step]
    cases hr : w.wr p with
    | none => exact h
    | some r =>
      simp only
      split
      · refine h.set p none rfl (fun x hx => hx) ?_ ?_ ?_ ?_ ?_
        · intro x hx; exact h.lk x (List.mem_filter.1 hx).1
        · intro q r2 hq hr2 x hx
          refine List.mem_filter.2 ⟨(h.ex q r2 hr2 x hx).2, ?_⟩
          simp only [decide_eq_true_eq]
          intro e
          subst e
          exact h.dj p q r r2 hr hr2 (Ne.symm hq) _ (id_own r) hx
        · intro r' hr'; cases hr'
        · intro r' hr'; cases hr'
        · intro r' hr'; cases hr'
      · exact h
  | write1 p a b n ok =>
    simp only [ShmReg.step]
    split
    · rename_i hc
      simp only [canSend, Bool.and_eq_true] at hc
      refine UInv.sendList ?_ p _ n ok ?_ ?_
      · exact h.congr rfl rfl rfl
      · exact hc.1.2
      · exact hf
    · exact h
  | write2 p n ok =>
    simp only [ShmReg.step]
    split
    · rename_i hc
      simp only [canFlush, Bool.and_eq_true] at hc
      refine UInv.sendList ?_ p _ n ok ?_ ?_
      · exact h.congr rfl rfl rfl
      · exact hc.1.2
      · exact hf
    · exact h
  | wnext p now ok => exact h.contWrite p now ok
  | crash => exact h.congr rfl rfl rfl
  | attach q => exact h.congr rfl rfl rfl
  | pollBegin q now ok => simp only [ShmReg.step]; split <;> first | exact h | exact h.congr rfl rfl rfl
  | pollNext q a b => simp only [ShmReg.step]; split <;> first | exact h | exact h.congr rfl rfl rfl
  | pollEnd q => simp only [ShmReg.step]; split <;> first | exact h | exact h.congr rfl rfl rfl
  | apply q now => simp only [ShmReg.step]; split <;> first | exact h | exact h.congr rfl rfl rfl

theorem UInv.run {P : Nat → Proc} (h : List SIn) {w : SW} (hu : UInv w) (hf : FreshIds P w h) :
    UInv (run P w h) := by
  induction h generalizing w with
  | nil => exact hu
  | cons x h ih => exact ih (hu.step x hf.1) hf.2

theorem init_uinv (cap : Nat) (t0 : Int) (cells : Nat → Event) : UInv (init cap t0 cells) := by
  constructor
  · intro p r hr; cases hr
  · intro p p' r r' hr; cases hr
  · intro p r hr; cases hr
  · intro x hx; cases hx

theorem FreshIds.append {P : Nat → Proc} (a b : List SIn) {w : SW} :
    FreshIds P w (a ++ b) ↔ FreshIds P w a ∧ FreshIds P (ShmReg.run P w a) b := by
  induction a generalizing w with
  | nil => simp [FreshIds, ShmReg.run]
  | cons x a ih =>
    simp only [List.cons_append, FreshIds, ih, and_assoc]
    rfl

end Ecal.E2E.ShmReg
