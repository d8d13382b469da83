import Verif.E2E.ShmReg
import Verif.E2E.DiscFindProps
import Verif.Bcast.Props

/-! # Lemmas for C108: registration over shared memory is registration over a lossy network -/

namespace Ecal.E2E.ShmReg

open Ecal.Wire (RegSample RTopic IsMap)
open Ecal.E2E.Disc (Proc PSt World)
open Ecal.Bcast (Event EvType Sys Reader)

/-- A list that can be serialised: attributes are maps, the size fits into 32 bits. -/
def FitsList (l : List RegSample) : Prop :=
  (∀ m ∈ l, IsMap m.topic.attr) ∧ (Wire.serializeRegList l).length < 2 ^ 32

/-- Everything handed to the senders can be serialised. -/
def Fit (w : SW) : Prop := ∀ x ∈ w.written, FitsList x.2

/-! ## What the files contain -/

/-- A content: nothing, or a list that was handed to a sender. -/
def Good (wr : List (Nat × List RegSample)) (c : Bytes) : Prop :=
  c = [] ∨ ∃ x ∈ wr, x.2 ≠ [] ∧ c = Wire.serializeRegList x.2

/-- A sample received: one of a list that was handed to a sender. -/
def From (wr : List (Nat × List RegSample)) (m : RegSample) : Prop :=
  ∃ x ∈ wr, ∃ m0 ∈ x.2, m = Wire.transmitted m0

def pcData : Pc → Option Bytes
  | .gone d _ | .destroy d _ | .created d | .access d => some d
  | _ => none

structure SInv (w : SW) : Prop where
  half : ∀ p, w.half p = true → (w.st p).out = some []
  objs : ∀ id c, w.objs.find id = some c → Good w.written c
  wr : ∀ p r d, w.wr p = some r → pcData r.pc = some d → Good w.written d
  msgs : ∀ q k, (w.rd q).work = some k → ∀ x ∈ k.msgs, Good w.written x.1
  inbox : ∀ q, ∀ m ∈ (w.rd q).inbox, From w.written m

theorem Good.more {a : List (Nat × List RegSample)} {c : Bytes} (h : Good a c) (b) : Good (a ++ b) c := by
  rcases h with h | ⟨x, hx, h⟩
  · exact Or.inl h
  · exact Or.inr ⟨x, List.mem_append_left _ hx, h⟩

theorem From.more {a : List (Nat × List RegSample)} {m : RegSample} (h : From a m) (b) :
    From (a ++ b) m := by
  obtain ⟨x, hx, h⟩ := h
  exact ⟨x, List.mem_append_left _ hx, h⟩

theorem shmReceive_from (wr : List (Nat × List RegSample)) (hf : ∀ x ∈ wr, FitsList x.2)
    (bs : List Bytes) (acc : List RegSample) (hb : ∀ b ∈ bs, Good wr b) (ha : ∀ m ∈ acc, From wr m) :
    ∀ m ∈ Wire.shmReceive acc bs, From wr m := by
  induction bs generalizing acc with
  | nil => intro m hm; cases hm
  | cons b bs ih =>
    have hb' : ∀ b ∈ bs, Good wr b := fun b hx => hb b (List.mem_cons_of_mem _ hx)
    intro m hm
    rcases hb b (List.mem_cons_self) with rfl | ⟨x, hx, hne, rfl⟩
    · have e : Wire.deserializeRegList acc [] = none := by simp [Wire.deserializeRegList]
      simp only [Wire.shmReceive, e] at hm
      exact ih acc hb' ha m hm
    · have e := Wire.C28_list_roundtrip x.2 acc hne (hf x hx).1 (hf x hx).2
      simp only [Wire.shmReceive, e] at hm
      have ha' : ∀ m ∈ acc ++ x.2.map Wire.transmitted, From wr m := by
        intro m hm
        rcases List.mem_append.1 hm with hm | hm
        · exact ha m hm
        · obtain ⟨m0, h0, rfl⟩ := List.mem_map.1 hm
          exact ⟨x, hx, m0, h0, rfl⟩
      rcases List.mem_append.1 hm with hm | hm
      · exact ha' m hm
      · exact ih _ hb' ha' m hm

theorem readEv_msgs (objs : AMap Nat (List UInt8)) (linked : List Nat) (a b : Bool)
    (st : Reader × List Nat × List (List UInt8 × Int) × Bool) (e : Event) :
    ∀ x ∈ (readEv objs linked a b st e).2.2.1, x ∈ st.2.2.1 ∨ ∃ id, objs.find id = some x.1 := by
  intro x hx
  unfold readEv at hx
  split at hx
  · exact Or.inl hx
  · simp only at hx
    split at hx
    · exact Or.inl hx
    · split at hx
      · split at hx
        · rename_i c _ hc
          rcases List.mem_append.1 hx with hx | hx
          · exact Or.inl hx
          · rw [List.mem_singleton] at hx
            subst hx
            exact Or.inr ⟨_, hc⟩
        · exact Or.inl hx
      · exact Or.inl hx
      · exact Or.inl hx

theorem upd_self {α : Type} (f : Nat → α) (p : Nat) (a : α) : upd f p a p = a := by simp [upd]

theorem upd_ne {α : Type} (f : Nat → α) (p q : Nat) (a : α) (h : q ≠ p) : upd f p a q = f q := by
  simp [upd, h]

theorem SInv.files {w : SW} (hi : SInv w) (id : Nat) : SInv (createFile w id) := by
  unfold createFile
  split
  · exact hi
  · refine ⟨hi.half, ?_, hi.wr, hi.msgs, hi.inbox⟩
    intro id' c hc
    simp only [AMap.find_set] at hc
    split at hc
    · cases hc; exact Or.inl rfl
    · exact hi.objs id' c hc

theorem SInv.setWr {w : SW} (hi : SInv w) (p : Nat) (o : Option Wr)
    (h : ∀ r d, o = some r → pcData r.pc = some d → Good w.written d) :
    SInv { w with wr := upd w.wr p o } := by
  refine ⟨hi.half, hi.objs, ?_, hi.msgs, hi.inbox⟩
  intro q r d hr hd
  by_cases hq : q = p
  · subst hq; simp only [upd_self] at hr; exact h r d hr hd
  · simp only [upd_ne _ _ _ _ hq] at hr; exact hi.wr q r d hr hd

theorem SInv.setChan {w : SW} (hi : SInv w) (c : Sys) : SInv { w with chan := c } :=
  ⟨hi.half, hi.objs, hi.wr, hi.msgs, hi.inbox⟩

theorem SInv.setLinked {w : SW} (hi : SInv w) (l : List Nat) : SInv { w with linked := l } :=
  ⟨hi.half, hi.objs, hi.wr, hi.msgs, hi.inbox⟩

theorem SInv.setWrCL {w : SW} (hi : SInv w) (c : Sys) (ln : List Nat) (p : Nat) (o : Option Wr)
    (h : ∀ r d, o = some r → pcData r.pc = some d → Good w.written d) :
    SInv { w with chan := c, linked := ln, wr := upd w.wr p o } := by
  refine ⟨hi.half, hi.objs, ?_, hi.msgs, hi.inbox⟩
  exact (hi.setWr p o h).wr

theorem createFile_written (w : SW) (id : Nat) : (createFile w id).written = w.written := by
  unfold createFile; split <;> rfl

theorem createFile_wr (w : SW) (id : Nat) : (createFile w id).wr = w.wr := by
  unfold createFile; split <;> rfl

theorem SInv.beginWrite {w : SW} (hi : SInv w) (p : Nat) (d : Bytes) (new : Nat) (ok : Bool)
    (hd : Good w.written d) : SInv (beginWrite w p d new ok) := by
  unfold ShmReg.beginWrite
  split
  · exact hi
  · split
    · split
      · have := (hi.files new).setWr p (some { ‹Wr› with pc := .gone d new }) (by
          intro r' d' hr hd'; cases hr; cases hd'; rw [createFile_written]; exact hd)
        rw [createFile_wr] at this
        exact this
      · exact hi
    · exact hi.setWr p _ (by intro r' d' hr hd'; cases hr; cases hd'; exact hd)

theorem SInv.sendList {w : SW} (hi : SInv w) (p : Nat) (l : List RegSample) (new : Nat) (ok : Bool) :
    SInv (sendList w p l new ok) := by
  have h1 : SInv { w with written := w.written ++ [(p, l)] } :=
    ⟨hi.half, fun id c h => (hi.objs id c h).more _, fun p r d h h' => (hi.wr p r d h h').more _,
      fun q k h x hx => (hi.msgs q k h x hx).more _, fun q m hm => (hi.inbox q m hm).more _⟩
  unfold ShmReg.sendList
  simp only
  split
  · exact h1
  · rename_i hne
    exact h1.beginWrite p _ new ok (Or.inr ⟨(p, l), by simp, hne, rfl⟩)

theorem SInv.contWrite {w : SW} (hi : SInv w) (p : Nat) (now : Int) (ok : Bool) :
    SInv (contWrite w p now ok) := by
  unfold ShmReg.contWrite
  split
  · exact hi
  · rename_i r hr
    split
    · exact hi
    · rename_i d new hpc
      refine hi.setWrCL _ _ p _ ?_
      intro r' d' h h'; cases h; cases h'; exact hi.wr p r d hr (by rw [hpc]; rfl)
    · rename_i d new hpc
      refine hi.setWrCL _ _ p _ ?_
      intro r' d' h h'; cases h; cases h'; exact hi.wr p r d hr (by rw [hpc]; rfl)
    · rename_i d hpc
      refine hi.setWrCL _ _ p _ ?_
      intro r' d' h h'; cases h; cases h'; exact hi.wr p r d hr (by rw [hpc]; rfl)
    · rename_i d hpc
      split
      · have h1 : SInv { w with objs := w.objs.set r.id d } := by
          refine ⟨hi.half, ?_, hi.wr, hi.msgs, hi.inbox⟩
          intro id c hc
          simp only [AMap.find_set] at hc
          split at hc
          · cases hc; exact hi.wr p r d hr (by rw [hpc]; rfl)
          · exact hi.objs id c hc
        refine h1.setWr p _ ?_
        intro r' d' h h'; cases h; cases h'
      · refine hi.setWr p _ ?_
        intro r' d' h h'; cases h; cases h'
    · refine hi.setWrCL _ _ p _ ?_
      intro r' d' h h'; cases h; cases h'

theorem SInv.setRd {w : SW} (hi : SInv w) (q : Nat) (r : Rd)
    (h1 : ∀ k, r.work = some k → ∀ x ∈ k.msgs, Good w.written x.1)
    (h2 : ∀ m ∈ r.inbox, From w.written m) : SInv { w with rd := upd w.rd q r } := by
  refine ⟨hi.half, hi.objs, hi.wr, ?_, ?_⟩
  · intro q' k hk
    by_cases hq : q' = q
    · subst hq; simp only [upd_self] at hk; exact h1 k hk
    · simp only [upd_ne _ _ _ _ hq] at hk; exact hi.msgs q' k hk
  · intro q'
    by_cases hq : q' = q
    · subst hq; simp only [upd_self]; exact h2
    · simp only [upd_ne _ _ _ _ hq]; exact hi.inbox q'

theorem SInv.setSt {w : SW} (hi : SInv w) (f : Nat → PSt) (g : Nat → Bool)
    (h : ∀ p, g p = true → (f p).out = some []) : SInv { w with st := f, half := g } :=
  ⟨h, hi.objs, hi.wr, hi.msgs, hi.inbox⟩

theorem step_written (P : Nat → Proc) (w : SW) (x : SIn) :
    ∃ l, (step P w x).written = w.written ++ l := by
  have hc : ∀ (w : SW) id, (createFile w id).written = w.written := by
    intro w id; unfold createFile; split <;> rfl
  have hb : ∀ (w : SW) p d new ok, (beginWrite w p d new ok).written = w.written := by
    intro w p d new ok; unfold beginWrite
    repeat' split
    all_goals first | rfl | exact hc w new
  have hs : ∀ (w : SW) p l new ok, (sendList w p l new ok).written = w.written ++ [(p, l)] := by
    intro w p l new ok; unfold sendList; simp only
    split
    · rfl
    · rw [hb]
  cases x with
  | act x => simp only [step]; split <;> exact ⟨[], by simp⟩
  | bind p id now ok evOk =>
    simp only [step]; split
    · exact ⟨[], by simp [hc]⟩
    · exact ⟨[], by simp⟩
  | unbind p now evOk =>
    simp only [step]
    repeat' split
    all_goals exact ⟨[], by simp [destroyFile]⟩
  | write1 p a b n ok => simp only [step]; split; · exact ⟨_, hs _ _ _ _ _⟩
                         exact ⟨[], by simp⟩
  | write2 p n ok => simp only [step]; split; · exact ⟨_, hs _ _ _ _ _⟩
                     exact ⟨[], by simp⟩
  | wnext p now ok =>
    refine ⟨[], ?_⟩
    simp only [step, contWrite, List.append_nil]
    repeat' split
    all_goals rfl
  | crash => exact ⟨[], by simp [step]⟩
  | attach q => exact ⟨[], by simp [step]⟩
  | pollBegin q now ok => refine ⟨[], ?_⟩; simp only [step, List.append_nil]; split <;> rfl
  | pollNext q a b => refine ⟨[], ?_⟩; simp only [step, List.append_nil]; split <;> rfl
  | pollEnd q => refine ⟨[], ?_⟩; simp only [step, List.append_nil]; split <;> rfl
  | apply q now => refine ⟨[], ?_⟩; simp only [step, List.append_nil]; split <;> rfl

theorem run_written (P : Nat → Proc) (w : SW) (h : List SIn) :
    ∃ l, (run P w h).written = w.written ++ l := by
  induction h generalizing w with
  | nil => exact ⟨[], by simp [run]⟩
  | cons x h ih =>
    obtain ⟨a, ha⟩ := step_written P w x
    obtain ⟨b, hb⟩ := ih (step P w x)
    exact ⟨a ++ b, by show (run P (step P w x) h).written = _; rw [hb, ha, List.append_assoc]⟩

/-- What does not concern the transport does not concern what the thread has to send. -/
theorem act_out (P : Nat → Proc) (w : SW) (x : Disc.In) (ha : allowed w x = true) (p : Nat)
    (h : (w.st p).out = some []) : ((Disc.step P { st := w.st } x).st p).out = some [] := by
  simp only [Disc.step, Disc.out']
  cases x with
  | collect p' now a b =>
    simp only
    rw [if_neg (by rw [h]; simp)]
    exact h
  | send => cases ha
  | flush => cases ha
  | _ => exact h

theorem SInv.step {P : Nat → Proc} {w : SW} (hi : SInv w) (hf : Fit w) (x : SIn) :
    SInv (step P w x) := by
  cases x with
  | act x =>
    simp only [ShmReg.step]
    split
    · rename_i ha
      exact hi.setSt _ _ (fun p hp => act_out P w x ha p (hi.half p hp))
    · exact hi
  | bind p id now ok evOk =>
    simp only [ShmReg.step]
    split
    · have := ((hi.files id).setChan (sendEv w.chan p now id .created evOk)).setWr p
        (some { id := id, cap := 1024 }) (by intro r d h h'; cases h; cases h')
      simp only [createFile_wr] at this
      exact this
    · exact hi
  | unbind p now evOk =>
    simp only [ShmReg.step]
    split
    · split
      · exact hi.setWrCL _ _ p none (by intro r d h; cases h)
      · exact hi
    · exact hi
  | write1 p front back new ok =>
    simp only [ShmReg.step]
    split
    · refine (hi.setSt _ _ ?_).sendList p _ new ok
      intro q hq
      by_cases h : q = p
      · subst h; simp [upd]
      · simp only [upd_ne _ _ _ _ h] at hq ⊢; exact hi.half q hq
    · exact hi
  | write2 p new ok =>
    simp only [ShmReg.step]
    split
    · refine (hi.setSt _ _ ?_).sendList p _ new ok
      intro q hq
      by_cases h : q = p
      · subst h; simp [upd] at hq
      · simp only [upd_ne _ _ _ _ h] at hq ⊢; exact hi.half q hq
    · exact hi
  | wnext p now ok => exact hi.contWrite p now ok
  | crash => exact hi.setChan _
  | attach q =>
    have h := hi.setChan (Bcast.flushLocal w.chan q)
    exact h.setRd q {} (by intro k hk; cases hk) (by intro m hm; cases hm)
  | pollBegin q now ok =>
    simp only [ShmReg.step]
    split
    · have h := hi.setChan (if ok then (Bcast.receiveEvents w.chan q now 0 true).getD (none, w.chan)
        else (none, w.chan)).2
      refine h.setRd q _ ?_ ?_
      · intro k hk; cases hk; intro x hx; cases hx
      · exact hi.inbox q
    · exact hi
  | pollNext q a b =>
    simp only [ShmReg.step]
    split
    · rename_i e es handled msgs ok hw
      refine hi.setRd q _ ?_ (hi.inbox q)
      intro k hk; cases hk; intro x hx
      rcases readEv_msgs _ _ _ _ _ _ x hx with h | ⟨id, h⟩
      · exact hi.msgs q _ hw x h
      · exact hi.objs id _ h
    · exact hi
  | pollEnd q =>
    simp only [ShmReg.step]
    split
    · rename_i handled msgs ok hw
      refine hi.setRd q _ (by intro k hk; cases hk) ?_
      intro m hm
      simp only at hm
      split at hm
      · refine shmReceive_from w.written hf _ [] ?_ (by intro m hm; cases hm) m hm
        intro b hb
        obtain ⟨x, hx, rfl⟩ := List.mem_map.1 hb
        exact hi.msgs q _ hw x hx
      · cases hm
    · exact hi
  | apply q now =>
    simp only [ShmReg.step]
    split
    · rename_i m ms hm
      have h1 : SInv { w with st := upd w.st q { w.st q with
          pg := Gate.pubGateRun (w.st q).pg (Disc.popsOf (P q) now m)
          sg := Gate.subGateRun (str (P q).host) (w.st q).sg (Disc.sopsOf (P q) now m) } } := by
        refine hi.setSt _ w.half ?_
        intro p hp
        by_cases h : p = q
        · subst h; simp only [upd_self]; exact hi.half p hp
        · simp only [upd_ne _ _ _ _ h]; exact hi.half p hp
      refine h1.setRd q _ (hi.msgs q) ?_
      intro x hx
      exact hi.inbox q x (by rw [hm]; exact List.mem_cons_of_mem _ hx)
    · exact hi

end Ecal.E2E.ShmReg
