import Verif.Registration.UserCb
import Verif.Wire.RegistrationProps
import Verif.E2E.DiscProps

/-! # C114: registration callbacks of the application -/

namespace Ecal.Registration.UserCb

open Ecal.Wire (RegSample Bytes transmitted)
open Ecal.E2E.Disc (smpOf cmdOf Fits)

/-! ## What is to be called -/

/-- The event a command number stands for (serialization/ecal_struct_sample_common.h L29-43). -/
def eventOf (c : Nat) : Event :=
  if c = 2 ∨ c = 12 then .publisher else if c = 3 ∨ c = 13 then .subscriber else if c = 4 ∨ c = 14 then .process
  else if c = 5 ∨ c = 15 then .service else if c = 6 ∨ c = 16 then .client else .none

/-- What an action says about the callback of event `e`. -/
def says (e : Event) : In → Option (Option Nat)
  | .add e' c => if e' = e then some c else none
  | .rem e' => if e' = e then some none else none
  | _ => none

/-- The callback that was set last. -/
def lastSet (h : List In) (e : Event) : Option Nat := (h.reverse.findSome? (says e)).join

/-- The call that is due for a sample after the history. -/
def due (a : Applier) (h : List In) (m : RegSample) : Option (Nat × Bytes) :=
  if accept a (smpOf m) = true ∧ eventOf m.cmd.toNat ≠ .none then
    (lastSet h (eventOf m.cmd.toNat)).map (fun c => (c, Wire.serializeReg m))
  else none

/-- All calls that are due, in order, after `pre`. -/
def dues (a : Applier) : List In → List In → List (Nat × Bytes)
  | _, [] => []
  | pre, .sample m :: h => (due a pre m).toList ++ dues a (pre ++ [.sample m]) h
  | pre, i :: h => dues a (pre ++ [i]) h

/-! ## Lemmas -/

def get (s : St) : Event → Option Nat
  | .none => none
  | .publisher => s.pub
  | .subscriber => s.sub
  | .service => s.service
  | .client => s.client
  | .process => s.process

theorem lastSet_snoc (h : List In) (i : In) (e : Event) :
    lastSet (h ++ [i]) e = match says e i with | some c => c | none => lastSet h e := by
  unfold lastSet
  rw [List.reverse_append]
  simp only [List.reverse_singleton, List.cons_append, List.nil_append, List.findSome?_cons]
  cases says e i <;> rfl

theorem get_assign (s : St) (e e' : Event) (c : Option Nat) (he : e' ≠ .none) :
    get (assign s e c).1 e' = if e = e' then c else get s e' := by
  cases e <;> cases e' <;> first | exact absurd rfl he | rfl

theorem assign_rest (s : St) (e : Event) (c : Option Nat) :
    (assign s e c).1.running = s.running ∧ (assign s e c).1.calls = s.calls := by cases e <;> exact ⟨rfl, rfl⟩

/-- The callbacks are those set last. -/
def Sync (s : St) (h : List In) : Prop := ∀ e, e ≠ .none → get s e = lastSet h e

theorem step_sync {a : Applier} {s s' : St} {i : In} {h : List In} (hs : Sync s h) (hst : step a s i = some s') : Sync s' (h ++ [i]) := by
  intro e he
  rw [lastSet_snoc]
  cases i with
  | add e' c =>
    cases hst
    rw [get_assign _ _ _ _ he]
    simp only [says]
    by_cases hc : e' = e
    · rw [if_pos hc, if_pos hc]
    · rw [if_neg hc, if_neg hc]; exact hs e he
  | rem e' =>
    cases hst
    rw [get_assign _ _ _ _ he]
    simp only [says]
    by_cases hc : e' = e
    · rw [if_pos hc, if_pos hc]
    · rw [if_neg hc, if_neg hc]; exact hs e he
  | sample m =>
    simp only [says]
    rw [← hs e he]
    simp only [step] at hst
    split at hst
    · cases hst
    · split at hst <;> cases hst <;> cases e <;> rfl
  | call =>
    simp only [says]
    rw [← hs e he]
    simp only [step] at hst
    split at hst
    · cases hst; cases e <;> rfl
    · cases hst

theorem chosen_eq (s : St) (c : BitVec 32) :
    chosen s (cmdOf c) = if eventOf c.toNat ≠ .none then get s (eventOf c.toNat) else none := by
  have key : ∀ k : Nat, k < 2 ^ 32 → (c = (OfNat.ofNat k : BitVec 32) ↔ c.toNat = k) := by
    intro k hk
    constructor
    · rintro rfl; show (BitVec.ofNat 32 k).toNat = k; simp; omega
    · intro h; apply BitVec.eq_of_toNat_eq; show c.toNat = (BitVec.ofNat 32 k).toNat; simp; omega
  have h1 := key 1 (by decide); have h2 := key 2 (by decide); have h3 := key 3 (by decide); have h4 := key 4 (by decide)
  have h5 := key 5 (by decide); have h6 := key 6 (by decide); have h12 := key 12 (by decide); have h13 := key 13 (by decide)
  have h14 := key 14 (by decide); have h15 := key 15 (by decide); have h16 := key 16 (by decide)
  unfold cmdOf eventOf
  simp only [h1, h2, h3, h4, h5, h6, h12, h13, h14, h15, h16]
  generalize c.toNat = n
  by_cases g1 : n = 1
  · subst g1; simp [chosen]
  by_cases g2 : n = 2
  · subst g2; simp [chosen, get]
  by_cases g3 : n = 3
  · subst g3; simp [chosen, get]
  by_cases g4 : n = 4
  · subst g4; simp [chosen, get]
  by_cases g5 : n = 5
  · subst g5; simp [chosen, get]
  by_cases g6 : n = 6
  · subst g6; simp [chosen, get]
  by_cases g12 : n = 12
  · subst g12; simp [chosen, get]
  by_cases g13 : n = 13
  · subst g13; simp [chosen, get]
  by_cases g14 : n = 14
  · subst g14; simp [chosen, get]
  by_cases g15 : n = 15
  · subst g15; simp [chosen, get]
  by_cases g16 : n = 16
  · subst g16; simp [chosen, get]
  simp [chosen, g1, g2, g3, g4, g5, g6, g12, g13, g14, g15, g16]

theorem run_append (a : Applier) (h1 h2 : List In) : ∀ s, run a s (h1 ++ h2) = (run a s h1).bind (fun s' => run a s' h2) := by
  induction h1 with
  | nil => intro s; rfl
  | cons i h ih =>
    intro s
    simp only [List.cons_append, run]
    cases step a s i with
    | none => rfl
    | some s1 => exact ih s1

theorem run_told (a : Applier) (h : List In) : ∀ (s s' : St) (pre : List In), Sync s pre → run a s h = some s' →
    Sync s' (pre ++ h) ∧ s'.calls ++ s'.running.toList = s.calls ++ s.running.toList ++ dues a pre h := by
  induction h with
  | nil => intro s s' pre hs hr; cases hr; simp [dues]; exact hs
  | cons i h ih =>
    intro s s' pre hs hr
    simp only [run, Option.bind_eq_some_iff] at hr
    obtain ⟨s1, h1, h2⟩ := hr
    have hs1 := step_sync hs h1
    obtain ⟨g1, g2⟩ := ih s1 s' (pre ++ [i]) hs1 h2
    refine ⟨by simpa using g1, ?_⟩
    rw [g2]
    cases i with
    | add e c => cases h1; rw [(assign_rest s e c).1, (assign_rest s e c).2]; rfl
    | rem e => cases h1; rw [(assign_rest s e _).1, (assign_rest s e _).2]; rfl
    | call =>
      simp only [step] at h1
      split at h1
      · rename_i r hr'
        cases h1
        simp [dues, hr']
      · cases h1
    | sample m =>
      simp only [step] at h1
      split at h1
      · cases h1
      · rename_i hr'
        have hd : (due a pre m).toList =
            if accept a (smpOf m) then ((chosen s (cmdOf m.cmd)).map (fun c => (c, Wire.serializeReg m))).toList else [] := by
          unfold due
          by_cases hacc : accept a (smpOf m) = true
          · rw [if_pos hacc, chosen_eq]
            by_cases he : eventOf m.cmd.toNat ≠ .none
            · rw [if_pos ⟨hacc, he⟩, if_pos he, hs _ he]
            · rw [if_neg (fun h => he h.2), if_neg he]; rfl
          · rw [if_neg hacc, if_neg (fun h => hacc h.1)]; rfl
        simp only [dues]
        rw [hd]
        split at h1 <;> rename_i hacc
        · cases h1
          simp [hacc, hr']
        · cases h1
          simp [hacc, hr']

/-! ## Property theorems -/

/-- **C114 (every registration once, in order).** Whatever callbacks are set and removed meanwhile: the calls made so far, together with
the one that is just about to be made, are exactly one call for each sample that passed the filter and is of a kind for which a
callback was set at that time; it goes to the callback set last, in the order of arrival. -/
theorem C114_told_once_in_order (a : Applier) (h : List In) (s : St) (hr : run a {} h = some s) :
    s.calls ++ s.running.toList = dues a [] h := by
  have := (run_told a h {} s [] (by intro e he; cases e <;> first | exact absurd rfl he | rfl) hr).2
  simpa using this

theorem transmitted_idem (m : RegSample) : transmitted (transmitted m) = transmitted m := by
  by_cases h1 : m.cmd = 4 ∨ m.cmd = 14
  · have e : transmitted m = { cmd := m.cmd, hname := m.hname, hostName := m.hostName, processId := m.processId, process := m.process } :=
      if_pos h1
    rw [e]
    exact if_pos h1
  · by_cases h2 : m.cmd = 5 ∨ m.cmd = 15
    · have e : transmitted m = { cmd := m.cmd, hname := m.hname, hostName := m.hostName, processId := m.processId, entityId := m.entityId, service := m.service } := (if_neg h1).trans (if_pos h2)
      rw [e]
      exact (if_neg h1).trans (if_pos h2)
    · by_cases h3 : m.cmd = 6 ∨ m.cmd = 16
      · have e : transmitted m = { cmd := m.cmd, hname := m.hname, hostName := m.hostName, processId := m.processId, entityId := m.entityId, client := m.client } := (if_neg h1).trans ((if_neg h2).trans (if_pos h3))
        rw [e]
        exact (if_neg h1).trans ((if_neg h2).trans (if_pos h3))
      · by_cases h4 : m.cmd = 2 ∨ m.cmd = 12 ∨ m.cmd = 3 ∨ m.cmd = 13
        · have e : transmitted m = { cmd := m.cmd, hname := m.hname, hostName := m.hostName, processId := m.processId, entityId := m.entityId, topic := m.topic } := (if_neg h1).trans ((if_neg h2).trans ((if_neg h3).trans (if_pos h4)))
          rw [e]
          exact (if_neg h1).trans ((if_neg h2).trans ((if_neg h3).trans (if_pos h4)))
        · have e : transmitted m = { cmd := m.cmd, hname := m.hname } := (if_neg h1).trans ((if_neg h2).trans ((if_neg h3).trans (if_neg h4)))
          rw [e]
          exact (if_neg h1).trans ((if_neg h2).trans ((if_neg h3).trans (if_neg h4)))

theorem dues_source (a : Applier) (h : List In) : ∀ pre, ∀ x ∈ dues a pre h, ∃ m h1 h2, h = h1 ++ .sample m :: h2 ∧
    accept a (smpOf m) = true ∧ lastSet (pre ++ h1) (eventOf m.cmd.toNat) = some x.1 ∧ x.2 = Wire.serializeReg m := by
  induction h with
  | nil => intro pre x hx; cases hx
  | cons i h ih =>
    intro pre x hx
    have rest : x ∈ dues a (pre ++ [i]) h → ∃ m h1 h2, i :: h = h1 ++ .sample m :: h2 ∧
        accept a (smpOf m) = true ∧ lastSet (pre ++ h1) (eventOf m.cmd.toNat) = some x.1 ∧ x.2 = Wire.serializeReg m := by
      intro hx
      obtain ⟨m, h1, h2, e, g1, g2, g3⟩ := ih _ x hx
      exact ⟨m, i :: h1, h2, by rw [e]; rfl, g1, by simpa using g2, g3⟩
    cases i with
    | sample m =>
      simp only [dues, List.mem_append, Option.mem_toList] at hx
      rcases hx with hx | hx
      · unfold due at hx
        split at hx
        · rename_i hc
          simp only [Option.map_eq_some_iff] at hx
          obtain ⟨c, hc', rfl⟩ := hx
          exact ⟨m, [], h, rfl, hc.1, by simpa using hc', rfl⟩
        · cases hx
      · exact rest hx
    | add e c => exact rest hx
    | rem e => exact rest hx
    | call => exact rest hx

/-- **C114 (content).** The bytes handed to a callback are those of a sample that passed the filter, and decoding them gives that sample
again (what of it travels in registrations at all, see C28); the callback is the one that was set last for the kind of the sample when
it arrived. -/
theorem C114_content (a : Applier) (h : List In) (s : St) (hr : run a {} h = some s)
    (hf : ∀ m, .sample m ∈ h → Wire.IsMap m.topic.attr ∧ (Wire.serializeReg m).length < 2 ^ 32) (c : Nat) (b : Bytes)
    (hc : (c, b) ∈ s.calls) : ∃ m h1 h2, h = h1 ++ .sample m :: h2 ∧ accept a (smpOf m) = true ∧
      lastSet h1 (eventOf m.cmd.toNat) = some c ∧ Wire.deserializeReg {} b = some (transmitted m) := by
  have hm : (c, b) ∈ dues a [] h := by
    rw [← C114_told_once_in_order a h s hr]
    exact List.mem_append_left _ hc
  obtain ⟨m, h1, h2, e, g1, g2, g3⟩ := dues_source a h [] _ hm
  have hmem : In.sample m ∈ h := by rw [e]; simp
  refine ⟨m, h1, h2, e, g1, by simpa using g2, ?_⟩
  rw [show b = Wire.serializeReg m from g3]
  exact Wire.C28_roundtrip m (hf m hmem).1 (hf m hmem).2

/-- **C114 (content, from the network).** What another process sent arrives at the callback as if its datagram had been handed over: the
decoded bytes are what the datagram decodes to. -/
theorem C114_content_from_network (m0 m : RegSample) (hf : Fits m0) (hm : Ecal.E2E.Disc.receive (Ecal.E2E.Disc.datagram m0) = some m)
    (hl : (Wire.serializeReg m).length < 2 ^ 32) (hattr : Wire.IsMap m.topic.attr) :
    Wire.deserializeReg {} (Wire.serializeReg m) = some m := by
  have e : m = transmitted m0 := by
    rw [Ecal.E2E.Disc.receive_datagram m0 hf] at hm
    exact (Option.some.inj hm).symm
  rw [Wire.C28_roundtrip m hattr hl, e, transmitted_idem]

/-- **C114 (results).** Setting and removing succeeds for each of the five kinds and for nothing else. -/
theorem C114_results (s : St) (e : Event) (c : Option Nat) : (assign s e c).2 = true ↔ e ≠ .none := by
  cases e <;> simp [assign]

/-- **C114 (kinds are independent).** Setting the callback of one kind does not change those of the others. -/
theorem C114_kinds_independent (h : List In) (e e' : Event) (c : Option Nat) (hne : e ≠ e') :
    lastSet (h ++ [.add e c]) e' = lastSet h e' ∧ lastSet (h ++ [.rem e]) e' = lastSet h e' := by
  rw [lastSet_snoc, lastSet_snoc]
  simp [says, hne]

/-- A callback that is nowhere set after a history and is not set again is not due any more. -/
theorem not_due_again (a : Applier) (c : Nat) (h : List In) : ∀ pre, (∀ e, lastSet pre e ≠ some c) →
    (∀ e, .add e (some c) ∉ h) → ∀ b, (c, b) ∉ dues a pre h := by
  intro pre hp hn b hb
  obtain ⟨m, h1, h2, e, -, g2, -⟩ := dues_source a h pre _ hb
  have key : ∀ (l : List In) (pre : List In), (∀ e, lastSet pre e ≠ some c) → (∀ e, .add e (some c) ∉ l) → ∀ e, lastSet (pre ++ l) e ≠ some c := by
    intro l
    induction l with
    | nil => intro pre hp _ e; simpa using hp e
    | cons i l ih =>
      intro pre hp hn e
      rw [show pre ++ i :: l = (pre ++ [i]) ++ l by simp]
      refine ih _ ?_ (fun e he => hn e (List.mem_cons_of_mem _ he)) e
      intro e1
      rw [lastSet_snoc]
      cases i with
      | add e' c' =>
        simp only [says]
        by_cases hc : e' = e1
        · rw [if_pos hc]
          rintro rfl
          exact hn e' List.mem_cons_self
        · rw [if_neg hc]; exact hp e1
      | rem e' =>
        simp only [says]
        by_cases hc : e' = e1
        · rw [if_pos hc]; simp
        · rw [if_neg hc]; exact hp e1
      | sample m => exact hp e1
      | call => exact hp e1
  exact key h1 pre hp (fun e' he => hn e' (by rw [e]; exact List.mem_append_left _ he)) _ g2

theorem dues_append (a : Applier) (h1 h2 : List In) : ∀ pre, dues a pre (h1 ++ h2) = dues a pre h1 ++ dues a (pre ++ h1) h2 := by
  induction h1 with
  | nil => intro pre; simp [dues]
  | cons i h ih =>
    intro pre
    cases i <;> simp [dues, ih]

/-- **C114 (after the removal).** A callback that has been removed from all kinds (`h1` leads there) and is not set again is called at
most once more, and only if the receiving thread had already taken it for a sample when it was removed. -/
theorem C114_after_removal_partial (a : Applier) (h1 h2 : List In) (s1 s2 : St) (c : Nat) (hr1 : run a {} h1 = some s1)
    (hr2 : run a s1 h2 = some s2) (hnow : ∀ e, lastSet h1 e ≠ some c) (hno : ∀ e, .add e (some c) ∉ h2) :
    ∀ x ∈ s2.calls.drop s1.calls.length, x.1 = c → s1.running = some x ∧ (s2.calls.drop s1.calls.length).count x = 1 := by
  have e1 := C114_told_once_in_order a h1 s1 hr1
  have hr : run a {} (h1 ++ h2) = some s2 := by rw [run_append, hr1]; exact hr2
  have e2 := C114_told_once_in_order a (h1 ++ h2) s2 hr
  rw [dues_append, ← e1, List.nil_append] at e2
  have hnd : ∀ x ∈ dues a h1 h2, x.1 ≠ c := by
    intro x hx hc
    exact not_due_again a c h2 h1 hnow hno x.2 (by rw [← hc]; exact hx)
  have hlen : s1.calls.length ≤ s2.calls.length := by
    clear e1 e2 hr hnd hnow hno
    induction h2 generalizing s1 h1 with
    | nil => cases hr2; exact Nat.le_refl _
    | cons i h ih =>
      simp only [run, Option.bind_eq_some_iff] at hr2
      obtain ⟨s3, g1, g2⟩ := hr2
      have hr3 : run a {} (h1 ++ [i]) = some s3 := by rw [run_append, hr1]; simp [run, g1]
      refine Nat.le_trans ?_ (ih (h1 ++ [i]) s3 hr3 g2)
      cases i with
      | add e c => cases g1; rw [(assign_rest s1 e c).2]; exact Nat.le_refl _
      | rem e => cases g1; rw [(assign_rest s1 e _).2]; exact Nat.le_refl _
      | sample m =>
        simp only [step] at g1
        split at g1
        · cases g1
        · split at g1 <;> cases g1 <;> exact Nat.le_refl _
      | call =>
        simp only [step] at g1
        split at g1
        · cases g1; simp
        · cases g1
  have hpre : s2.calls.drop s1.calls.length ++ s2.running.toList = s1.running.toList ++ dues a h1 h2 := by
    have := congrArg (List.drop s1.calls.length) e2
    rw [List.drop_append_of_le_length hlen, List.append_assoc, List.drop_left] at this
    exact this
  intro x hx hxc
  have hx' : x ∈ s1.running.toList ++ dues a h1 h2 := by rw [← hpre]; exact List.mem_append_left _ hx
  have hrun : s1.running = some x := by
    rcases List.mem_append.1 hx' with hx' | hx'
    · simpa using hx'
    · exact absurd hxc (hnd x hx')
  refine ⟨hrun, ?_⟩
  have hc := congrArg (List.count x) hpre
  rw [List.count_append, List.count_append, hrun, List.count_eq_zero.2 (fun h => hnd x h hxc)] at hc
  have hp := List.count_pos_iff.2 hx
  simp only [Option.toList_some, List.count_singleton_self] at hc
  omega

/-! ## Runs -/

def exA : Applier := ⟨true, false, "h", 1⟩
def exM (c : BitVec 32) : RegSample := { cmd := c, hostName := [104], processId := 2, entityId := [49], topic := { tname := [116] } }

/-- A publisher callback is set, replaced and removed while publishers register. -/
example : (run exA {} [.add .publisher (some 1), .sample (exM 2), .call, .sample (exM 3), .add .publisher (some 2), .sample (exM 12),
      .rem .publisher, .call, .sample (exM 2)]).map (fun s => (s.calls.map (·.1), s.running)) = some ([1, 2], none) := by decide +kernel

example : lastSet [.add .publisher (some 1), .sample (exM 2), .rem .publisher] .publisher = none ∧
    Wire.IsMap (exM 2).topic.attr ∧ (Wire.serializeReg (exM 2)).length < 2 ^ 32 := by
  refine ⟨rfl, ?_, by decide +kernel⟩
  unfold Wire.IsMap
  decide +kernel

/-- Violated: **a callback is called after it was removed** (the receiving thread had copied it before). -/
theorem C114_violated_called_after_removal :
    ∃ s1 s2, run exA {} [.add .publisher (some 1), .sample (exM 2), .rem .publisher] = some s1 ∧ s1.calls = [] ∧
      run exA s1 [.call] = some s2 ∧ s2.calls.map (·.1) = [1] := by
  refine ⟨_, _, rfl, ?_, rfl, ?_⟩ <;> decide +kernel

end Ecal.Registration.UserCb
