import Verif.Registration.Applier

/-! # Property C16: which registrations are taken over -/

namespace Ecal.Registration

/-- The sample is about a publisher or subscriber. -/
def Smp.AboutTopic (s : Smp) : Prop :=
  s.cmd = .regPublisher ∨ s.cmd = .unregPublisher ∨ s.cmd = .regSubscriber ∨ s.cmd = .unregSubscriber

/-- The host group the sender of a registration belongs to: the configured host group it
announces, or its host name if it announces none. -/
def SenderGroup (s : Smp) (g : String) : Prop :=
  (s.AboutTopic ∧ s.topicHg ≠ "" ∧ g = s.topicHg) ∨
  ((¬ s.AboutTopic ∨ s.topicHg = "") ∧ g = s.host)

/-- **C16 (exact behaviour).** For every sample and configuration: a registration from the
own (non-empty) host group is taken over iff it has another process id or loopback is on;
any other one iff network mode is on.  Missing for the full claim: processes are compared by
id only, and services, clients and processes do not announce their host group; see the
violations below. -/
theorem C16_accept_iff_partial (a : Applier) (s : Smp) (g : String) (hg : SenderGroup s g) :
    accept a s = true ↔
      (g = a.hostGroup ∧ g ≠ "" ∧ (s.pid ≠ a.pid ∨ a.loopback = true)) ∨
      ((g ≠ a.hostGroup ∨ g = "") ∧ a.network = true) := by
  have hmem : isHostGroupMember a s = true ↔ g = a.hostGroup ∧ g ≠ "" := by
    have hsel : (if sampleHg s = "" then s.host else sampleHg s) = g := by
      rcases hg with ⟨h1, h2, rfl⟩ | ⟨h1, rfl⟩
      · rcases h1 with h | h | h | h <;> simp [sampleHg, h, h2]
      · rcases h1 with h | h
        · have : sampleHg s = "" := by
            unfold Smp.AboutTopic at h
            unfold sampleHg
            cases hc : s.cmd <;> simp_all
          simp only [this, if_true]
        · have : sampleHg s = "" := by unfold sampleHg; split <;> simp [h]
          simp only [this, if_true]
    simp only [isHostGroupMember, hsel]
    by_cases e1 : g = "" ∨ a.hostGroup = ""
    · rw [if_pos e1]
      constructor
      · intro h; cases h
      · rintro ⟨rfl, h⟩; rcases e1 with e | e <;> exact absurd e h
    · rw [if_neg e1]
      simp only [not_or] at e1
      by_cases e2 : g = a.hostGroup
      · simp [e2, e1.2]
      · simp [e2]
  unfold accept
  by_cases hm : isHostGroupMember a s = true
  · rw [if_pos hm]
    obtain ⟨h1, h2⟩ := hmem.1 hm
    simp [isSameProcess, h1, h1 ▸ h2]
  · rw [if_neg hm]
    rw [hmem] at hm
    constructor
    · intro h
      right
      refine ⟨?_, h⟩
      by_cases e : g = a.hostGroup
      · right; exact Classical.byContradiction fun h => hm ⟨e, h⟩
      · left; exact e
    · rintro (⟨h1, h2, _⟩ | ⟨_, h⟩)
      · exact absurd ⟨h1, h2⟩ hm
      · exact h

example : SenderGroup ⟨.regPublisher, "h1", 5, "grp", ""⟩ "grp" := by
  left; simp [Smp.AboutTopic]

/-- Every sample has exactly one sender group, so the theorem above covers every sample. -/
theorem C16_sender_group_exists (s : Smp) : ∃ g, SenderGroup s g ∧ ∀ g', SenderGroup s g' → g' = g := by
  by_cases h1 : s.AboutTopic
  · by_cases h2 : s.topicHg = ""
    · refine ⟨s.host, Or.inr ⟨Or.inr h2, rfl⟩, ?_⟩
      rintro g' (⟨_, h, _⟩ | ⟨_, h⟩)
      · exact absurd h2 h
      · exact h
    · refine ⟨s.topicHg, Or.inl ⟨h1, h2, rfl⟩, ?_⟩
      rintro g' (⟨_, _, h⟩ | ⟨h | h, _⟩)
      · exact h
      · exact absurd h1 h
      · exact absurd h h2
  · refine ⟨s.host, Or.inr ⟨Or.inl h1, rfl⟩, ?_⟩
    rintro g' (⟨h, _⟩ | ⟨_, h⟩)
    · exact absurd h h1
    · exact h

/-- **C16 violated (process id of another host).** Two hosts of one host group: a publisher
registration of a process on the other host that happens to have the same process id is
taken for the own one and dropped (loopback off), although it is from the own host group and
from another process. -/
theorem C16_violated_same_pid_on_other_host :
    accept ⟨true, false, "grp", 4711⟩ ⟨.regPublisher, "h2", 4711, "grp", ""⟩ = false := by
  decide

/-- **C16 violated (services of the own host group).** With a configured host group name,
registrations of services on the own host are not recognised as local (they do not carry
the host group): they are dropped when network mode is off. -/
theorem C16_violated_service_of_own_group_dropped :
    accept ⟨false, true, "grp", 4711⟩ ⟨.regService, "h1", 4712, "", ""⟩ = false ∧
    accept ⟨false, true, "grp", 4711⟩ ⟨.regProcess, "h1", 4712, "", "grp"⟩ = false := by
  decide

/-- **C16 violated (own services without loopback).** For the same reason the own services
are taken over in network mode although loopback is off. -/
theorem C16_violated_own_service_without_loopback :
    accept ⟨true, false, "grp", 4711⟩ ⟨.regService, "h1", 4711, "", ""⟩ = true := by
  decide

/-- **C16 (no host group configured).** With the default configuration (host group = host
name) and process ids unique per host group the claim holds in full. -/
theorem C16_default_configuration_partial (a : Applier) (s : Smp) (ownHost : String)
    (hne : ownHost ≠ "") (ha : a.hostGroup = ownHost) (hs : s.topicHg = s.host ∨ s.topicHg = "")
    (hpid : s.pid = a.pid → s.host = ownHost) :
    accept a s = true ↔
      (if s.host = ownHost ∧ s.pid = a.pid then a.loopback = true
       else s.host = ownHost ∨ a.network = true) := by
  have hgrp : SenderGroup s s.host := by
    by_cases h1 : s.AboutTopic
    · rcases hs with h | h
      · by_cases h2 : s.topicHg = ""
        · exact Or.inr ⟨Or.inr h2, rfl⟩
        · exact Or.inl ⟨h1, h2, h.symm⟩
      · exact Or.inr ⟨Or.inr h, rfl⟩
    · exact Or.inr ⟨Or.inl h1, rfl⟩
  rw [C16_accept_iff_partial a s s.host hgrp, ha]
  by_cases h1 : s.host = ownHost
  · by_cases h2 : s.pid = a.pid
    · simp [h1, h2, hne]
    · simp [h1, h2, hne]
  · have h2 : s.pid ≠ a.pid := fun h => h1 (hpid h)
    simp [h1, h2]

example : accept ⟨false, false, "h1", 1⟩ ⟨.regService, "h1", 2, "", ""⟩ = true := by decide

/-- **C16** A sample that is not accepted has no effect; an accepted one goes to the opposite side: publishers
learn of subscribers, subscribers of publishers, service clients of services; nothing else reaches a gate. -/
theorem C16_routing (a : Applier) (s : Smp) :
    (apply a s = none ↔ accept a s = false) ∧
    (∀ t, apply a s = some t →
      (t = .pubGateReg ↔ s.cmd = .regSubscriber) ∧ (t = .pubGateUnreg ↔ s.cmd = .unregSubscriber) ∧
      (t = .subGateReg ↔ s.cmd = .regPublisher) ∧ (t = .subGateUnreg ↔ s.cmd = .unregPublisher) ∧
      (t = .clientGateReg ↔ s.cmd = .regService)) := by
  unfold apply
  constructor
  · by_cases h : accept a s = true
    · simp [h]
    · simp [h]
  · intro t ht
    by_cases h : accept a s = true
    · rw [if_pos h] at ht
      simp only [Option.some.injEq] at ht
      subst ht
      cases s.cmd <;> simp [gateTarget]
    · rw [if_neg h] at ht; cases ht

example : apply ⟨false, false, "h1", 1⟩ ⟨.regSubscriber, "h1", 2, "", ""⟩ = some .pubGateReg := by decide

end Ecal.Registration
