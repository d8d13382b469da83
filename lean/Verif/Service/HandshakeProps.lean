import Verif.Service.Handshake

/-! # C33: version negotiation -/

namespace Ecal.Service.Handshake

/-- A version both peers support. -/
def Common (c s : Range) (v : UInt8) : Prop := c.lo ≤ v ∧ v ≤ c.hi ∧ s.lo ≤ v ∧ v ≤ s.hi

/-- The greatest version both peers support. -/
def HighestCommon (c s : Range) (v : UInt8) : Prop := Common c s v ∧ ∀ w, Common c s w → w ≤ v

theorem serverReceive_request (c s : Range) (v : UInt8)
    (h : serverReceive s (request c) = .accepted v) : HighestCommon c s v := by
  simp only [serverReceive, request, byteAt, ne_eq, not_true_eq_false, if_false,
    List.getD_cons_zero, List.getD_cons_succ] at h
  unfold HighestCommon Common
  simp only [UInt8.le_iff_toNat_le] at *
  by_cases h1 : c.hi.toNat ≤ s.hi.toNat <;> by_cases h2 : c.lo.toNat ≤ s.lo.toNat <;>
    simp only [h1, h2, if_true, if_false] at h <;> split at h <;>
    simp only [Outcome.accepted.injEq, reduceCtorEq] at h <;> subst h <;>
    exact ⟨by omega, by intro w hw; omega⟩

theorem serverReceive_failed (c s : Range) (h : serverReceive s (request c) = .failed) :
    ∀ v, ¬ Common c s v := by
  intro v hv
  simp only [serverReceive, request, byteAt, ne_eq, not_true_eq_false, if_false,
    List.getD_cons_zero, List.getD_cons_succ] at h
  unfold Common at hv
  simp only [UInt8.le_iff_toNat_le] at *
  by_cases h1 : c.hi.toNat ≤ s.hi.toNat <;> by_cases h2 : c.lo.toNat ≤ s.lo.toNat <;>
    simp only [h1, h2, if_true, if_false] at h <;> split at h <;>
    simp only [reduceCtorEq] at h <;> omega

/-- The server never accepts a version outside of the common interval, whatever message it gets
from the client (also a truncated or a foreign one): the accepted version is within its own
interval and within the interval the message states. -/
theorem C33_server_any_message (s : Range) (type : MsgType) (payload : List UInt8) (v : UInt8)
    (h : serverReceive s (.message type payload) = .accepted v) :
    type = .handshakeRequest ∧
      HighestCommon ⟨payload.getD 0 0, payload.getD 1 0⟩ s v := by
  have htype : type = .handshakeRequest := by
    simp only [serverReceive] at h
    split at h
    · cases h
    · rename_i hn; exact Classical.not_not.1 hn
  subst htype
  refine ⟨rfl, serverReceive_request ⟨payload.getD 0 0, payload.getD 1 0⟩ s v ?_⟩
  simpa [serverReceive, request, byteAt] using h

/-- **C33 (safety, every pair of ranges).**  If the client ends up connected then the server
accepted the same version, and it is the highest version both support. -/
theorem C33_agree (c s : Range) (lostRequest lostResponse : Bool) (v : UInt8)
    (h : (negotiate c s lostRequest lostResponse).2 = .accepted v) :
    (negotiate c s lostRequest lostResponse).1 = .accepted v ∧ HighestCommon c s v := by
  cases lostResponse with
  | true => simp [negotiate, clientReceive] at h
  | false =>
    cases lostRequest with
    | true => simp [negotiate, clientReceive, serverReceive, reply] at h
    | false =>
      simp only [negotiate, Bool.false_eq_true, if_false] at h ⊢
      cases hs : serverReceive s (request c) with
      | failed => simp [hs, reply, clientReceive] at h
      | accepted w =>
        have hw := serverReceive_request c s w hs
        simp only [hs, reply, clientReceive, byteAt, ne_eq, not_true_eq_false, if_false,
          List.getD_cons_zero] at h
        split at h
        · cases h; exact ⟨rfl, hw⟩
        · cases h

example : (negotiate ⟨1, 1⟩ ⟨1, 3⟩ false false).2 = .accepted 1 := by decide

/-- **C33 (failure, every pair of ranges).**  Without a common version both peers fail. -/
theorem C33_no_common_fails (c s : Range) (lostRequest lostResponse : Bool)
    (h : ∀ v, ¬ Common c s v) :
    negotiate c s lostRequest lostResponse = (.failed, .failed) := by
  have hs : serverReceive s (if lostRequest then .error else request c) = .failed := by
    cases lostRequest with
    | true => rfl
    | false =>
      cases hs : serverReceive s (request c) with
      | failed => simpa using hs
      | accepted w => exact absurd (serverReceive_request c s w hs).1 (h w)
  unfold negotiate
  simp only [hs, reply]
  cases lostResponse <;> rfl

example : ∀ v, ¬ Common ⟨3, 4⟩ ⟨1, 2⟩ v := by
  intro v hv
  simp only [Common, UInt8.le_iff_toNat_le] at hv
  simp at hv
  omega

/-- The server alone behaves as specified for every pair of ranges: it accepts exactly when a
common version exists, and then picks the highest one. -/
theorem C33_server_complete (c s : Range) :
    (∃ v, serverReceive s (request c) = .accepted v) ↔ ∃ v, Common c s v := by
  constructor
  · rintro ⟨v, hv⟩; exact ⟨v, (serverReceive_request c s v hv).1⟩
  · rintro ⟨v, hv⟩
    cases hs : serverReceive s (request c) with
    | accepted w => exact ⟨w, rfl⟩
    | failed => exact absurd hv (serverReceive_failed c s hs v)

/-- **C33 (liveness, partial).**  The handshake succeeds on the highest common version if that
version is the client's minimum.  This covers the constants of the present code. -/
theorem C33_connects_partial (c s : Range) (v : UInt8) (hv : HighestCommon c s v)
    (hlo : v = c.lo) : negotiate c s false false = (.accepted v, .accepted v) := by
  obtain ⟨w, hw⟩ := (C33_server_complete c s).2 ⟨v, hv.1⟩
  have hwc := serverReceive_request c s w hw
  have hvw : w = v := by
    have h1 := hv.2 w hwc.1
    have h2 := hwc.2 v hv.1
    exact UInt8.le_antisymm h1 h2
  subst hvw
  simp [negotiate, hw, reply, clientReceive, byteAt, hlo]

/-- With the constants of the present code, a handshake on a working transport succeeds. -/
theorem C33_present : negotiate present present false false = (.accepted 1, .accepted 1) := by
  refine C33_connects_partial present present 1 ⟨?_, ?_⟩ rfl
  · unfold Common present; decide
  · intro w hw; exact hw.2.1

/-- **C33 is violated for wider ranges**: both peers support versions 1 and 2.  The server accepts
version 2 and regards the connection as established, the client rejects the answer because it
compares with its minimum twice (`client_session_impl_v1.cpp` L313-314). -/
theorem C33_violated_wide_range :
    HighestCommon ⟨1, 2⟩ ⟨1, 2⟩ 2 ∧
      negotiate ⟨1, 2⟩ ⟨1, 2⟩ false false = (.accepted 2, .failed) := by
  refine ⟨⟨by unfold Common; decide, fun w hw => hw.2.1⟩, by decide⟩

/-- In general: whenever the highest common version is above the client's minimum the client
refuses to connect although the server accepts. -/
theorem C33_violated_whenever_above_minimum (c s : Range) (v : UInt8)
    (hv : HighestCommon c s v) (hlo : v ≠ c.lo) :
    negotiate c s false false = (.accepted v, .failed) := by
  obtain ⟨w, hw⟩ := (C33_server_complete c s).2 ⟨v, hv.1⟩
  have hwc := serverReceive_request c s w hw
  have hvw : w = v := UInt8.le_antisymm (hv.2 w hwc.1) (hwc.2 v hv.1)
  subst hvw
  have hne : ¬ (c.lo ≤ w ∧ w ≤ c.lo) := fun h => hlo (UInt8.le_antisymm h.2 h.1)
  simp only [negotiate, hw, reply, clientReceive, byteAt, List.getD_cons_zero, ne_eq,
    not_true_eq_false, if_false, Bool.false_eq_true]
  rw [if_neg hne]

end Ecal.Service.Handshake
