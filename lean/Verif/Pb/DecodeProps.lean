import Verif.Pb.TableLemmas
import Verif.Wire.PayloadProps
import Verif.Wire.RegistrationProps

/-!
# C119: no received bytes make the decoder read outside of the message

The bytes of a received message are `len` bytes at position `off` of some memory.  The result of
each of the eight decoding functions of the library is what the message format says about exactly
these bytes; in particular it is never an access outside of them (`ub`), never endless (`stuck`)
and independent of the rest of the memory – for arbitrary, also damaged or malicious, bytes.
-/

namespace Ecal.Pb

open Ecal.Wire

/-- What a decoding function has to return, given what the format says. -/
def expected {α} : Option α → Res α
  | none => .err
  | some m => .ok m

theorem expected_not_ub {α} (o : Option α) : expected o ≠ .ub := by cases o <;> simp [expected]
theorem expected_not_stuck {α} (o : Option α) : expected o ≠ .stuck := by cases o <;> simp [expected]

theorem window_nil {mem : Bytes} {off len : Nat} (h : off + len ≤ mem.length) :
    ((mem.drop off).take len = []) ↔ len = 0 := by
  rw [← List.length_eq_zero_iff, List.length_take, List.length_drop]
  omega

theorem buffer_expected {α} {pfs : List (PbField α)} {fs : List (Field α)} (href : RefList pfs fs)
    (hs : Sorted fs) (mem : Bytes) (off len : Nat) (h : off + len ≤ mem.length) (st : α) :
    decodeBuffer pfs mem off len st =
      expected (if (mem.drop off).take len = [] then none else decode fs st ((mem.drop off).take len)) := by
  rw [decodeBuffer_eq href hs mem off len h st]
  by_cases h0 : len = 0
  · rw [if_pos h0, if_pos ((window_nil h).2 h0)]; rfl
  · rw [if_neg h0, if_neg (fun e => h0 ((window_nil h).1 e))]
    cases decode fs st ((mem.drop off).take len) <;> rfl

/-- Samples with payload (UDP datagrams, TCP headers). -/
theorem C119_payload (target : PayloadSample) (mem : Bytes) (off len : Nat) (h : off + len ≤ mem.length) :
    payloadC target mem off len = expected (deserializePayload target ((mem.drop off).take len)) :=
  buffer_expected payload_ref (by decide) mem off len h _

/-- Registration samples. -/
theorem C119_registration (target : RegSample) (mem : Bytes) (off len : Nat) (h : off + len ≤ mem.length) :
    regC target mem off len = expected (deserializeReg target ((mem.drop off).take len)) := by
  unfold regC deserializeReg
  rw [buffer_expected reg_ref (by decide) mem off len h]
  by_cases h0 : (mem.drop off).take len = []
  · rw [if_pos h0, if_pos h0]; rfl
  · rw [if_neg h0, if_neg h0]
    cases decode (regL.map (·.field)) (.prepared target) ((mem.drop off).take len) <;> rfl

/-- Lists of registration samples (shared memory registration). -/
theorem C119_registration_list (target : List RegSample) (mem : Bytes) (off len : Nat)
    (h : off + len ≤ mem.length) :
    regListC target mem off len = expected (deserializeRegList target ((mem.drop off).take len)) :=
  buffer_expected regList_ref (by decide) mem off len h _

/-- Service requests. -/
theorem C119_request (target : Request) (mem : Bytes) (off len : Nat) (h : off + len ≤ mem.length) :
    requestC target mem off len = expected (deserializeRequest target ((mem.drop off).take len)) :=
  buffer_expected request_ref (by decide) mem off len h _

/-- Service responses. -/
theorem C119_response (target : Response) (mem : Bytes) (off len : Nat) (h : off + len ≤ mem.length) :
    responseC target mem off len = expected (deserializeResponse target ((mem.drop off).take len)) :=
  buffer_expected response_ref (by decide) mem off len h _

/-- Log messages. -/
theorem C119_log (target : LogMsg) (mem : Bytes) (off len : Nat) (h : off + len ≤ mem.length) :
    logC target mem off len = expected (deserializeLog target ((mem.drop off).take len)) :=
  buffer_expected log_ref (by decide) mem off len h _

/-- Lists of log messages. -/
theorem C119_log_list (target : List LogMsg) (mem : Bytes) (off len : Nat) (h : off + len ≤ mem.length) :
    logListC target mem off len = expected (deserializeLogList target ((mem.drop off).take len)) :=
  buffer_expected logList_ref (by decide) mem off len h _

/-- Monitoring snapshots. -/
theorem C119_monitoring (target : Snapshot) (mem : Bytes) (off len : Nat) (h : off + len ≤ mem.length) :
    monC target mem off len = expected (deserializeMon target ((mem.drop off).take len)) :=
  buffer_expected mon_ref (by decide) mem off len h _

/-- Memory safety and termination, for all eight functions and arbitrary bytes. -/
theorem C119_safe (mem : Bytes) (off len : Nat) (h : off + len ≤ mem.length) (p : PayloadSample) (r : RegSample)
    (l : List RegSample) (q : Request) (a : Response) (g : LogMsg) (gs : List LogMsg) (s : Snapshot) :
    (payloadC p mem off len ≠ .ub ∧ payloadC p mem off len ≠ .stuck) ∧
    (regC r mem off len ≠ .ub ∧ regC r mem off len ≠ .stuck) ∧
    (regListC l mem off len ≠ .ub ∧ regListC l mem off len ≠ .stuck) ∧
    (requestC q mem off len ≠ .ub ∧ requestC q mem off len ≠ .stuck) ∧
    (responseC a mem off len ≠ .ub ∧ responseC a mem off len ≠ .stuck) ∧
    (logC g mem off len ≠ .ub ∧ logC g mem off len ≠ .stuck) ∧
    (logListC gs mem off len ≠ .ub ∧ logListC gs mem off len ≠ .stuck) ∧
    (monC s mem off len ≠ .ub ∧ monC s mem off len ≠ .stuck) := by
  rw [C119_payload p mem off len h, C119_registration r mem off len h, C119_registration_list l mem off len h,
    C119_request q mem off len h, C119_response a mem off len h, C119_log g mem off len h,
    C119_log_list gs mem off len h, C119_monitoring s mem off len h]
  exact ⟨⟨expected_not_ub _, expected_not_stuck _⟩, ⟨expected_not_ub _, expected_not_stuck _⟩,
    ⟨expected_not_ub _, expected_not_stuck _⟩, ⟨expected_not_ub _, expected_not_stuck _⟩,
    ⟨expected_not_ub _, expected_not_stuck _⟩, ⟨expected_not_ub _, expected_not_stuck _⟩,
    ⟨expected_not_ub _, expected_not_stuck _⟩, ⟨expected_not_ub _, expected_not_stuck _⟩⟩

/-- The bytes around the message do not matter: a registration sample read from two memories that
agree on the message gives the same result. -/
theorem C119_neighbours (target : RegSample) (msg before after before' after' : Bytes) :
    regC target (before ++ msg ++ after) before.length msg.length =
      regC target (before' ++ msg ++ after') before'.length msg.length := by
  rw [C119_registration _ _ _ _ (by simp only [List.length_append]; omega),
    C119_registration _ _ _ _ (by simp only [List.length_append]; omega)]
  simp [List.append_assoc]

/-! ### Examples -/

/-- A request of a service, with bytes around it. -/
def someRequest : Request := { header := { sname := [77], mname := [109], id := 3 }, request := [1, 2, 3] }

example :
    requestC {} ([0xff, 0xff] ++ serializeRequest someRequest ++ [0xff]) 2 (serializeRequest someRequest).length =
      .ok someRequest := by decide +kernel

/-- Length prefix larger than the message: refused. -/
example : requestC {} [0x12, 0x7f, 1, 2, 3] 0 5 = .err := by decide +kernel

/-- A sub-message reaching beyond its parent: refused. -/
example : requestC {} [0x0a, 0x03, 0x0a, 0x04, 65, 66, 67, 68] 0 8 = .err := by decide +kernel

/-- Unterminated varint: refused. -/
example : logC {} [0x08, 0xff, 0xff] 0 3 = .err := by decide +kernel

/-- Without the assumption the decoder would read beyond the memory. -/
example : logC {} [0x08] 0 2 = .ub := by decide +kernel

end Ecal.Pb
