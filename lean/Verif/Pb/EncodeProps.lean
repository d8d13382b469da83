import Verif.Pb.EncodeLemmas
import Verif.Pb.DecodeProps
import Verif.Wire.MessageProps
import Verif.Wire.MonitoringProps

/-!
# C120: the encoder writes exactly the message, inside of the buffer it was given

The serialising functions count the bytes of a message with a first pass over the field tables,
make the target that large and write with a second pass.  For every message the two passes agree,
no byte outside of the target is written, all of its former content is replaced, and what is in it
is the serialisation of the message format.
-/

namespace Ecal.Pb

open Ecal.Wire

/-- Samples with payload. -/
theorem C120_payload (m : PayloadSample) (old : Bytes) (h : (serializePayload m).length < 2 ^ 64) :
    payloadW m old = .ok (serializePayload m) := encodeBuffer_eq payload_enc m old h

/-- Registration samples. -/
theorem C120_registration (m : RegSample) (old : Bytes) (h : (serializeReg m).length < 2 ^ 64) :
    regW m old = .ok (serializeReg m) := encodeBuffer_eq reg_enc (.ofSample m) old h

/-- Lists of registration samples. -/
theorem C120_registration_list (m : List RegSample) (old : Bytes) (h : (serializeRegList m).length < 2 ^ 64) :
    regListW m old = .ok (serializeRegList m) := by
  have e := serializeRegList_eq m
  rw [e] at h ⊢
  exact encodeBuffer_eq regList_enc m old h

/-- Service requests. -/
theorem C120_request (m : Request) (old : Bytes) (h : (serializeRequest m).length < 2 ^ 64) :
    requestW m old = .ok (serializeRequest m) := encodeBuffer_eq request_enc m old h

/-- Service responses. -/
theorem C120_response (m : Response) (old : Bytes) (h : (serializeResponse m).length < 2 ^ 64) :
    responseW m old = .ok (serializeResponse m) := encodeBuffer_eq response_enc m old h

/-- Log messages. -/
theorem C120_log (m : LogMsg) (old : Bytes) (h : (serializeLog m).length < 2 ^ 64) :
    logW m old = .ok (serializeLog m) := encodeBuffer_eq log_enc m old h

/-- Lists of log messages. -/
theorem C120_log_list (m : List LogMsg) (old : Bytes) (h : (serializeLogList m).length < 2 ^ 64) :
    logListW m old = .ok (serializeLogList m) := encodeBuffer_eq logList_enc m old h

/-- Monitoring snapshots. -/
theorem C120_monitoring (m : Snapshot) (old : Bytes) (h : (serializeMon m).length < 2 ^ 64) :
    monW m old = .ok (serializeMon m) := encodeBuffer_eq mon_enc m old h

/-- What writing into a window of `size` bytes, somewhere in a memory, has to do: the message if it
fits, with the rest of the memory untouched, else a refusal. -/
def InWindow {α} (fs : List (EField α)) (bytes : α → Bytes) : Prop :=
  ∀ (m : α) (before window after : Bytes), (bytes m).length < 2 ^ 64 →
    ((bytes m).length ≤ window.length →
      ∃ s, encodeMsg fs m (fromBuffer (before ++ window ++ after) before.length window.length) = .ok s ∧
        s.buf = before ++ (bytes m ++ window.drop (bytes m).length) ++ after ∧ s.written = (bytes m).length) ∧
    (window.length < (bytes m).length →
      encodeMsg fs m (fromBuffer (before ++ window ++ after) before.length window.length) = .err)

theorem inWindow {α} {es : List (EField α)} {fs : List (Field α)} (h : EncList es fs) : InWindow es (encode fs) := by
  intro m before window after hl
  have hwf : (fromBuffer (before ++ window ++ after) before.length window.length).Wf := by
    intro _
    simp only [fromBuffer, List.length_append]
    omega
  have e := encodeMsg_emits h m _ hwf (by simp only [fromBuffer]; omega)
  refine ⟨fun hfit => ⟨_, by rw [e, emit, if_pos (by rfl), if_pos (by simp only [fromBuffer]; omega)], ?_, ?_⟩,
    fun hbig => ?_⟩
  · simp only [fromBuffer, overwrite]
    rw [List.append_assoc before window after, List.take_left, List.drop_length_add_append,
      List.drop_append_of_le_length hfit]
    simp [List.append_assoc]
  · simp [fromBuffer]
  · rw [e, emit, if_pos (by rfl), if_neg (by simp only [fromBuffer]; omega)]

/-- A buffer of any size: all eight tables. -/
theorem C120_window :
    InWindow payloadE serializePayload ∧ InWindow regE (fun m => encode (regL.map (·.field)) m) ∧
    InWindow regListE serializeRegList ∧ InWindow requestE serializeRequest ∧ InWindow responseE serializeResponse ∧
    InWindow logE serializeLog ∧ InWindow logListE serializeLogList ∧ InWindow monE serializeMon := by
  refine ⟨inWindow payload_enc, inWindow reg_enc, ?_, inWindow request_enc, inWindow response_enc,
    inWindow log_enc, inWindow logList_enc, inWindow mon_enc⟩
  have e : serializeRegList = _ := funext serializeRegList_eq
  rw [e]
  exact inWindow regList_enc

/-! ### There and back: the encoder's bytes, received somewhere in a memory -/

theorem window_mid (before b after : Bytes) : ((before ++ b ++ after).drop before.length).take b.length = b := by
  simp [List.append_assoc]

theorem window_bound (before b after : Bytes) : before.length + b.length ≤ (before ++ b ++ after).length := by
  simp only [List.length_append]; omega

/-- A sample with payload arrives as it was sent. -/
theorem C120_payload_roundtrip (m : PayloadSample) (old before after : Bytes)
    (h : (serializePayload m).length < 2 ^ 32) :
    ∃ b, payloadW m old = .ok b ∧ payloadC {} (before ++ b ++ after) before.length b.length = .ok m := by
  refine ⟨_, C120_payload m old (by omega), ?_⟩
  rw [C119_payload _ _ _ _ (window_bound _ _ _), window_mid, C27_roundtrip m h]; rfl

/-- A registration of a publisher or subscriber arrives as it was sent. -/
theorem C120_registration_roundtrip (m : RegSample) (old before after : Bytes)
    (hk : m.cmd = 2 ∨ m.cmd = 12 ∨ m.cmd = 3 ∨ m.cmd = 13) (hattr : IsMap m.topic.attr)
    (ho : m.osname = []) (he : m.process = {} ∧ m.service = {} ∧ m.client = {})
    (h : (serializeReg m).length < 2 ^ 32) :
    ∃ b, regW m old = .ok b ∧ regC {} (before ++ b ++ after) before.length b.length = .ok m := by
  refine ⟨_, C120_registration m old (by omega), ?_⟩
  rw [C119_registration _ _ _ _ (window_bound _ _ _), window_mid, C28_topic_complete m hk hattr h ho he]; rfl

/-- Service requests and responses arrive as they were sent. -/
theorem C120_service_roundtrip (q : Request) (a : Response) (old before after : Bytes)
    (hq : (serializeRequest q).length < 2 ^ 32) (ha : (serializeResponse a).length < 2 ^ 32) :
    (∃ b, requestW q old = .ok b ∧ requestC {} (before ++ b ++ after) before.length b.length = .ok q) ∧
    (∃ b, responseW a old = .ok b ∧ responseC {} (before ++ b ++ after) before.length b.length = .ok a) := by
  refine ⟨⟨_, C120_request q old (by omega), ?_⟩, ⟨_, C120_response a old (by omega), ?_⟩⟩
  · rw [C119_request _ _ _ _ (window_bound _ _ _), window_mid, C29_request_roundtrip q hq]; rfl
  · rw [C119_response _ _ _ _ (window_bound _ _ _), window_mid, C29_response_roundtrip a ha]; rfl

/-- A non-empty list of log messages arrives as it was sent. -/
theorem C120_log_roundtrip (l : List LogMsg) (old before after : Bytes) (h0 : l ≠ [])
    (h : (serializeLogList l).length < 2 ^ 32) :
    ∃ b, logListW l old = .ok b ∧ logListC [] (before ++ b ++ after) before.length b.length = .ok l := by
  refine ⟨_, C120_log_list l old (by omega), ?_⟩
  rw [C119_log_list _ _ _ _ (window_bound _ _ _), window_mid, C30_list_roundtrip l [] h0 h]; rfl

/-! ### Examples -/

example : (serializeRequest someRequest).length < 2 ^ 32 := by decide +kernel

/-- The target was larger before: it is cut to the size of the message. -/
example : requestW someRequest [9, 9, 9, 9, 9, 9, 9, 9, 9, 9, 9, 9, 9, 9, 9, 9, 9, 9] =
    .ok [0x0a, 8, 0x12, 1, 77, 0x1a, 1, 109, 0x28, 3, 0x12, 3, 1, 2, 3] := by decide +kernel

/-- One byte too small: refused, and inside of the memory. -/
example : encodeMsg logE { time := 300, hname := [104] } (fromBuffer [7, 7, 7, 7, 7, 7] 0 5) = .err := by
  decide +kernel

/-- The same message into a window of exactly its size. -/
example : encodeMsg logE { time := 300, hname := [104] } (fromBuffer [7, 7, 7, 7, 7, 7, 7, 7] 1 6) =
    .ok { writing := true, buf := [7, 0x08, 0xac, 2, 0x12, 1, 104, 7], pos := 7, max := 6, written := 6 } := by
  decide +kernel

/-- A stream that announces more memory than there is would be written beyond its end. -/
example : encodeMsg logE { time := 300, hname := [104] } (fromBuffer [7, 7, 7, 7] 0 6) = .ub := by decide +kernel

end Ecal.Pb
