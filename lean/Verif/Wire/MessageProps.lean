import Verif.Wire.Service
import Verif.Wire.Log

/-!
# C29: service requests and responses round-trip; C30: log messages round-trip
-/

namespace Ecal.Wire

/-! ### Generic facts -/

theorem encode_ne_nil {α} (c : Codec α) (m : α) (f : Field α) (hf : f ∈ c) (h : f.enc m ≠ []) :
    encode c m ≠ [] := by
  intro he
  unfold encode at he
  have : rawOf c m ≠ [] := by
    intro hr
    unfold rawOf at hr
    rw [List.flatMap_eq_nil_iff] at hr
    exact h (List.map_eq_nil_iff.1 (hr f hf))
  cases hr : rawOf c m with
  | nil => exact this hr
  | cons p l =>
    rw [hr] at he
    have h1 := writeField_length_pos p
    have h2 := congrArg List.length he
    rw [writeAll, List.flatMap_cons, List.length_append, List.length_nil] at h2
    omega

/-! ### C29 -/

theorem requestHeader_ok (m : Request) : ∀ f ∈ requestHeaderL, f.Ok m := by
  unfold requestHeaderL serviceHeaderL; table_ok

theorem responseHeader_ok (m : Response) : ∀ f ∈ responseHeaderL, f.Ok m := by
  unfold responseHeaderL serviceHeaderL; table_ok

theorem request_ok (m : Request) : ∀ f ∈ requestL, f.Ok m := by
  unfold requestL
  refine List.forall_mem_cons.2 ⟨subL_ok _ _ _ _ (by decide +kernel) (requestHeader_ok m), ?_⟩
  table_ok

theorem response_ok (m : Response) : ∀ f ∈ responseL, f.Ok m := by
  unfold responseL
  refine List.forall_mem_cons.2 ⟨subL_ok _ _ _ _ (by decide +kernel) (responseHeader_ok m), ?_⟩
  table_ok

theorem serializeRequest_ne_nil (m : Request) : serializeRequest m ≠ [] :=
  encode_ne_nil _ m _ (List.mem_map_of_mem (List.mem_cons_self)) (by simp [subL, subF])

theorem serializeResponse_ne_nil (m : Response) : serializeResponse m ≠ [] :=
  encode_ne_nil _ m _ (List.mem_map_of_mem (List.mem_cons_self)) (by simp [subL, subF])

/-- **C29.** Every request below 4 GiB is received unchanged. -/
theorem C29_request_roundtrip (m : Request) (hl : (serializeRequest m).length < 2 ^ 32) :
    deserializeRequest {} (serializeRequest m) = some m := by
  unfold deserializeRequest
  rw [if_neg (serializeRequest_ne_nil m)]
  have := decode_encode requestL m {} (by decide +kernel) (request_ok m) hl
  refine this.trans (congrArg some ?_)
  have : puts requestL m {} =
      { header := { hname := orElse [] m.header.hname [], sname := orElse [] m.header.sname [],
                    sid := orElse [] m.header.sid [], mname := orElse [] m.header.mname [],
                    error := orElse [] m.header.error [], id := orElse 0 m.header.id 0,
                    state := orElse 0 m.header.state 0 },
        request := orElse [] m.request [] } := rfl
  rw [this]
  simp

/-- **C29.** Every response below 4 GiB is received unchanged. -/
theorem C29_response_roundtrip (m : Response) (hl : (serializeResponse m).length < 2 ^ 32) :
    deserializeResponse {} (serializeResponse m) = some m := by
  unfold deserializeResponse
  rw [if_neg (serializeResponse_ne_nil m)]
  have := decode_encode responseL m {} (by decide +kernel) (response_ok m) hl
  refine this.trans (congrArg some ?_)
  have : puts responseL m {} =
      { header := { hname := orElse [] m.header.hname [], sname := orElse [] m.header.sname [],
                    sid := orElse [] m.header.sid [], mname := orElse [] m.header.mname [],
                    error := orElse [] m.header.error [], id := orElse 0 m.header.id 0,
                    state := orElse 0 m.header.state 0 },
        response := orElse [] m.response [], retState := orElse 0 m.retState 0 } := rfl
  rw [this]
  simp

/-- **C29.** A response decoded into a used object: all numbers are those of the message; a text that is empty
in the message keeps the old content of the object (the caller must hand in a fresh object). -/
theorem C29_response_reuse_partial (m t : Response) (hl : (serializeResponse m).length < 2 ^ 32) :
    ∃ r, deserializeResponse t (serializeResponse m) = some r ∧
      r.header.id = m.header.id ∧ r.header.state = m.header.state ∧ r.retState = m.retState ∧
      r.response = (if m.response = [] then t.response else m.response) ∧
      r.header.error = (if m.header.error = [] then t.header.error else m.header.error) ∧
      r.header.sname = (if m.header.sname = [] then t.header.sname else m.header.sname) ∧
      r.header.mname = (if m.header.mname = [] then t.header.mname else m.header.mname) := by
  unfold deserializeResponse
  rw [if_neg (serializeResponse_ne_nil m)]
  refine ⟨_, decode_encode responseL m _ (by decide +kernel) (response_ok m) hl, ?_⟩
  refine ⟨?_, ?_, ?_, rfl, rfl, rfl, rfl⟩
  · exact orElse_default (0 : BitVec 32) m.header.id
  · exact orElse_default (0 : BitVec 32) m.header.state
  · exact orElse_default (0 : BitVec 64) m.retState

/-- **C29.** The same for requests. -/
theorem C29_request_reuse_partial (m t : Request) (hl : (serializeRequest m).length < 2 ^ 32) :
    ∃ r, deserializeRequest t (serializeRequest m) = some r ∧
      r.header.id = m.header.id ∧ r.header.state = m.header.state ∧
      r.request = (if m.request = [] then t.request else m.request) ∧
      r.header.sname = (if m.header.sname = [] then t.header.sname else m.header.sname) ∧
      r.header.mname = (if m.header.mname = [] then t.header.mname else m.header.mname) := by
  unfold deserializeRequest
  rw [if_neg (serializeRequest_ne_nil m)]
  refine ⟨_, decode_encode requestL m _ (by decide +kernel) (request_ok m) hl, ?_⟩
  refine ⟨?_, ?_, rfl, rfl, rfl⟩
  · exact orElse_default (0 : BitVec 32) m.header.id
  · exact orElse_default (0 : BitVec 32) m.header.state

/-- **C29**, why a fresh object is needed: the error text of an earlier response survives. -/
theorem C29_reused_object_witness :
    (deserializeResponse { header := { error := [101] } } (serializeResponse { retState := 7 })).map
      (fun r => r.header.error) = some [101] := by decide +kernel

/-- An empty buffer is never a request or response. -/
theorem C29_empty_rejected (t : Request) (u : Response) :
    deserializeRequest t [] = none ∧ deserializeResponse u [] = none := by
  simp [deserializeRequest, deserializeResponse]

example : (serializeRequest { header := { sname := [97], id := -5, state := 2 }, request := [1, 2] }).length < 2 ^ 32 := by
  decide +kernel

/-! ### C30 -/

theorem log_ok (m : LogMsg) : ∀ f ∈ logL, f.Ok m := by
  unfold logL; table_ok

theorem log_puts (m : LogMsg) : puts logL m {} = m := by
  have : puts logL m {} =
      { time := orElse 0 m.time 0, hname := orElse [] m.hname [], pid := orElse 0 m.pid 0,
        pname := orElse [] m.pname [], uname := orElse [] m.uname [], level := orElse 0 m.level 0,
        content := orElse [] m.content [] } := rfl
  rw [this]
  simp

theorem serializeLog_nil (m : LogMsg) : serializeLog m = [] ↔ m = {} := by
  constructor
  · intro h
    have := decode_encode logL m {} (by decide +kernel) (log_ok m) (by
      rw [show encode (logL.map (·.field)) m = [] from h]; decide)
    rw [show encode (logL.map (·.field)) m = [] from h, log_puts] at this
    have h2 : decode (logL.map (·.field)) ({} : LogMsg) [] = some {} := rfl
    rw [h2] at this
    exact (Option.some.inj this).symm
  · rintro rfl
    decide +kernel

/-- **C30.** Every log message with at least one field set is received unchanged. -/
theorem C30_log_roundtrip (m : LogMsg) (h0 : m ≠ {}) (hl : (serializeLog m).length < 2 ^ 32) :
    deserializeLog {} (serializeLog m) = some m := by
  unfold deserializeLog
  rw [if_neg (fun h => h0 ((serializeLog_nil m).1 h))]
  exact (decode_encode logL m {} (by decide +kernel) (log_ok m) hl).trans (congrArg some (log_puts m))

/-- **C30 (violated for the all-default message).** The message with no field set is
serialised to nothing and rejected by the receiver. -/
theorem C30_violated_default : deserializeLog {} (serializeLog {}) = none := by decide +kernel

theorem logList_ok (m : List LogMsg) : ∀ f ∈ logListL, f.Ok m := by
  unfold logListL
  refine List.forall_mem_cons.2 ⟨?_, fun _ h => absurd h List.not_mem_nil⟩
  exact repL_ok _ _ _ _ _ m (fun _ => rfl) (fun _ _ => rfl) (fun _ _ _ => rfl) (by decide +kernel) (fun b _ => log_ok b)

/-- **C30.** Every non-empty list of log messages is appended unchanged and in order. -/
theorem C30_list_roundtrip (m target : List LogMsg) (h0 : m ≠ []) (hl : (serializeLogList m).length < 2 ^ 32) :
    deserializeLogList target (serializeLogList m) = some (target ++ m) := by
  have hne : serializeLogList m ≠ [] := by
    refine encode_ne_nil _ m _ (List.mem_map_of_mem (List.mem_cons_self)) ?_
    simp [repL, repF, h0]
  unfold deserializeLogList
  rw [if_neg hne]
  refine (decode_encode logListL m target (by decide +kernel) (logList_ok m) hl).trans (congrArg some ?_)
  show target ++ m.map (fun b => puts logL b {}) = target ++ m
  rw [show (fun b => puts logL b {}) = id from funext log_puts, List.map_id]

/-- **C30 (violated for the empty list).** The empty list is rejected by the reader. -/
theorem C30_violated_empty_list : deserializeLogList [] (serializeLogList []) = none := by decide +kernel

example : ∃ m : LogMsg, m ≠ {} ∧ (serializeLog m).length < 2 ^ 32 :=
  ⟨{ time := 5, level := -1, content := [104, 105] }, by decide, by decide +kernel⟩

end Ecal.Wire
