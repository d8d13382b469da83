import Verif.Wire.Registration
import Verif.Wire.MessageProps

/-!
# C28: registration samples round-trip; C62: a batch of registrations is applied once
-/

namespace Ecal.Wire

/-! ### Maps -/

theorem bytesLt_irrefl (a : Bytes) : bytesLt a a = false := by
  induction a with
  | nil => rfl
  | cons x a ih => simp [bytesLt, ih]

theorem bytesLt_asymm : ∀ (a b : Bytes), bytesLt a b = true → bytesLt b a = false
  | [], [], h => by simp [bytesLt] at h
  | [], _ :: _, _ => rfl
  | _ :: _, [], h => by simp [bytesLt] at h
  | x :: a, y :: b, h => by
    simp only [bytesLt] at h ⊢
    by_cases h1 : x.toNat < y.toNat
    · rw [if_neg (by omega), if_pos h1]
    · rw [if_neg h1] at h
      by_cases h2 : y.toNat < x.toNat
      · simp [h2] at h
      · rw [if_neg h2] at h
        rw [if_neg h2, if_neg h1]
        exact bytesLt_asymm a b h

theorem mapInsert_last (l : List (Bytes × Bytes)) (p : Bytes × Bytes) (h : ∀ q ∈ l, bytesLt q.1 p.1 = true) :
    mapInsert l p = l ++ [p] := by
  induction l with
  | nil => rfl
  | cons q l ih =>
    have hq := h q (by simp)
    have hne : q.1 ≠ p.1 := by intro e; rw [e, bytesLt_irrefl] at hq; cases hq
    simp only [mapInsert]
    rw [if_neg hne, bytesLt_asymm _ _ hq]
    simp only [Bool.false_eq_true, if_false, List.cons_append, List.cons.injEq, true_and]
    exact ih (fun q' hq' => h q' (by simp [hq']))

/-- The entries of a `std::map` are strictly ascending. -/
def IsMap (l : List (Bytes × Bytes)) : Prop := l.Pairwise (fun p q => bytesLt p.1 q.1 = true)

theorem foldl_mapInsert (l : List (Bytes × Bytes)) (h : IsMap l) : l.foldl mapInsert [] = l := by
  suffices ∀ (acc l : List (Bytes × Bytes)), IsMap (acc ++ l) → l.foldl mapInsert acc = acc ++ l from this [] l h
  intro acc l
  induction l generalizing acc with
  | nil => intro _; simp
  | cons p l ih =>
    intro h
    have h' : ∀ q ∈ acc, bytesLt q.1 p.1 = true := by
      intro q hq
      exact (List.pairwise_append.1 h).2.2 q hq p (by simp)
    rw [List.foldl_cons, mapInsert_last acc p h', ih _ (by simpa using h)]
    simp

theorem attrEntry_ok (p : Bytes × Bytes) : ∀ f ∈ attrEntryL, f.Ok p := by
  unfold attrEntryL; table_ok

theorem mapL_ok {α} (tag : Nat) (get : α → List (Bytes × Bytes)) (set : α → List (Bytes × Bytes) → α) (m : α)
    (hs : ∀ s, set s (get s) = s) (hgs : ∀ s l, get (set s l) = l)
    (hss : ∀ s l l', set (set s l) l' = set s l') : (mapL tag get set).Ok m := by
  constructor
  · intro r hr hl
    simp only [mapL, List.mem_map] at hr
    obtain ⟨b, _, rfl⟩ := hr
    exact hl
  · intro s hl
    simp only [mapL] at hl ⊢
    generalize get m = l at hl
    induction l generalizing s with
    | nil => simp [hs]
    | cons p l ih =>
      simp only [List.map_cons, List.foldl_cons, Option.bind_some]
      have hb := hl (.len (encode (attrEntryL.map (·.field)) p)) (by simp)
      simp only [Raw.bytes] at hb
      simp only [callbackBytes_len]
      rw [decode_encode attrEntryL p ([], []) (by decide +kernel) (attrEntry_ok p) hb]
      have hp : puts attrEntryL p ([], []) = (orElse [] p.1 [], orElse [] p.2 []) := rfl
      simp only [hp, orElse_default]
      rw [ih (set s (mapInsert (get s) p))
        (fun r hr => hl r (by rw [List.map_cons]; exact List.mem_cons_of_mem _ hr))]
      rw [hgs, hss]

/-! ### Elements -/

theorem layer_ok (m : TLayer) : ∀ f ∈ layerL, f.Ok m := by
  unfold layerL
  table_ok
  refine List.forall_mem_cons.2 ⟨subL_ok _ _ _ _ (by decide +kernel) ?_, ?_⟩
  · table_ok
    refine List.forall_mem_cons.2 ⟨subL_ok _ _ _ _ (by decide +kernel) ?_, ?_⟩
    · table_ok
    refine List.forall_mem_cons.2 ⟨subL_ok _ _ _ _ (by decide +kernel) ?_, ?_⟩
    · table_ok
    table_ok
  · table_ok

theorem layer_puts (m : TLayer) : puts layerL m {} = m := by
  have : puts layerL m {} =
      { type := orElse 0 m.type 0, version := orElse 0 m.version 0, enabled := orElse false m.enabled false,
        active := orElse false m.active false, tcpPort := orElse 0 m.tcpPort 0, memfiles := [] ++ m.memfiles } := rfl
  rw [this]
  simp

theorem method_ok (m : Method) : ∀ f ∈ methodL, f.Ok m := by
  unfold methodL; table_ok

theorem method_puts (m : Method) : puts methodL m {} = m := by
  have : puts methodL m {} =
      { mname := orElse [] m.mname [], reqType := orElse [] m.reqType [], reqDesc := orElse [] m.reqDesc [],
        respType := orElse [] m.respType [], respDesc := orElse [] m.respDesc [],
        callCount := orElse 0 m.callCount 0 } := rfl
  rw [this]
  simp

/-! ### The sample -/

theorem regProcessState_ok (m : RegState) : ∀ f ∈ regProcessStateL, f.Ok m := by
  unfold regProcessStateL; simp only [pEnum, pStr]; table_ok

theorem regProcess_ok (m : RegState) : ∀ f ∈ regProcessL, f.Ok m := by
  unfold regProcessL; simp only [pEnum, pStr, pInt, hnameL]; table_ok
  refine List.forall_mem_cons.2 ⟨subL_ok _ _ _ _ (by decide +kernel) (regProcessState_ok m), ?_⟩
  table_ok

theorem regService_ok (m : RegState) : ∀ f ∈ regServiceL, f.Ok m := by
  unfold regServiceL; simp only [sUint, sStr, sInt, hnameL, entityL, sMethodsL]; table_ok
  refine List.forall_mem_cons.2 ⟨repL_ok _ _ _ _ _ m (fun _ => rfl) (fun _ _ => rfl) (fun _ _ _ => rfl)
    (by decide +kernel) (fun b _ => method_ok b), ?_⟩
  table_ok

theorem regClient_ok (m : RegState) : ∀ f ∈ regClientL, f.Ok m := by
  unfold regClientL; simp only [cUint, cStr, cInt, hnameL, entityL, cMethodsL]; table_ok
  refine List.forall_mem_cons.2 ⟨repL_ok _ _ _ _ _ m (fun _ => rfl) (fun _ _ => rfl) (fun _ _ _ => rfl)
    (by decide +kernel) (fun b _ => method_ok b), ?_⟩
  table_ok

theorem regDatatype_ok (m : RegState) : ∀ f ∈ regDatatypeL, f.Ok m := by
  unfold regDatatypeL; simp only [tStr]; table_ok

theorem regTopic_ok (m : RegState) : ∀ f ∈ regTopicL, f.Ok m := by
  unfold regTopicL; simp only [tStr, tInt, tInt64, hnameL, entityL, tLayersL, tAttrL]; table_ok
  refine List.forall_mem_cons.2 ⟨repL_ok _ _ _ _ _ m (fun _ => rfl) (fun _ _ => rfl) (fun _ _ _ => rfl)
    (by decide +kernel) (fun b _ => layer_ok b), ?_⟩
  table_ok
  refine List.forall_mem_cons.2 ⟨mapL_ok _ _ _ m (fun _ => rfl) (fun _ _ => rfl) (fun _ _ _ => rfl), ?_⟩
  table_ok
  refine List.forall_mem_cons.2 ⟨subL_ok _ _ _ _ (by decide +kernel) (regDatatype_ok m), ?_⟩
  table_ok

theorem regHost_ok (m : RegState) : ∀ f ∈ regHostL, f.Ok m := by
  unfold regHostL; table_ok

theorem reg_ok (m : RegState) : ∀ f ∈ regL, f.Ok m := by
  unfold regL
  table_ok
  refine List.forall_mem_cons.2 ⟨subL_ok _ _ _ _ (by decide +kernel) (regHost_ok m), ?_⟩
  refine List.forall_mem_cons.2 ⟨subL_ok _ _ _ _ (by decide +kernel) (regProcess_ok m), ?_⟩
  refine List.forall_mem_cons.2 ⟨subL_ok _ _ _ _ (by decide +kernel) (regService_ok m), ?_⟩
  refine List.forall_mem_cons.2 ⟨subL_ok _ _ _ _ (by decide +kernel) (regTopic_ok m), ?_⟩
  table_ok
  refine List.forall_mem_cons.2 ⟨subL_ok _ _ _ _ (by decide +kernel) (regClient_ok m), ?_⟩
  table_ok

/-! ### What a registration transmits -/

/-- The fields of a registration that reach the receiver, by command. -/
def transmitted (m : RegSample) : RegSample :=
  if m.cmd = 4 ∨ m.cmd = 14 then
    { cmd := m.cmd, hname := m.hname, hostName := m.hostName, processId := m.processId, process := m.process }
  else if m.cmd = 5 ∨ m.cmd = 15 then
    { cmd := m.cmd, hname := m.hname, hostName := m.hostName, processId := m.processId, entityId := m.entityId,
      service := m.service }
  else if m.cmd = 6 ∨ m.cmd = 16 then
    { cmd := m.cmd, hname := m.hname, hostName := m.hostName, processId := m.processId, entityId := m.entityId,
      client := m.client }
  else if m.cmd = 2 ∨ m.cmd = 12 ∨ m.cmd = 3 ∨ m.cmd = 13 then
    { cmd := m.cmd, hname := m.hname, hostName := m.hostName, processId := m.processId, entityId := m.entityId,
      topic := m.topic }
  else { cmd := m.cmd, hname := m.hname }

theorem partOf_cases (c : BitVec 32) :
    (partOf c = .process ∧ (c = 4 ∨ c = 14)) ∨ (partOf c = .service ∧ (c = 5 ∨ c = 15)) ∨
    (partOf c = .client ∧ (c = 6 ∨ c = 16)) ∨ (partOf c = .topic ∧ (c = 2 ∨ c = 12 ∨ c = 3 ∨ c = 13)) ∨
    (partOf c = .nothing ∧ ¬ (c = 4 ∨ c = 14) ∧ ¬ (c = 5 ∨ c = 15) ∧ ¬ (c = 6 ∨ c = 16) ∧
      ¬ (c = 2 ∨ c = 12 ∨ c = 3 ∨ c = 13)) := by
  have key : ∀ k : Nat, k < 2 ^ 32 → (c = BitVec.ofNat 32 k ↔ c.toNat = k) := by
    intro k hk
    constructor
    · rintro rfl; simp; omega
    · intro h; apply BitVec.eq_of_toNat_eq; simp; omega
  have e : ∀ k : Nat, k < 2 ^ 32 → (c = (OfNat.ofNat k : BitVec 32) ↔ c.toNat = k) := key
  have h4 := e 4 (by decide); have h14 := e 14 (by decide)
  have h5 := e 5 (by decide); have h15 := e 15 (by decide)
  have h6 := e 6 (by decide); have h16 := e 16 (by decide)
  have h2 := e 2 (by decide); have h12 := e 12 (by decide)
  have h3 := e 3 (by decide); have h13 := e 13 (by decide)
  unfold partOf
  split <;> simp_all

theorem reg_transfer (m : RegSample) (hattr : IsMap m.topic.attr) :
    assignValues {} (puts regL (.ofSample m) (.prepared {})) = transmitted m := by
  have hl : m.topic.tlayer.map (fun b => puts layerL b {}) = m.topic.tlayer := by
    rw [show (fun b => puts layerL b {}) = id from funext layer_puts, List.map_id]
  have hms : m.service.methods.map (fun b => puts methodL b {}) = m.service.methods := by
    rw [show (fun b => puts methodL b {}) = id from funext method_puts, List.map_id]
  have hmc : m.client.methods.map (fun b => puts methodL b {}) = m.client.methods := by
    rw [show (fun b => puts methodL b {}) = id from funext method_puts, List.map_id]
  have hat := foldl_mapInsert _ hattr
  rcases partOf_cases m.cmd with ⟨hp, hc⟩ | ⟨hp, hc⟩ | ⟨hp, hc⟩ | ⟨hp, hc⟩ | ⟨hp, hc⟩
  · have hput : puts regL (.ofSample m) (.prepared {}) = { s := { cmd := orElse 0 m.cmd 0, hname := orElse [] m.hname [], hostName := orElse [] m.hostName [], process := { rclock := orElse 0 m.process.rclock 0, severity := orElse 0 m.process.severity 0, severityLevel := orElse 0 m.process.severityLevel 0, tsyncState := orElse 0 m.process.tsyncState 0, initState := orElse 0 m.process.initState 0, hgname := orElse [] m.process.hgname [], pname := orElse [] m.process.pname [], uname := orElse [] m.process.uname [], pparam := orElse [] m.process.pparam [], info := orElse [] m.process.info [], tsyncModName := orElse [] m.process.tsyncModName [], initInfo := orElse [] m.process.initInfo [], version := orElse [] m.process.version [] } }, pidP := orElse 0 m.processId 0 } := by
      simp only [puts, regL, List.foldl_cons, List.foldl_nil, subL, dropSubL, ignoredL, RegState.ofSample, hp,
        reduceCtorEq, beq_iff_eq, if_true, if_false, Bool.false_eq_true]
      rfl
    rw [hput]
    simp only [orElse_default, assignValues, hp]
    unfold transmitted
    rw [if_pos hc]
    rfl
  · have hput : puts regL (.ofSample m) (.prepared {}) = { s := { cmd := orElse 0 m.cmd 0, hname := orElse [] m.hname [], hostName := orElse [] m.hostName [], entityId := orElse [] m.entityId [], service := { rclock := orElse 0 m.service.rclock 0, version := orElse 0 m.service.version 0, portV0 := orElse 0 m.service.portV0 0, portV1 := orElse 0 m.service.portV1 0, pname := orElse [] m.service.pname [], uname := orElse [] m.service.uname [], sname := orElse [] m.service.sname [], methods := [] ++ m.service.methods.map (fun b => puts methodL b {}) } }, pidS := orElse 0 m.processId 0 } := by
      simp only [puts, regL, List.foldl_cons, List.foldl_nil, subL, dropSubL, ignoredL, RegState.ofSample, hp,
        reduceCtorEq, beq_iff_eq, if_true, if_false, Bool.false_eq_true]
      rfl
    rw [hput]
    simp only [orElse_default, assignValues, hp, hms, List.nil_append]
    unfold transmitted
    rw [if_neg (by rcases hc with h | h <;> rw [h] <;> decide)]
    rw [if_pos hc]
    rfl
  · have hput : puts regL (.ofSample m) (.prepared {}) = { s := { cmd := orElse 0 m.cmd 0, hname := orElse [] m.hname [], hostName := orElse [] m.hostName [], entityId := orElse [] m.entityId [], client := { rclock := orElse 0 m.client.rclock 0, version := orElse 0 m.client.version 0, pname := orElse [] m.client.pname [], uname := orElse [] m.client.uname [], sname := orElse [] m.client.sname [], methods := [] ++ m.client.methods.map (fun b => puts methodL b {}) } }, pidC := orElse 0 m.processId 0 } := by
      simp only [puts, regL, List.foldl_cons, List.foldl_nil, subL, dropSubL, ignoredL, RegState.ofSample, hp,
        reduceCtorEq, beq_iff_eq, if_true, if_false, Bool.false_eq_true]
      rfl
    rw [hput]
    simp only [orElse_default, assignValues, hp, hmc, List.nil_append]
    unfold transmitted
    rw [if_neg (by rcases hc with h | h <;> rw [h] <;> decide)]
    rw [if_neg (by rcases hc with h | h <;> rw [h] <;> decide)]
    rw [if_pos hc]
    rfl
  · have hput : puts regL (.ofSample m) (.prepared {}) = { s := { cmd := orElse 0 m.cmd 0, hname := orElse [] m.hname [], hostName := orElse [] m.hostName [], entityId := orElse [] m.entityId [], topic := { rclock := orElse 0 m.topic.rclock 0, tsize := orElse 0 m.topic.tsize 0, connLoc := orElse 0 m.topic.connLoc 0, connExt := orElse 0 m.topic.connExt 0, drops := orElse 0 m.topic.drops 0, did := orElse 0 m.topic.did 0, dclock := orElse 0 m.topic.dclock 0, dfreq := orElse 0 m.topic.dfreq 0, hgname := orElse [] m.topic.hgname [], pname := orElse [] m.topic.pname [], uname := orElse [] m.topic.uname [], tname := orElse [] m.topic.tname [], direction := orElse [] m.topic.direction [], dtName := orElse [] m.topic.dtName [], dtEnc := orElse [] m.topic.dtEnc [], dtDesc := orElse [] m.topic.dtDesc [], tlayer := [] ++ m.topic.tlayer.map (fun b => puts layerL b {}), attr := m.topic.attr.foldl mapInsert [] } }, pidT := orElse 0 m.processId 0 } := by
      simp only [puts, regL, List.foldl_cons, List.foldl_nil, subL, dropSubL, ignoredL, RegState.ofSample, hp,
        reduceCtorEq, beq_iff_eq, if_true, if_false, Bool.false_eq_true]
      rfl
    rw [hput]
    simp only [orElse_default, assignValues, hp, hl, hat, List.nil_append]
    unfold transmitted
    rw [if_neg (by rcases hc with h | h | h | h <;> rw [h] <;> decide)]
    rw [if_neg (by rcases hc with h | h | h | h <;> rw [h] <;> decide)]
    rw [if_neg (by rcases hc with h | h | h | h <;> rw [h] <;> decide)]
    rw [if_pos hc]
    rfl
  · have hput : puts regL (.ofSample m) (.prepared {}) = { s := { cmd := orElse 0 m.cmd 0, hname := orElse [] m.hname [] } } := by
      simp only [puts, regL, List.foldl_cons, List.foldl_nil, subL, dropSubL, ignoredL, RegState.ofSample, hp,
        reduceCtorEq, beq_iff_eq, if_true, if_false, Bool.false_eq_true]
      rfl
    rw [hput]
    simp only [orElse_default, assignValues, hp]
    unfold transmitted
    rw [if_neg hc.1, if_neg hc.2.1, if_neg hc.2.2.1, if_neg hc.2.2.2]
    rfl

theorem serializeReg_ne_nil (m : RegSample) : serializeReg m ≠ [] :=
  encode_ne_nil _ _ _ (List.mem_map_of_mem (List.mem_cons_of_mem _ List.mem_cons_self)) (by simp [subL, subF])

/-- **C28.** Every registration sample, whatever its kind, arrives with exactly the fields of
its kind: cmd type, host, identity and the complete process, service, client or topic part. -/
theorem C28_roundtrip (m : RegSample) (hattr : IsMap m.topic.attr) (hl : (serializeReg m).length < 2 ^ 32) :
    deserializeReg {} (serializeReg m) = some (transmitted m) := by
  unfold deserializeReg
  rw [if_neg (serializeReg_ne_nil m)]
  have := decode_encode regL (.ofSample m) (.prepared {}) (by decide +kernel) (reg_ok _) hl
  unfold serializeReg
  rw [this, Option.map_some, reg_transfer m hattr]

/-- **C28.** For publishers and subscribers nothing is lost: topic, layers, attributes, data
type, counters and identity are those sent. -/
theorem C28_topic_complete (m : RegSample) (hk : m.cmd = 2 ∨ m.cmd = 12 ∨ m.cmd = 3 ∨ m.cmd = 13)
    (hattr : IsMap m.topic.attr) (hl : (serializeReg m).length < 2 ^ 32)
    (ho : m.osname = []) (h : m.process = {} ∧ m.service = {} ∧ m.client = {}) :
    deserializeReg {} (serializeReg m) = some m := by
  rw [C28_roundtrip m hattr hl]
  unfold transmitted
  rw [if_neg (by rcases hk with h | h | h | h <;> rw [h] <;> decide),
    if_neg (by rcases hk with h | h | h | h <;> rw [h] <;> decide),
    if_neg (by rcases hk with h | h | h | h <;> rw [h] <;> decide), if_pos hk]
  cases m
  simp_all

/-- The entity id of a process registration is not transmitted. -/
theorem C28_violated_process_entity_id :
    ∃ m : RegSample, m.cmd = 4 ∧ (deserializeReg {} (serializeReg m)).map (·.entityId) ≠ some m.entityId :=
  ⟨{ cmd := 4, entityId := [49] }, rfl, by decide +kernel⟩

/-- The operating system name of the host is never transmitted. -/
theorem C28_violated_osname :
    ∃ m : RegSample, (deserializeReg {} (serializeReg m)).map (·.osname) ≠ some m.osname :=
  ⟨{ osname := [49] }, by decide +kernel⟩

/-- **C28 (reused target).** Decoding into a used sample object appends to its lists and keeps
old strings. -/
theorem C28_violated_reuse :
    ∃ old m : RegSample, deserializeReg {} (serializeReg m) = some m ∧ deserializeReg old (serializeReg m) ≠ some m :=
  ⟨{ topic := { tlayer := [{ type := 1 }] } }, { cmd := 2, topic := { tlayer := [{ type := 4 }] } },
   by decide +kernel, by decide +kernel⟩

example : IsMap [([97], [49]), ([97, 98], []), ([98], [50])] := by unfold IsMap; decide +kernel

/-! ### Newer senders -/

/-- Occurrences of fields unknown to the receiver change nothing, wherever they stand. -/
theorem applyAll_unknown {α} (c : Codec α) (s : α) (l1 u l2 : List (Nat × Raw))
    (hu : ∀ p ∈ u, ∀ f ∈ c, f.tag ≠ p.1) : applyAll c s (l1 ++ u ++ l2) = applyAll c s (l1 ++ l2) := by
  have h : ∀ s, applyAll c s u = some s := by
    induction u with
    | nil => intro s; rfl
    | cons p u ih =>
      intro s
      have : applyField c s p = some s := by
        unfold applyField
        rw [List.find?_eq_none.2 (fun f hf => by simpa using hu p (by simp) f hf)]
      simp only [applyAll, this]
      exact ih (fun q hq => hu q (by simp [hq])) s
  rw [applyAll_append, applyAll_append, applyAll_append]
  cases applyAll c s l1 with
  | none => rfl
  | some s' => simp [h]

/-- **C28.** A registration with additional fields (field number above 8) of a newer sender is
read like the one without. -/
theorem C28_unknown_fields (target : RegSample) (l1 u l2 : List (Nat × Raw))
    (hu : ∀ p ∈ u, 8 < p.1) (hok : ∀ p ∈ l1 ++ u ++ l2, p.1 < 2 ^ 29 ∧ 0 < p.1 ∧ p.2.Ok) (hne : l1 ++ l2 ≠ []) :
    deserializeReg target (writeAll (l1 ++ u ++ l2)) = deserializeReg target (writeAll (l1 ++ l2)) := by
  have hpos : ∀ l : List (Nat × Raw), l ≠ [] → writeAll l ≠ [] := by
    intro l hl he
    cases l with
    | nil => exact hl rfl
    | cons p l =>
      have h1 := writeField_length_pos p
      have h2 := congrArg List.length he
      rw [writeAll, List.flatMap_cons, List.length_append, List.length_nil] at h2
      omega
  have hne' : l1 ++ u ++ l2 ≠ [] := by
    intro h
    rw [List.append_assoc, List.append_eq_nil_iff, List.append_eq_nil_iff] at h
    exact hne (by rw [h.1, h.2.2]; rfl)
  unfold deserializeReg decode
  rw [if_neg (hpos _ hne), if_neg (hpos _ hne'), readAll_writeAll _ (fun p hp => ⟨(hok p hp).2.1, (hok p hp).1, (hok p hp).2.2⟩),
    readAll_writeAll _ (fun p hp => by
      have : p ∈ l1 ++ u ++ l2 := by
        rcases List.mem_append.1 hp with h | h <;> simp [h]
      exact ⟨(hok p this).2.1, (hok p this).1, (hok p this).2.2⟩)]
  simp only
  rw [applyAll_unknown]
  intro p hp f hf he
  have h8 := hu p hp
  have : ∀ f ∈ regL.map (·.field), f.tag ≤ 8 := by decide +kernel
  have := this f hf
  omega

/-! ### Lists -/

/-- Table with one repeated field; used to reuse the generic round trip. -/
def regListL : List (LField (List RegSample)) :=
  [{ field := { tag := 1, enc := fun l => l.map (fun m => .len (serializeReg m)), dec := appendSample }
     put := fun l s => s ++ l.map (fun m => transmitted m) }]

theorem regList_ok (l : List RegSample) (hattr : ∀ m ∈ l, IsMap m.topic.attr) : ∀ f ∈ regListL, f.Ok l := by
  unfold regListL
  refine List.forall_mem_cons.2 ⟨⟨?_, ?_⟩, fun _ h => absurd h List.not_mem_nil⟩
  · intro r hr hl
    simp only [List.mem_map] at hr
    obtain ⟨b, _, rfl⟩ := hr
    exact hl
  · intro s hl
    simp only at hl ⊢
    induction l generalizing s with
    | nil => simp
    | cons m l ih =>
      simp only [List.map_cons, List.foldl_cons, Option.bind_some]
      have hb := hl (.len (serializeReg m)) (by simp)
      simp only [Raw.bytes] at hb
      have hd : appendSample s (.len (serializeReg m)) = some (s ++ [transmitted m]) := by
        simp only [appendSample, callbackBytes_len]
        have := decode_encode regL (.ofSample m) (.prepared {}) (by decide +kernel) (reg_ok _) hb
        unfold serializeReg
        rw [this, Option.map_some, reg_transfer m (hattr m (by simp))]
      rw [hd, ih (fun x hx => hattr x (by simp [hx])) _
        (fun r hr => hl r (by rw [List.map_cons]; exact List.mem_cons_of_mem _ hr))]
      simp

theorem serializeRegList_eq (l : List RegSample) : serializeRegList l = encode (regListL.map (·.field)) l := by
  simp [serializeRegList, encode, rawOf, regListL, Function.comp_def]

/-- **C28.** A non-empty list of registrations is appended to the target, in order and complete. -/
theorem C28_list_roundtrip (l target : List RegSample) (h0 : l ≠ []) (hattr : ∀ m ∈ l, IsMap m.topic.attr)
    (hl : (serializeRegList l).length < 2 ^ 32) :
    deserializeRegList target (serializeRegList l) = some (target ++ l.map transmitted) := by
  have hne : serializeRegList l ≠ [] := by
    rw [serializeRegList_eq]
    refine encode_ne_nil _ l _ (List.mem_map_of_mem (List.mem_cons_self)) ?_
    simp [h0]
  unfold deserializeRegList
  rw [if_neg hne, serializeRegList_eq]
  rw [serializeRegList_eq] at hl
  exact decode_encode regListL l target (by decide +kernel) (regList_ok l hattr) hl

/-- The empty list cannot be read back (the sender therefore never writes one). -/
theorem C28_violated_empty_list (t : List RegSample) : deserializeRegList t (serializeRegList []) = none := by
  simp [deserializeRegList, serializeRegList, writeAll]

/-! ### C62: batches -/

/-- All samples of a batch applied cumulatively: message `k` is preceded by everything before it. -/
def cumulative : List RegSample → List (List RegSample) → List RegSample
  | _, [] => []
  | acc, l :: ls => (acc ++ l) ++ cumulative (acc ++ l) ls

/-- **C62 (what happens).** A batch of messages read at once applies after every message the
whole prefix again. -/
theorem C62_received_partial (ls : List (List RegSample)) (acc : List RegSample)
    (h0 : ∀ l ∈ ls, l ≠ []) (hattr : ∀ l ∈ ls, ∀ m ∈ l, IsMap m.topic.attr)
    (hl : ∀ l ∈ ls, (serializeRegList l).length < 2 ^ 32) :
    shmReceive acc (ls.map serializeRegList) = cumulative acc (ls.map (·.map transmitted)) := by
  induction ls generalizing acc with
  | nil => rfl
  | cons l ls ih =>
    simp only [List.map_cons, shmReceive, cumulative]
    rw [C28_list_roundtrip l acc (h0 l (by simp)) (hattr l (by simp)) (hl l (by simp))]
    simp only
    rw [ih _ (fun x hx => h0 x (by simp [hx])) (fun x hx => hattr x (by simp [hx])) (fun x hx => hl x (by simp [hx]))]

/-- **C62 (holds for single messages).** A batch of one message applies each sample once. -/
theorem C62_single_partial (l : List RegSample) (h0 : l ≠ []) (hattr : ∀ m ∈ l, IsMap m.topic.attr)
    (hl : (serializeRegList l).length < 2 ^ 32) :
    shmReceive [] [serializeRegList l] = l.map transmitted := by
  have := C62_received_partial [l] [] (by simp [h0]) (by simpa using hattr) (by simpa using hl)
  simpa [cumulative] using this

/-- **C62 (violated).** Two messages in one batch: the registration of the first is applied
again after its own unregistration in between. -/
theorem C62_violated :
    let reg : RegSample := { cmd := 2, entityId := [49], topic := { tname := [116] } }
    let unreg : RegSample := { cmd := 12, entityId := [49], topic := { tname := [116] } }
    let other : RegSample := { cmd := 4 }
    shmReceive [] ([[reg, unreg], [other]].map serializeRegList) = [reg, unreg, reg, unreg, other] := by
  decide +kernel

/-- **C62.** Nothing is lost: every sample of the batch is applied, and the last pass applies
the whole batch in order. -/
theorem C62_last_pass_partial (ls : List (List RegSample)) (acc : List RegSample) (hne : ls ≠ []) :
    ∃ pre, cumulative acc ls = pre ++ (acc ++ ls.flatten) := by
  induction ls generalizing acc with
  | nil => exact absurd rfl hne
  | cons l ls ih =>
    cases ls with
    | nil => exact ⟨[], by simp [cumulative]⟩
    | cons l' ls' =>
      obtain ⟨pre, hp⟩ := ih (acc ++ l) (by simp)
      refine ⟨(acc ++ l) ++ pre, ?_⟩
      rw [cumulative, hp]
      simp

end Ecal.Wire
