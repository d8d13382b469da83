import Verif.Wire.Monitoring
import Verif.Wire.RegistrationProps

/-!
# C63: a monitoring snapshot survives serialisation
-/

namespace Ecal.Wire

/-! ### Elements -/

theorem monState_ok (m : MProcess) : ∀ f ∈ monStateL, f.Ok m := by unfold monStateL; table_ok

theorem monProcess_ok (m : MProcess) : ∀ f ∈ monProcessL, f.Ok m := by
  unfold monProcessL; table_ok
  refine List.forall_mem_cons.2 ⟨subL_ok _ _ _ _ (by decide +kernel) (monState_ok m), ?_⟩
  table_ok

theorem monProcess_puts (m : MProcess) : puts monProcessL m {} = m := by
  have : puts monProcessL m {} =
      { rclock := orElse 0 m.rclock 0, hname := orElse [] m.hname [], hgname := orElse [] m.hgname [],
        pid := orElse 0 m.pid 0, pname := orElse [] m.pname [], uname := orElse [] m.uname [],
        pparam := orElse [] m.pparam [], severity := orElse 0 m.severity 0,
        severityLevel := orElse 0 m.severityLevel 0, info := orElse [] m.info [],
        tsyncState := orElse 0 m.tsyncState 0, tsyncModName := orElse [] m.tsyncModName [],
        initState := orElse 0 m.initState 0, initInfo := orElse [] m.initInfo [],
        version := orElse [] m.version [] } := rfl
  rw [this]
  simp

theorem monLayer_ok (m : MLayer) : ∀ f ∈ monLayerL, f.Ok m := by unfold monLayerL; table_ok

theorem monLayer_puts (m : MLayer) : puts monLayerL m {} = m := by
  have : puts monLayerL m {} =
      { type := orElse 0 m.type 0, version := orElse 0 m.version 0, active := orElse false m.active false } := rfl
  rw [this]
  simp

theorem monDatatype_ok (m : MTopic) : ∀ f ∈ monDatatypeL, f.Ok m := by unfold monDatatypeL; table_ok

theorem monTopic_ok (m : MTopic) : ∀ f ∈ monTopicL, f.Ok m := by
  unfold monTopicL; simp only [monLayersL, monAttrL]; table_ok
  refine List.forall_mem_cons.2 ⟨repL_ok _ _ _ _ _ m (fun _ => rfl) (fun _ _ => rfl) (fun _ _ _ => rfl)
    (by decide +kernel) (fun b _ => monLayer_ok b), ?_⟩
  table_ok
  refine List.forall_mem_cons.2 ⟨mapL_ok _ _ _ m (fun _ => rfl) (fun _ _ => rfl) (fun _ _ _ => rfl), ?_⟩
  table_ok
  refine List.forall_mem_cons.2 ⟨subL_ok _ _ _ _ (by decide +kernel) (monDatatype_ok m), ?_⟩
  table_ok

theorem monTopic_puts (m : MTopic) (h : IsMap m.attr) : puts monTopicL m {} = m := by
  have hl : m.tlayer.map (fun b => puts monLayerL b {}) = m.tlayer := by
    rw [show (fun b => puts monLayerL b {}) = id from funext monLayer_puts, List.map_id]
  have : puts monTopicL m {} =
      { rclock := orElse 0 m.rclock 0, hname := orElse [] m.hname [], hgname := orElse [] m.hgname [],
        pid := orElse 0 m.pid 0, pname := orElse [] m.pname [], uname := orElse [] m.uname [],
        tid := orElse [] m.tid [], tname := orElse [] m.tname [], direction := orElse [] m.direction [],
        dtName := orElse [] m.dtName [], dtEnc := orElse [] m.dtEnc [], dtDesc := orElse [] m.dtDesc [],
        tlayer := [] ++ m.tlayer.map (fun b => puts monLayerL b {}), tsize := orElse 0 m.tsize 0,
        connLoc := orElse 0 m.connLoc 0, connExt := orElse 0 m.connExt 0, drops := orElse 0 m.drops 0,
        did := orElse 0 m.did 0, dclock := orElse 0 m.dclock 0, dfreq := orElse 0 m.dfreq 0,
        attr := m.attr.foldl mapInsert [] } := rfl
  rw [this, hl, foldl_mapInsert _ h]
  simp

theorem monMethods (l : List Method) : l.map (fun b => puts methodL b {}) = l := by
  rw [show (fun b => puts methodL b {}) = id from funext method_puts, List.map_id]

theorem monServer_ok (m : MServer) : ∀ f ∈ monServerL, f.Ok m := by
  unfold monServerL; table_ok
  refine List.forall_mem_cons.2 ⟨repL_ok _ _ _ _ _ m (fun _ => rfl) (fun _ _ => rfl) (fun _ _ _ => rfl)
    (by decide +kernel) (fun b _ => method_ok b), ?_⟩
  table_ok

theorem monServer_puts (m : MServer) : puts monServerL m {} = m := by
  have : puts monServerL m {} =
      { rclock := orElse 0 m.rclock 0, hname := orElse [] m.hname [], pname := orElse [] m.pname [],
        uname := orElse [] m.uname [], pid := orElse 0 m.pid 0, sname := orElse [] m.sname [],
        sid := orElse [] m.sid [], version := orElse 0 m.version 0, portV0 := orElse 0 m.portV0 0,
        portV1 := orElse 0 m.portV1 0, methods := [] ++ m.methods.map (fun b => puts methodL b {}) } := rfl
  rw [this, monMethods]
  simp

theorem monClient_ok (m : MClient) : ∀ f ∈ monClientL, f.Ok m := by
  unfold monClientL; table_ok
  refine List.forall_mem_cons.2 ⟨repL_ok _ _ _ _ _ m (fun _ => rfl) (fun _ _ => rfl) (fun _ _ _ => rfl)
    (by decide +kernel) (fun b _ => method_ok b), ?_⟩
  table_ok

theorem monClient_puts (m : MClient) : puts monClientL m {} = m := by
  have : puts monClientL m {} =
      { rclock := orElse 0 m.rclock 0, hname := orElse [] m.hname [], pname := orElse [] m.pname [],
        uname := orElse [] m.uname [], pid := orElse 0 m.pid 0, sname := orElse [] m.sname [],
        sid := orElse [] m.sid [], version := orElse 0 m.version 0,
        methods := [] ++ m.methods.map (fun b => puts methodL b {}) } := rfl
  rw [this, monMethods]
  simp

/-! ### Topics -/

theorem addTopic_fold (l : List MTopic) (s : Snapshot) :
    l.foldl addTopic s =
      { s with publisher := s.publisher ++ l.filter (fun t => t.direction = sPublisher)
               subscriber := s.subscriber ++ l.filter (fun t => t.direction = sSubscriber) } := by
  induction l generalizing s with
  | nil => simp
  | cons t l ih =>
    rw [List.foldl_cons, ih]
    have hne : sPublisher ≠ sSubscriber := by decide
    unfold addTopic
    by_cases h1 : t.direction = sPublisher
    · have h2 : ¬ t.direction = sSubscriber := by rw [h1]; exact hne
      simp [h1, hne]
    · by_cases h2 : t.direction = sSubscriber
      · have := hne.symm
        simp [h2, this]
      · simp [h1, h2]

theorem monTopics_ok (m : Snapshot) : (monTopicsL).Ok m := by
  constructor
  · intro r hr hl
    simp only [monTopicsL, List.mem_map] at hr
    obtain ⟨b, _, rfl⟩ := hr
    exact hl
  · intro s hl
    simp only [monTopicsL] at hl ⊢
    generalize m.publisher ++ m.subscriber = l at hl
    induction l generalizing s with
    | nil => simp
    | cons t l ih =>
      simp only [List.map_cons, List.foldl_cons, Option.bind_some]
      have hb := hl (.len (encode (monTopicL.map (·.field)) t)) (by simp)
      simp only [Raw.bytes] at hb
      simp only [callbackBytes_len]
      rw [decode_encode monTopicL t {} (by decide +kernel) (monTopic_ok t) hb]
      exact ih _ (fun r hr => hl r (by rw [List.map_cons]; exact List.mem_cons_of_mem _ hr))

/-! ### The snapshot -/

theorem mon_ok (m : Snapshot) : ∀ f ∈ monL, f.Ok m := by
  unfold monL
  table_ok
  refine List.forall_mem_cons.2 ⟨repL_ok _ _ _ _ _ m (fun _ => rfl) (fun _ _ => rfl) (fun _ _ _ => rfl)
    (by decide +kernel) (fun b _ => monProcess_ok b), ?_⟩
  refine List.forall_mem_cons.2 ⟨repL_ok _ _ _ _ _ m (fun _ => rfl) (fun _ _ => rfl) (fun _ _ _ => rfl)
    (by decide +kernel) (fun b _ => monServer_ok b), ?_⟩
  refine List.forall_mem_cons.2 ⟨monTopics_ok m, ?_⟩
  refine List.forall_mem_cons.2 ⟨repL_ok _ _ _ _ _ m (fun _ => rfl) (fun _ _ => rfl) (fun _ _ _ => rfl)
    (by decide +kernel) (fun b _ => monClient_ok b), ?_⟩
  table_ok

theorem mon_puts (m t : Snapshot) (ha : ∀ x ∈ m.publisher ++ m.subscriber, IsMap x.attr) :
    puts monL m t =
      { processes := t.processes ++ m.processes
        publisher := t.publisher ++ (m.publisher ++ m.subscriber).filter (fun x => x.direction = sPublisher)
        subscriber := t.subscriber ++ (m.publisher ++ m.subscriber).filter (fun x => x.direction = sSubscriber)
        server := t.server ++ m.server
        clients := t.clients ++ m.clients } := by
  have hp : m.processes.map (fun b => puts monProcessL b {}) = m.processes := by
    rw [show (fun b => puts monProcessL b {}) = id from funext monProcess_puts, List.map_id]
  have hs : m.server.map (fun b => puts monServerL b {}) = m.server := by
    rw [show (fun b => puts monServerL b {}) = id from funext monServer_puts, List.map_id]
  have hc : m.clients.map (fun b => puts monClientL b {}) = m.clients := by
    rw [show (fun b => puts monClientL b {}) = id from funext monClient_puts, List.map_id]
  have ht : (m.publisher ++ m.subscriber).map (fun b => puts monTopicL b {}) = m.publisher ++ m.subscriber := by
    conv => rhs; rw [← List.map_id (m.publisher ++ m.subscriber)]
    exact List.map_congr_left (fun x hx => monTopic_puts x (ha x hx))
  simp only [puts, monL, List.foldl_cons, List.foldl_nil, ignoredL, repL, monTopicsL]
  simp only [puts] at hp hs hc ht
  rw [hp, hs, hc, ht, addTopic_fold]

theorem serializeMon_ne_nil (m : Snapshot) (h : m ≠ {}) : serializeMon m ≠ [] := by
  unfold serializeMon
  by_cases h1 : m.processes = []
  · by_cases h2 : m.server = []
    · by_cases h3 : m.publisher ++ m.subscriber = []
      · by_cases h4 : m.clients = []
        · exfalso
          apply h
          rw [List.append_eq_nil_iff] at h3
          cases m
          simp_all
        · exact encode_ne_nil _ m ((repL 5 monClientL {} (·.clients) (fun m v => { m with clients := v })).field)
            (by simp [monL]) (by simp [repL, repF, h4])
      · refine encode_ne_nil _ m monTopicsL.field (by simp [monL]) ?_
        simp only [monTopicsL]
        intro he
        exact h3 (List.map_eq_nil_iff.1 he)
    · exact encode_ne_nil _ m ((repL 3 monServerL {} (·.server) (fun m v => { m with server := v })).field)
        (by simp [monL]) (by simp [repL, repF, h2])
  · exact encode_ne_nil _ m ((repL 2 monProcessL {} (·.processes) (fun m v => { m with processes := v })).field)
      (by simp [monL]) (by simp [repL, repF, h1])

/-- What every snapshot of the monitor satisfies: publishers and subscribers carry their direction
(ecal_monitoring_impl.cpp L261-289) and attributes are a `std::map`. -/
structure Proper (m : Snapshot) : Prop where
  pub : ∀ t ∈ m.publisher, t.direction = sPublisher
  sub : ∀ t ∈ m.subscriber, t.direction = sSubscriber
  attr : ∀ t ∈ m.publisher ++ m.subscriber, IsMap t.attr

/-- **C63 (any target).** The entities of a snapshot are appended to the target, each kind in order and with
every field as sent; nothing else changes. -/
theorem C63_appended (m t : Snapshot) (hm : Proper m) (hne : m ≠ {}) (hl : (serializeMon m).length < 2 ^ 32) :
    deserializeMon t (serializeMon m) =
      some { processes := t.processes ++ m.processes, publisher := t.publisher ++ m.publisher,
             subscriber := t.subscriber ++ m.subscriber, server := t.server ++ m.server,
             clients := t.clients ++ m.clients } := by
  unfold deserializeMon
  rw [if_neg (serializeMon_ne_nil m hne)]
  unfold serializeMon at hl ⊢
  rw [decode_encode monL m t (by decide +kernel) (mon_ok m) hl, mon_puts m t hm.attr]
  have hps : sPublisher ≠ sSubscriber := by decide
  have e1 : (m.publisher ++ m.subscriber).filter (fun x => x.direction = sPublisher) = m.publisher := by
    rw [List.filter_append, List.filter_eq_self.2 (fun x hx => by simpa using hm.pub x hx),
      List.filter_eq_nil_iff.2 (fun x hx => by simp [hm.sub x hx, hps.symm]), List.append_nil]
  have e2 : (m.publisher ++ m.subscriber).filter (fun x => x.direction = sSubscriber) = m.subscriber := by
    rw [List.filter_append, List.filter_eq_nil_iff.2 (fun x (hx : x ∈ m.publisher) => by simp [hm.pub x hx, hps]),
      List.filter_eq_self.2 (fun x hx => by simpa using hm.sub x hx), List.nil_append]
  rw [e1, e2]

/-- **C63.** Decoding a serialised snapshot into a fresh structure gives the snapshot back: every process,
publisher, subscriber, server and client, in order, with every field. -/
theorem C63_roundtrip_partial (m : Snapshot) (hm : Proper m) (hne : m ≠ {}) (hl : (serializeMon m).length < 2 ^ 32) :
    deserializeMon {} (serializeMon m) = some m := by
  rw [C63_appended m {} hm hne hl]
  simp

/-- **C63.** Two different snapshots never have the same serialised form. -/
theorem C63_injective (m m' : Snapshot) (hm : Proper m) (hm' : Proper m') (hl : (serializeMon m).length < 2 ^ 32)
    (h : serializeMon m = serializeMon m') : m = m' := by
  have e0 : serializeMon {} = [] := by decide +kernel
  by_cases h1 : m = {}
  · by_cases h2 : m' = {}
    · rw [h1, h2]
    · exact absurd (by rw [← h, h1, e0]) (serializeMon_ne_nil m' h2)
  · by_cases h2 : m' = {}
    · exact absurd (by rw [h, h2, e0]) (serializeMon_ne_nil m h1)
    · have a := C63_roundtrip_partial m hm h1 hl
      have b := C63_roundtrip_partial m' hm' h2 (h ▸ hl)
      rw [h, b] at a
      exact (Option.some.inj a).symm

/-- **C63 (entities).** The serialised and the structured query agree: with the bits publisher (0),
subscriber (1), server (2), client (3), process (4) of the request, exactly the chosen kinds are contained. -/
theorem C63_selection (t : Snapshot) (e : BitVec 32) :
    getSerialized t e = serializeMon
      { processes := if e.getLsbD 4 then t.processes else [], publisher := if e.getLsbD 0 then t.publisher else [],
        subscriber := if e.getLsbD 1 then t.subscriber else [], server := if e.getLsbD 2 then t.server else [],
        clients := if e.getLsbD 3 then t.clients else [] } ∧
    getStruct t e =
      { processes := if e.getLsbD 4 then t.processes else [], publisher := if e.getLsbD 0 then t.publisher else [],
        subscriber := if e.getLsbD 1 then t.subscriber else [], server := if e.getLsbD 2 then t.server else [],
        clients := if e.getLsbD 3 then t.clients else [] } := by
  have bit : ∀ k : Nat, k < 32 → (e &&& BitVec.twoPow 32 k ≠ 0 ↔ e.getLsbD k = true) := by
    intro k hk
    constructor
    · intro h
      cases hb : e.getLsbD k with
      | true => rfl
      | false =>
        exfalso; apply h
        apply BitVec.eq_of_getLsbD_eq
        intro i hi
        simp only [BitVec.getLsbD_and, BitVec.getLsbD_twoPow, BitVec.ofNat_eq_ofNat, BitVec.getLsbD_zero]
        by_cases hik : k = i
        · subst hik; simp [hb]
        · simp [hik]
    · intro hb h
      have hk' : (e &&& BitVec.twoPow 32 k).getLsbD k = false := by rw [h]; simp
      rw [BitVec.getLsbD_and, BitVec.getLsbD_twoPow, hb] at hk'
      simp [hk] at hk'
  have b0 : e &&& (0x001 : BitVec 32) ≠ 0 ↔ e.getLsbD 0 = true := bit 0 (by decide)
  have b1 : e &&& (0x002 : BitVec 32) ≠ 0 ↔ e.getLsbD 1 = true := bit 1 (by decide)
  have b2 : e &&& (0x004 : BitVec 32) ≠ 0 ↔ e.getLsbD 2 = true := bit 2 (by decide)
  have b3 : e &&& (0x008 : BitVec 32) ≠ 0 ↔ e.getLsbD 3 = true := bit 3 (by decide)
  have b4 : e &&& (0x010 : BitVec 32) ≠ 0 ↔ e.getLsbD 4 = true := bit 4 (by decide)
  constructor
  · unfold getSerialized
    refine congrArg serializeMon ?_
    simp only [b0, b1, b2, b3, b4, List.nil_append]
    cases e.getLsbD 0 <;> cases e.getLsbD 1 <;> cases e.getLsbD 2 <;> cases e.getLsbD 3 <;> cases e.getLsbD 4 <;> rfl
  · unfold getStruct
    simp only [b0, b1, b2, b3, b4]

/-- Every part of a proper snapshot is proper. -/
theorem Proper.select {t : Snapshot} (h : Proper t) (a b c d e : Bool) :
    Proper { processes := if a then t.processes else [], publisher := if b then t.publisher else [],
             subscriber := if c then t.subscriber else [], server := if d then t.server else [],
             clients := if e then t.clients else [] } := by
  cases b <;> cases c <;> constructor <;> intro x hx <;>
    simp only [Bool.false_eq_true, if_false, if_true, List.not_mem_nil, List.append_nil, List.nil_append] at hx <;>
    first
      | exact h.pub x hx
      | exact h.sub x hx
      | exact h.attr x (List.mem_append.2 (Or.inl hx))
      | exact h.attr x (List.mem_append.2 (Or.inr hx))
      | exact h.attr x hx

/-- **C63 (query).** Whatever entities are asked for: if the structured query has at least one entity, the
serialised query decodes to it. -/
theorem C63_query_partial (t : Snapshot) (e : BitVec 32) (ht : Proper t) (hne : getStruct t e ≠ {})
    (hl : (getSerialized t e).length < 2 ^ 32) :
    deserializeMon {} (getSerialized t e) = some (getStruct t e) := by
  obtain ⟨h1, h2⟩ := C63_selection t e
  rw [h1] at hl ⊢
  rw [h2] at hne ⊢
  exact C63_roundtrip_partial _ (ht.select _ _ _ _ _) hne hl

/-- **C63 (violated: empty snapshot).** A snapshot without entities serialises to nothing, and nothing is
rejected by the decoder. -/
theorem C63_violated_empty (t : Snapshot) : serializeMon {} = [] ∧ deserializeMon t (serializeMon {}) = none := by
  have : serializeMon {} = [] := by decide +kernel
  exact ⟨this, by rw [this]; rfl⟩

/-- **C63 (violated: direction).** A topic listed as publisher whose direction text differs disappears. -/
theorem C63_violated_direction :
    ∃ m : Snapshot, m.publisher.length = 1 ∧ deserializeMon {} (serializeMon m) = some {} :=
  ⟨{ publisher := [{ tname := [97] }] }, rfl, by decide +kernel⟩

/-- A proper snapshot with entities of every kind. -/
def sampleSnapshot : Snapshot :=
  { processes := [{ pname := [112], severity := 2, pid := 4 }]
    publisher := [{ direction := sPublisher, tname := [97], tlayer := [{ type := 4, active := true }],
                    attr := [([97], [49]), ([98], [])], dclock := 7 }]
    subscriber := [{ direction := sSubscriber, tname := [97] }, { direction := sSubscriber, tname := [98] }]
    server := [{ sname := [115], methods := [{ mname := [109], callCount := 3 }] }]
    clients := [{ sname := [115], methods := [{}] }] }

example : Proper sampleSnapshot ∧ sampleSnapshot ≠ {} ∧
    deserializeMon {} (serializeMon sampleSnapshot) = some sampleSnapshot ∧
    getStruct sampleSnapshot 3 ≠ {} := by
  refine ⟨⟨?_, ?_, ?_⟩, by decide +kernel, by decide +kernel, by decide +kernel⟩
  · simp [sampleSnapshot]
  · simp [sampleSnapshot]
  · simp [sampleSnapshot, IsMap]; decide +kernel

end Ecal.Wire
