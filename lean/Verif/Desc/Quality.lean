import Verif.Desc.Props

/-!
# C43: the best description wins
-/

namespace Ecal.Desc

/-! ### `std::set` -/

section SetInsert
variable {α : Type} (lt : α → α → Bool)

theorem mem_setInsert (x z : α) (l : List α) (h : z ∈ setInsert lt x l) : z = x ∨ z ∈ l := by
  induction l with
  | nil => left; simpa [setInsert] using h
  | cons y ys ih =>
    simp only [setInsert] at h
    split at h
    · simpa using h
    · split at h
      · rcases List.mem_cons.1 h with rfl | h
        · right; simp
        · rcases ih h with rfl | h
          · left; rfl
          · right; simp [h]
      · right; exact h

theorem old_mem_setInsert (x z : α) (l : List α) (h : z ∈ l) : z ∈ setInsert lt x l := by
  induction l with
  | nil => cases h
  | cons y ys ih =>
    simp only [setInsert]
    split
    · exact List.mem_cons_of_mem _ h
    · split
      · rcases List.mem_cons.1 h with rfl | h
        · simp
        · simp [ih h]
      · exact h

/-- The inserted element or an equivalent one is in the set. -/
theorem setInsert_represented (irr : ∀ a, lt a a = false) (x : α) (l : List α) :
    ∃ z ∈ setInsert lt x l, lt z x = false ∧ lt x z = false := by
  induction l with
  | nil => exact ⟨x, by simp [setInsert], irr x, irr x⟩
  | cons y ys ih =>
    simp only [setInsert]
    split
    · exact ⟨x, by simp, irr x, irr x⟩
    · split
      · obtain ⟨z, hz, h⟩ := ih
        exact ⟨z, by simp [hz], h⟩
      · rename_i h1 h2
        exact ⟨y, by simp, by simpa using h2, by simpa using h1⟩

/-- The set is sorted. -/
theorem setInsert_sorted (tr : ∀ a b c, lt a b = true → lt b c = true → lt a c = true) (x : α)
    (l : List α) (h : l.Pairwise (fun a b => lt a b = true)) :
    (setInsert lt x l).Pairwise (fun a b => lt a b = true) := by
  induction l with
  | nil => simp [setInsert]
  | cons y ys ih =>
    rw [List.pairwise_cons] at h
    simp only [setInsert]
    split
    · rename_i hxy
      rw [List.pairwise_cons]
      refine ⟨fun z hz => ?_, List.pairwise_cons.2 h⟩
      rcases List.mem_cons.1 hz with rfl | hz
      · exact hxy
      · exact tr _ _ _ hxy (h.1 z hz)
    · split
      · rename_i hyx
        rw [List.pairwise_cons]
        refine ⟨fun z hz => ?_, ih h.2⟩
        rcases mem_setInsert lt _ _ _ hz with rfl | hz
        · exact hyx
        · exact h.1 z hz
      · exact List.pairwise_cons.2 h

/-- Inserting a list of elements. -/
theorem mem_insertAll (xs : List α) (l : List α) (z : α)
    (h : z ∈ xs.foldl (fun a e => setInsert lt e a) l) : z ∈ xs ∨ z ∈ l := by
  induction xs generalizing l with
  | nil => right; exact h
  | cons x xs ih =>
    rcases ih _ h with h | h
    · left; simp [h]
    · rcases mem_setInsert lt _ _ _ h with rfl | h
      · left; simp
      · right; exact h

theorem old_mem_insertAll (xs : List α) (l : List α) (z : α) (h : z ∈ l) :
    z ∈ xs.foldl (fun a e => setInsert lt e a) l := by
  induction xs generalizing l with
  | nil => exact h
  | cons x xs ih => exact ih _ (old_mem_setInsert lt _ _ _ h)

theorem insertAll_represented (irr : ∀ a, lt a a = false) (xs l : List α) (x : α) (hx : x ∈ xs) :
    ∃ z ∈ xs.foldl (fun a e => setInsert lt e a) l, lt z x = false ∧ lt x z = false := by
  induction xs generalizing l with
  | nil => cases hx
  | cons y ys ih =>
    rcases List.mem_cons.1 hx with rfl | hx
    · obtain ⟨z, hz, h⟩ := setInsert_represented lt irr x l
      exact ⟨z, old_mem_insertAll lt ys _ z hz, h⟩
    · exact ih _ hx

theorem insertAll_sorted (tr : ∀ a b c, lt a b = true → lt b c = true → lt a c = true)
    (xs l : List α) (h : l.Pairwise (fun a b => lt a b = true)) :
    (xs.foldl (fun a e => setInsert lt e a) l).Pairwise (fun a b => lt a b = true) := by
  induction xs generalizing l with
  | nil => exact h
  | cons x xs ih => exact ih _ (setInsert_sorted lt tr x l h)

end SetInsert

theorem foldl_map_insert {β α : Type} (f : β → α) (lt : α → α → Bool) (l : List β) (acc : List α) :
    l.foldl (fun a e => setInsert lt (f e) a) acc
      = (l.map f).foldl (fun a e => setInsert lt e a) acc := by
  induction l generalizing acc with
  | nil => rfl
  | cons x xs ih => simp [ih]

/-! ### Topics -/

theorem topic_irr (a : TopicInfo) : TopicInfo.lt a a = false := by simp [TopicInfo.lt]

theorem topic_equiv {a b : TopicInfo} (h1 : TopicInfo.lt a b = false) (h2 : TopicInfo.lt b a = false) :
    a.quality = b.quality := by
  simp only [TopicInfo.lt, Bool.or_eq_false_iff, decide_eq_false_iff_not, Nat.not_lt] at h1 h2
  omega

theorem highest_ge (l : List TopicInfo) (b : TopicInfo) :
    b.quality ≤ (l.foldl (fun best e => if best.quality < e.quality then e else best) b).quality ∧
    (∀ e ∈ l, e.quality ≤ (l.foldl (fun best e => if best.quality < e.quality then e else best) b).quality) ∧
    (l.foldl (fun best e => if best.quality < e.quality then e else best) b = b ∨
     l.foldl (fun best e => if best.quality < e.quality then e else best) b ∈ l) := by
  induction l generalizing b with
  | nil => simp
  | cons x xs ih =>
    simp only [List.foldl_cons]
    obtain ⟨h1, h2, h3⟩ := ih (if b.quality < x.quality then x else b)
    by_cases hq : b.quality < x.quality
    · simp only [hq, if_true] at h1 h2 h3 ⊢
      refine ⟨by omega, ?_, ?_⟩
      · intro e he
        rcases List.mem_cons.1 he with rfl | he
        · exact h1
        · exact h2 e he
      · right
        rcases h3 with h3 | h3
        · rw [h3]; simp
        · exact List.mem_cons_of_mem _ h3
    · simp only [hq, if_false] at h1 h2 h3 ⊢
      refine ⟨h1, ?_, ?_⟩
      · intro e he
        rcases List.mem_cons.1 he with rfl | he
        · omega
        · exact h2 e he
      · rcases h3 with h3 | h3
        · left; exact h3
        · right; exact List.mem_cons_of_mem _ h3

/-- Data types of quality 0 carry no information. -/
theorem quality_zero (ty : DataType) (p : Bool) (h : quality ty p = 0) : ty = {} := by
  unfold quality at h
  obtain ⟨a, b, c⟩ := ty
  simp only at h
  by_cases ha : a = "" <;> by_cases hb : b = "" <;> by_cases hc : c = "" <;> simp_all

/-- Membership in the union set built by `GetTopicDataTypeInformation`. -/
theorem topicType_max (name : String) (pubs subs : List (String × TopicInfo)) :
    ((topicType name pubs subs).2 = true ↔ ∃ q, (name, q) ∈ pubs ∨ (name, q) ∈ subs) ∧
    (∀ q, (name, q) ∈ pubs ∨ (name, q) ∈ subs → q.quality ≤ (topicType name pubs subs).1.quality) ∧
    ((topicType name pubs subs).1 = {} ∨
      (name, (topicType name pubs subs).1) ∈ pubs ∨ (name, (topicType name pubs subs).1) ∈ subs) := by
  have hset : ∀ (l : List (String × TopicInfo)) (acc : List TopicInfo), topicSet name l acc
      = ((l.filter (fun e => e.1 == name)).map Prod.snd).foldl (fun a e => setInsert TopicInfo.lt e a) acc :=
    fun l acc => foldl_map_insert Prod.snd TopicInfo.lt _ acc
  have hmem : ∀ (l : List (String × TopicInfo)) q,
      q ∈ (l.filter (fun e => e.1 == name)).map Prod.snd ↔ (name, q) ∈ l := by
    intro l q
    simp only [List.mem_map, List.mem_filter, beq_iff_eq]
    constructor
    · rintro ⟨⟨n, x⟩, ⟨hm, rfl⟩, rfl⟩; exact hm
    · intro hm; exact ⟨(name, q), ⟨hm, rfl⟩, rfl⟩
  have hsub : ∀ q ∈ topicSet name subs [], (name, q) ∈ subs := by
    intro q hq
    rw [hset] at hq
    rcases mem_insertAll _ _ _ _ hq with h | h
    · exact (hmem subs q).1 h
    · cases h
  have hpub : ∀ q ∈ topicSet name pubs [], (name, q) ∈ pubs := by
    intro q hq
    rw [hset] at hq
    rcases mem_insertAll _ _ _ _ hq with h | h
    · exact (hmem pubs q).1 h
    · cases h
  -- every listed entity has an equivalent element in the union
  have hrep : ∀ q, (name, q) ∈ pubs ∨ (name, q) ∈ subs →
      ∃ z ∈ (topicSet name subs []).foldl (fun a e => setInsert TopicInfo.lt e a) (topicSet name pubs []),
        z.quality = q.quality := by
    rintro q (h | h)
    · rw [← hmem] at h
      obtain ⟨z, hz, h1, h2⟩ := insertAll_represented TopicInfo.lt topic_irr _ [] q h
      rw [← hset] at hz
      exact ⟨z, old_mem_insertAll _ _ _ _ hz, topic_equiv h1 h2⟩
    · rw [← hmem] at h
      obtain ⟨z, hz, h1, h2⟩ := insertAll_represented TopicInfo.lt topic_irr _ [] q h
      rw [← hset] at hz
      obtain ⟨z', hz', h1', h2'⟩ := insertAll_represented TopicInfo.lt topic_irr _ (topicSet name pubs []) z hz
      exact ⟨z', hz', (topic_equiv h1' h2').trans (topic_equiv h1 h2)⟩
  have hin : ∀ z ∈ (topicSet name subs []).foldl (fun a e => setInsert TopicInfo.lt e a) (topicSet name pubs []),
      (name, z) ∈ pubs ∨ (name, z) ∈ subs := by
    intro z hz
    rcases mem_insertAll _ _ _ _ hz with h | h
    · right; exact hsub z h
    · left; exact hpub z h
  unfold topicType highestTopic
  obtain ⟨h1, h2, h3⟩ := highest_ge ((topicSet name subs []).foldl
    (fun a e => setInsert TopicInfo.lt e a) (topicSet name pubs [])) {}
  refine ⟨?_, ?_, ?_⟩
  · simp only [Bool.not_eq_true', List.isEmpty_eq_false_iff_exists_mem]
    constructor
    · rintro ⟨z, hz⟩; exact ⟨z, hin z hz⟩
    · rintro ⟨q, hq⟩
      obtain ⟨z, hz, _⟩ := hrep q hq
      exact ⟨z, hz⟩
  · intro q hq
    obtain ⟨z, hz, he⟩ := hrep q hq
    rw [← he]; exact h2 z hz
  · rcases h3 with h3 | h3
    · left; exact h3
    · right; exact hin _ h3

/-- **C43.** After any history: the data type reported for a topic is that of a live
publisher or subscriber of the topic whose quality is highest; nothing is reported iff no
publisher or subscriber of the topic is alive. -/
theorem C43_topic_type (T t0 now : Int) (h : List (Int × Op)) (g : Gate) (hc : Clock t0 h now)
    (hr : (Gate.init T).run h = some g) (name : String) :
    let pubs := (topics g.pubs now).2
    let subs := (topics g.subs now).2
    let r := topicType name pubs subs
    (r.2 = false ↔ ∀ q, (name, q) ∉ pubs ∧ (name, q) ∉ subs) ∧
    (r.2 = true → ∃ q, ((name, q) ∈ pubs ∨ (name, q) ∈ subs) ∧ q.info = r.1.info ∧
      ∀ q', (name, q') ∈ pubs ∨ (name, q') ∈ subs → q'.quality ≤ q.quality) := by
  intro pubs subs r
  obtain ⟨h1, h2, h3⟩ := topicType_max name pubs subs
  constructor
  · constructor
    · intro hf q
      have : ¬ r.2 = true := by simp [hf]
      exact ⟨fun hq => this (h1.2 ⟨q, Or.inl hq⟩), fun hq => this (h1.2 ⟨q, Or.inr hq⟩)⟩
    · intro hq
      by_cases hb : r.2 = true
      · obtain ⟨q, hq' | hq'⟩ := h1.1 hb
        · exact absurd hq' (hq q).1
        · exact absurd hq' (hq q).2
      · simpa using hb
  · intro ht
    rcases h3 with h3 | h3
    · obtain ⟨q, hq⟩ := h1.1 ht
      have hz : q.quality = 0 := by
        have := h2 q hq
        rw [h3] at this
        simpa using this
      refine ⟨q, hq, ?_, ?_⟩
      · have hr1 : r.1 = {} := h3
        rw [hr1]
        rcases hq with hq | hq
        · obtain ⟨ty, t, _, _, e1, e2⟩ := (C42_publishers T t0 now h g hc hr name q).1 hq
          rw [e1]; exact quality_zero ty true (by rw [← e2]; exact hz)
        · obtain ⟨ty, t, _, _, e1, e2⟩ := (C42_subscribers T t0 now h g hc hr name q).1 hq
          rw [e1]; exact quality_zero ty false (by rw [← e2]; exact hz)
      · intro q' hq'
        have := h2 q' hq'
        rw [h3] at this
        rw [hz]; exact this
    · exact ⟨r.1, h3, rfl, h2⟩

/-! ### `GetTopics`: one entry per topic name -/

theorem reduceTopics_spec (name : String) (l done : List (String × TopicInfo)) (m : AMap String TopicInfo)
    (h1 : ∀ r, m.find name = some r → (name, r) ∈ done ∧ ∀ q, (name, q) ∈ done → q.quality ≤ r.quality)
    (h2 : m.find name = none → ∀ q, (name, q) ∉ done) :
    (∀ r, (l.foldl reduceTopic m).find name = some r →
      (name, r) ∈ done ++ l ∧ ∀ q, (name, q) ∈ done ++ l → q.quality ≤ r.quality) ∧
    ((l.foldl reduceTopic m).find name = none → ∀ q, (name, q) ∉ done ++ l) := by
  induction l generalizing done m with
  | nil => simpa using ⟨h1, h2⟩
  | cons e l ih =>
    obtain ⟨n, x⟩ := e
    have step : (∀ r, (reduceTopic m (n, x)).find name = some r →
        (name, r) ∈ done ++ [(n, x)] ∧ ∀ q, (name, q) ∈ done ++ [(n, x)] → q.quality ≤ r.quality) ∧
        ((reduceTopic m (n, x)).find name = none → ∀ q, (name, q) ∉ done ++ [(n, x)]) := by
      by_cases hn : n = name
      · subst hn
        unfold reduceTopic
        simp only
        cases hf : m.find n with
        | none =>
          have h2 := h2 hf
          simp only [AMap.find_set_self, Option.some.injEq, reduceCtorEq, false_implies, and_true]
          rintro r rfl
          refine ⟨by simp, fun q hq => ?_⟩
          rcases List.mem_append.1 hq with hq | hq
          · exact absurd hq (h2 q)
          · simp at hq; subst hq; exact Nat.le_refl _
        | some cur =>
          obtain ⟨hm, hmax⟩ := h1 cur hf
          simp only
          by_cases hq : cur.quality < x.quality
          · rw [if_pos hq]
            simp only [AMap.find_set_self, Option.some.injEq, reduceCtorEq, false_implies, and_true]
            rintro r rfl
            refine ⟨by simp, fun q hq' => ?_⟩
            rcases List.mem_append.1 hq' with hq' | hq'
            · have := hmax q hq'; omega
            · simp at hq'; subst hq'; exact Nat.le_refl _
          · rw [if_neg hq]
            simp only [hf, Option.some.injEq, reduceCtorEq, false_implies, and_true]
            rintro r rfl
            refine ⟨by simp [hm], fun q hq' => ?_⟩
            rcases List.mem_append.1 hq' with hq' | hq'
            · exact hmax q hq'
            · simp at hq'; subst hq'; omega
      · have hfind : (reduceTopic m (n, x)).find name = m.find name := by
          unfold reduceTopic
          simp only
          cases m.find n with
          | none => exact AMap.find_set_ne _ _ _ _ hn
          | some cur =>
            simp only
            split
            · exact AMap.find_set_ne _ _ _ _ hn
            · rfl
        rw [hfind]
        constructor
        · intro r hr
          obtain ⟨a, b⟩ := h1 r hr
          refine ⟨by simp [a], fun q hq => ?_⟩
          rcases List.mem_append.1 hq with hq | hq
          · exact b q hq
          · simp [Ne.symm hn] at hq
        · intro hr q hq
          rcases List.mem_append.1 hq with hq | hq
          · exact h2 hr q hq
          · simp [Ne.symm hn] at hq
    have := ih (done ++ [(n, x)]) (reduceTopic m (n, x)) step.1 step.2
    simpa using this

/-- **C43.** `GetTopics` reports for each topic name (of publishers and subscribers together,
in any order) an entity of that topic with the highest quality, and no other names. -/
theorem C43_topics (l : List (String × TopicInfo)) (name : String) :
    (∀ r, (reduceTopics l).find name = some r →
      (name, r) ∈ l ∧ ∀ q, (name, q) ∈ l → q.quality ≤ r.quality) ∧
    ((reduceTopics l).find name = none ↔ ∀ q, (name, q) ∉ l) := by
  obtain ⟨a, b⟩ := reduceTopics_spec name l [] [] (by simp) (by simp)
  simp only [List.nil_append] at a b
  refine ⟨a, b, fun hno => ?_⟩
  cases hf : (reduceTopics l).find name with
  | none => rfl
  | some r => exact absurd (a r hf).1 (hno r)

/-- **C43.** What "quality" means: a descriptor outweighs everything else, then the encoding counts, then
the type name, and with equal completeness a producer is preferred to a consumer. -/
theorem C43_quality_order (d e : DataType) (p q : Bool) :
    quality d p < quality e q ↔
      (d.descriptor = "" ∧ e.descriptor ≠ "") ∨
      ((d.descriptor = "" ↔ e.descriptor = "") ∧
        ((d.encoding = "" ∧ e.encoding ≠ "") ∨
         ((d.encoding = "" ↔ e.encoding = "") ∧
           ((d.name = "" ∧ e.name ≠ "") ∨
            ((d.name = "" ↔ e.name = "") ∧ p = false ∧ q = true))))) := by
  unfold quality
  by_cases h1 : d.descriptor = "" <;> by_cases h2 : e.descriptor = "" <;>
  by_cases h3 : d.encoding = "" <;> by_cases h4 : e.encoding = "" <;>
  by_cases h5 : d.name = "" <;> by_cases h6 : e.name = "" <;>
  cases p <;> cases q <;> simp [h1, h2, h3, h4, h5, h6]

/-! ### Services -/

/-- `a` is at least as good as `b` in both qualities and better in one. -/
def Dominates (a b : ServiceInfo) : Prop :=
  b.reqQ ≤ a.reqQ ∧ b.respQ ≤ a.respQ ∧ (b.reqQ < a.reqQ ∨ b.respQ < a.respQ)

/-- **C43 (violated).** `GetServices` can report, for a method offered by three servers, an
entry although another server offers a strictly better request description and an equal
response description.  The qualities are those of server registrations (type name and
descriptor for the request; type name only for the response; type name only for the
request). -/
theorem C43_violated_services :
    ∃ (l : List ((String × String) × ServiceInfo)) (r a : ServiceInfo),
      (reduceServices l).find ("s", "m") = some r ∧ (("s", "m"), a) ∈ l ∧ Dominates a r ∧
      ∀ e ∈ l, e.2.reqQ = quality e.2.request true ∧ e.2.respQ = quality e.2.response true :=
  ⟨[(("s", "m"), methodInfo 1 ⟨"m", "A", "d", "", ""⟩ true),
    (("s", "m"), methodInfo 2 ⟨"m", "", "", "B", ""⟩ true),
    (("s", "m"), methodInfo 3 ⟨"m", "A", "", "", ""⟩ true)],
   methodInfo 3 ⟨"m", "A", "", "", ""⟩ true, methodInfo 1 ⟨"m", "A", "d", "", ""⟩ true,
   by decide +kernel, by simp, by unfold Dominates; decide +kernel, by decide +kernel⟩

/-- **C43 (violated).** The same through the API: three server registrations, then
`GetServices`. -/
theorem C43_violated_services_api :
    ∃ (h : List (Int × Op)) (g : Gate), (Gate.init 5).run h = some g ∧
      ((reduceServices (services g.srvs 1).2).find ("s", "m")).map ServiceInfo.request
        = some ⟨"A", "", ""⟩ ∧
      ∃ q, (("s", "m"), q) ∈ (services g.srvs 1).2 ∧ q.request = ⟨"A", "", "d"⟩ :=
  ⟨[(0, .apply (.regService true "1" "s" [⟨"m", "A", "d", "", ""⟩])),
    (0, .apply (.regService true "2" "s" [⟨"m", "", "", "B", ""⟩])),
    (0, .apply (.regService true "3" "s" [⟨"m", "A", "", "", ""⟩]))], _, rfl,
   by decide +kernel, methodInfo 1 ⟨"m", "A", "d", "", ""⟩ true, by decide +kernel, rfl⟩

/-- **C43.** Of entities of equal quality the first one counted is reported: one that is no better than the
one reported so far does not replace it, for topics ... -/
theorem C43_topics_first (l : List (String × TopicInfo)) (name : String) (cur e : TopicInfo)
    (h : (reduceTopics l).find name = some cur) (hq : e.quality ≤ cur.quality) :
    (reduceTopics (l ++ [(name, e)])).find name = some cur := by
  unfold reduceTopics at h ⊢
  rw [List.foldl_append]
  simp only [List.foldl_cons, List.foldl_nil, reduceTopic, h]
  rw [if_neg (by omega)]
  exact h

/-- ... and for methods of services. -/
theorem C43_services_first (l : List ((String × String) × ServiceInfo)) (key : String × String) (cur e : ServiceInfo)
    (h : (reduceServices l).find key = some cur) (h1 : e.reqQ ≤ cur.reqQ) (h2 : e.respQ ≤ cur.respQ) :
    (reduceServices (l ++ [(key, e)])).find key = some cur := by
  unfold reduceServices at h ⊢
  rw [List.foldl_append]
  simp only [List.foldl_cons, List.foldl_nil, reduceService, h]
  rw [if_neg (by simp; omega)]
  exact h

example : ∃ l cur e, (reduceServices l).find ("s", "m") = some cur ∧ e.reqQ ≤ cur.reqQ ∧ e.respQ ≤ cur.respQ ∧ e ≠ cur :=
  ⟨[(("s", "m"), methodInfo 1 ⟨"m", "A", "d", "", ""⟩ true)], _, methodInfo 2 ⟨"m", "A", "e", "", ""⟩ true,
    rfl, by decide +kernel, by decide +kernel, by decide +kernel⟩

/-- What `std::stoull` makes of some texts: a sign is accepted, a negative number wraps. -/
example : stoull " 12x" = some 12 ∧ stoull "-1" = some 18446744073709551615 ∧ stoull "-0" = some 0 ∧ stoull "x" = none ∧
    stoull "18446744073709551616" = none ∧ stoull "+7" = some 7 := by decide +kernel

theorem service_irr (a : ServiceInfo) : ServiceInfo.lt a a = false := by simp [ServiceInfo.lt]

theorem service_trans (a b c : ServiceInfo) (h1 : ServiceInfo.lt a b = true)
    (h2 : ServiceInfo.lt b c = true) : ServiceInfo.lt a c = true := by
  simp only [ServiceInfo.lt, Bool.or_eq_true, decide_eq_true_eq, Bool.and_eq_true, beq_iff_eq] at *
  omega

theorem service_equiv {a b : ServiceInfo} (h1 : ServiceInfo.lt a b = false)
    (h2 : ServiceInfo.lt b a = false) : a.reqQ = b.reqQ ∧ a.respQ = b.respQ := by
  have h1' : ¬ ServiceInfo.lt a b = true := by simp [h1]
  have h2' : ¬ ServiceInfo.lt b a = true := by simp [h2]
  simp only [ServiceInfo.lt, Bool.or_eq_true, decide_eq_true_eq, Bool.and_eq_true, beq_iff_eq] at h1' h2'
  omega

/-- Lexicographic order on the two qualities. -/
def LexLe (a b : ServiceInfo) : Prop := a.reqQ < b.reqQ ∨ (a.reqQ = b.reqQ ∧ a.respQ ≤ b.respQ)

theorem lex_of_lt {a b : ServiceInfo} (h : ServiceInfo.lt a b = true) : LexLe a b := by
  simp only [ServiceInfo.lt, Bool.or_eq_true, decide_eq_true_eq, Bool.and_eq_true, beq_iff_eq] at h
  unfold LexLe
  omega

theorem highestService_spec (l : List ServiceInfo) (b : ServiceInfo)
    (hs : l.Pairwise (fun a b => ServiceInfo.lt a b = true)) (hb : ∀ e ∈ l, LexLe b e) :
    let r := l.foldl (fun best e => if best.reqQ < e.reqQ || best.respQ < e.respQ then e else best) b
    (r = b ∨ r ∈ l) ∧ LexLe b r ∧ ∀ e ∈ l, LexLe e r := by
  induction l generalizing b with
  | nil => simp [LexLe]
  | cons x xs ih =>
    rw [List.pairwise_cons] at hs
    simp only [List.foldl_cons]
    have hbx := hb x (by simp)
    by_cases hq : (b.reqQ < x.reqQ || b.respQ < x.respQ) = true
    · rw [if_pos hq]
      obtain ⟨h1, h2, h3⟩ := ih x hs.2 (fun e he => lex_of_lt (hs.1 e he))
      refine ⟨?_, ?_, ?_⟩
      · right
        rcases h1 with h1 | h1
        · rw [h1]; simp
        · exact List.mem_cons_of_mem _ h1
      · unfold LexLe at *; omega
      · intro e he
        rcases List.mem_cons.1 he with rfl | he
        · exact h2
        · exact h3 e he
    · rw [if_neg hq]
      have hq' : x.reqQ = b.reqQ ∧ x.respQ = b.respQ := by
        simp only [Bool.or_eq_true, decide_eq_true_eq, not_or, Nat.not_lt] at hq
        unfold LexLe at hbx; omega
      obtain ⟨h1, h2, h3⟩ := ih b hs.2 (fun e he => hb e (by simp [he]))
      refine ⟨?_, h2, ?_⟩
      · rcases h1 with h1 | h1
        · left; exact h1
        · right; exact List.mem_cons_of_mem _ h1
      · intro e he
        rcases List.mem_cons.1 he with rfl | he
        · unfold LexLe at *; omega
        · exact h3 e he

/-- **C43 (what holds for services).** The description of one named method
(`GetServiceDescription`, `GetServiceTypeNames` and the client variants) is never dominated:
no listed server is at least as good in both qualities and better in one.
Missing: this fails for `GetServices` (`C43_violated_services`). -/
theorem C43_service_method_partial (l : List ((String × String) × ServiceInfo)) (key : String × String)
    (a : ServiceInfo) (ha : (key, a) ∈ l) :
    ¬ Dominates a (highestService (serviceSet key l)) ∧
    (highestService (serviceSet key l) = {} ∨ (key, highestService (serviceSet key l)) ∈ l) := by
  have hset : serviceSet key l = ((l.filter (fun e => e.1 == key)).map Prod.snd).foldl
      (fun a e => setInsert ServiceInfo.lt e a) [] := foldl_map_insert Prod.snd _ _ _
  have hmem : ∀ q, q ∈ (l.filter (fun e => e.1 == key)).map Prod.snd ↔ (key, q) ∈ l := by
    intro q
    simp only [List.mem_map, List.mem_filter, beq_iff_eq]
    constructor
    · rintro ⟨⟨n, x⟩, ⟨hm, rfl⟩, rfl⟩; exact hm
    · intro hm; exact ⟨(key, q), ⟨hm, rfl⟩, rfl⟩
  obtain ⟨z, hz, e1, e2⟩ := insertAll_represented ServiceInfo.lt service_irr _ [] a ((hmem a).2 ha)
  rw [← hset] at hz
  have hsorted : (serviceSet key l).Pairwise (fun a b => ServiceInfo.lt a b = true) := by
    rw [hset]; exact insertAll_sorted _ service_trans _ _ List.Pairwise.nil
  obtain ⟨h1, _, h3⟩ := highestService_spec (serviceSet key l) {} hsorted
    (fun e _ => by unfold LexLe; simp; omega)
  constructor
  · intro hd
    have := h3 z hz
    have heq := service_equiv e1 e2
    unfold Dominates at hd
    unfold LexLe at this
    unfold highestService at hd
    omega
  · rcases h1 with h1 | h1
    · left; exact h1
    · right
      have : highestService (serviceSet key l) ∈ serviceSet key l := h1
      rw [hset] at this
      rcases mem_insertAll _ _ _ _ this with h | h
      · rw [← hset] at h; exact (hmem _).1 h
      · cases h

/-- The hypotheses of `C43_service_method_partial` hold for three servers with different
descriptions, and the best one is reported. -/
example :
    let l := [(("s", "m"), methodInfo 1 ⟨"m", "A", "d", "", ""⟩ true),
      (("s", "m"), methodInfo 2 ⟨"m", "", "", "B", ""⟩ true),
      (("s", "m"), methodInfo 3 ⟨"m", "A", "", "", ""⟩ true)]
    (("s", "m"), methodInfo 2 ⟨"m", "", "", "B", ""⟩ true) ∈ l ∧
    (highestService (serviceSet ("s", "m") l)).id = 1 := by decide +kernel

/-- A subscriber with a descriptor beats a publisher without one. -/
example : ∃ g, (Gate.init 5).run
      [(0, .apply (.regTopic true "17" "a" ⟨"T", "", ""⟩)),
       (1, .apply (.regTopic false "18" "a" ⟨"T", "e", "d"⟩))] = some g ∧
    topicType "a" (topics g.pubs 2).2 (topics g.subs 2).2 = (⟨18, ⟨"T", "e", "d"⟩, 14⟩, true) :=
  ⟨_, rfl, by decide +kernel⟩

end Ecal.Desc
