import Verif.Desc.OverviewLemmas

/-!
# C134: overviews, name lists and single queries tell the same story
-/

namespace Ecal.Desc.Overview

/-! ### Listings -/

theorem mem_listTopics (s : ExpMap.State TopicKey TopicInfo) (now : Int) (e : String × TopicInfo) :
    e ∈ listTopics s now ↔ e ∈ (topics s now).2 := by
  simp only [listTopics, mem_insAll, List.not_mem_nil, or_false, List.mem_map, topics]

theorem mem_listServices (s : ExpMap.State ServiceKey ServiceInfo) (now : Int) (e : (String × String) × ServiceInfo) :
    e ∈ listServices s now ↔ e ∈ (services s now).2 := by
  simp only [listServices, mem_insAll, List.not_mem_nil, or_false, List.mem_map, services]

theorem listTopics_sorted (s : ExpMap.State TopicKey TopicInfo) (now : Int) :
    Sorted (fun a b : String × TopicInfo => strLt a.1 b.1) (listTopics s now) :=
  sorted_insAll _ (fun a b c => strLt_trans a.1 b.1 c.1) (fun a => strLt_irr a.1) _ _ List.Pairwise.nil

theorem named_pairwise {K V : Type} [DecidableEq K] (k : K) (R : V → V → Prop) (l : List (K × V))
    (h : l.Pairwise (fun a b => a.1 = k → b.1 = k → R a.2 b.2)) : (named k l).Pairwise R := by
  induction l with
  | nil => exact List.Pairwise.nil
  | cons x xs ih =>
    rw [List.pairwise_cons] at h
    rw [named_cons]
    by_cases hx : x.1 = k
    · rw [if_pos hx, List.pairwise_cons]
      exact ⟨fun v hv => h.1 (k, v) ((mem_named k xs v).1 hv) hx rfl, ih h.2⟩
    · rw [if_neg hx]; exact ih h.2

theorem topic_ids_list (m : List (TopicKey × (TopicInfo × Nat))) (hid : ∀ e ∈ m, e.2.1.id = e.1.id) (k : String) :
    (named k (insAll (fun a b : String × TopicInfo => strLt a.1 b.1)
      ((insAll (fun a b : TopicKey × (TopicInfo × Nat) => topicKeyLt a.1 b.1) m []).map fun e => (e.1.name, e.2.1)) [])).Pairwise
      (fun a b => a.id ≤ b.id) := by
  rw [named_insAll strLt strLt_trans strLt_irr k _ [] List.Pairwise.nil]
  have hn : named k ([] : List (String × TopicInfo)) = [] := rfl
  rw [hn, List.nil_append]
  apply named_pairwise
  rw [List.pairwise_map]
  have hs : (insAll (fun a b : TopicKey × (TopicInfo × Nat) => topicKeyLt a.1 b.1) m []).Pairwise
      (fun a b => topicKeyLt b.1 a.1 = false) :=
    sorted_insAll (fun a b : TopicKey × (TopicInfo × Nat) => topicKeyLt a.1 b.1)
      (fun a b c => topicKeyLt_trans a.1 b.1 c.1) (fun a => topicKeyLt_irr a.1) m [] List.Pairwise.nil
  refine hs.imp_of_mem ?_
  intro a b ha hb hlt e1 e2
  have ha' := hid a (by simpa [mem_insAll] using ha)
  have hb' := hid b (by simpa [mem_insAll] using hb)
  simp only at e1 e2
  simp only [topicKeyLt, e1, e2, strLt_irr, Bool.false_or, beq_self_eq_true, Bool.true_and, decide_eq_false_iff_not] at hlt
  show a.2.1.id ≤ b.2.1.id
  omega

theorem topic_ids {T now : Int} {s : ExpMap.State TopicKey TopicInfo} {pub : Bool}
    {P : TopicKey → Option (DataType × Int)}
    (h : Tracks T s (fun k => (P k).map (topicEntry pub k)) now) (k : String) :
    (named k (listTopics s now)).Pairwise (fun a b => a.id ≤ b.id) := by
  obtain ⟨h1, h2⟩ := h.expire (Int.le_refl now)
  have hid : ∀ e ∈ (ExpMap.eraseExpired s now).1.map, e.2.1.id = e.1.id := by
    rintro ⟨k, v, id⟩ hm
    obtain ⟨r, hL, _⟩ := (h2 k v).1 ((mem_map_iff _ h1.nodup k v).1 ⟨id, hm⟩)
    cases hP : P k with
    | none => simp [hP] at hL
    | some p =>
      simp only [hP, Option.map_some, Option.some.injEq, topicEntry, Prod.mk.injEq] at hL
      show v.id = k.id
      rw [← hL.1]
  exact topic_ids_list _ hid k

theorem method_ids_list (m : List (ServiceKey × (ServiceInfo × Nat))) (hid : ∀ e ∈ m, e.2.1.id = e.1.id) (k : (String × String)) :
    (named k (insAll (fun a b : (String × String) × ServiceInfo => methodLt a.1 b.1)
      ((insAll (fun a b : ServiceKey × (ServiceInfo × Nat) => serviceKeyLt a.1 b.1) m []).map fun e => ((e.1.service, e.1.method), e.2.1)) [])).Pairwise
      (fun a b => a.id ≤ b.id) := by
  rw [named_insAll methodLt methodLt_trans methodLt_irr k _ [] List.Pairwise.nil]
  have hn : named k ([] : List ((String × String) × ServiceInfo)) = [] := rfl
  rw [hn, List.nil_append]
  apply named_pairwise
  rw [List.pairwise_map]
  have hs : (insAll (fun a b : ServiceKey × (ServiceInfo × Nat) => serviceKeyLt a.1 b.1) m []).Pairwise
      (fun a b => serviceKeyLt b.1 a.1 = false) :=
    sorted_insAll (fun a b : ServiceKey × (ServiceInfo × Nat) => serviceKeyLt a.1 b.1)
      (fun a b c => serviceKeyLt_trans a.1 b.1 c.1) (fun a => serviceKeyLt_irr a.1) m [] List.Pairwise.nil
  refine hs.imp_of_mem ?_
  intro a b ha hb hlt e1 e2
  have ha' := hid a (by simpa [mem_insAll] using ha)
  have hb' := hid b (by simpa [mem_insAll] using hb)
  simp only at e1 e2
  simp only [serviceKeyLt, e1, e2, methodLt_irr, Bool.false_or, beq_self_eq_true, Bool.true_and, decide_eq_false_iff_not] at hlt
  show a.2.1.id ≤ b.2.1.id
  omega

theorem method_ids {T now : Int} {s : ExpMap.State ServiceKey ServiceInfo} {pub : Bool}
    {P : ServiceKey → Option (Method × Int)}
    (h : Tracks T s (fun k => (P k).map (methodEntry pub k)) now) (k : (String × String)) :
    (named k (listServices s now)).Pairwise (fun a b => a.id ≤ b.id) := by
  obtain ⟨h1, h2⟩ := h.expire (Int.le_refl now)
  have hid : ∀ e ∈ (ExpMap.eraseExpired s now).1.map, e.2.1.id = e.1.id := by
    rintro ⟨k, v, id⟩ hm
    obtain ⟨r, hL, _⟩ := (h2 k v).1 ((mem_map_iff _ h1.nodup k v).1 ⟨id, hm⟩)
    cases hP : P k with
    | none => simp [hP] at hL
    | some p =>
      simp only [hP, Option.map_some, Option.some.injEq, methodEntry, methodInfo, Prod.mk.injEq] at hL
      show v.id = k.id
      rw [← hL.1]
  exact method_ids_list _ hid k

/-! ### Topics -/

theorem reduceTopics_find (l : List (String × TopicInfo)) (name : String) :
    (reduceTopics l).find name = (named name l).foldl (pick fun c e => decide (c.quality < e.quality)) none := by
  have e : reduceTopic = reduceG (fun c e : TopicInfo => decide (c.quality < e.quality)) := by
    funext m e
    unfold reduceTopic reduceG
    cases m.find e.1 with
    | none => rfl
    | some c => simp only [decide_eq_true_eq]
  unfold reduceTopics
  rw [e, reduceG_find]
  rfl

theorem topic_same {a b : TopicInfo} (h1 : TopicInfo.lt a b = false) (h2 : TopicInfo.lt b a = false) :
    a.quality = b.quality ∧ a.id = b.id := by
  have h1' : ¬ TopicInfo.lt a b = true := by simp [h1]
  have h2' : ¬ TopicInfo.lt b a = true := by simp [h2]
  simp only [TopicInfo.lt, Bool.or_eq_true, decide_eq_true_eq, Bool.and_eq_true, beq_iff_eq] at h1' h2'
  omega

theorem topic_trans (a b c : TopicInfo) (h1 : TopicInfo.lt a b = true) (h2 : TopicInfo.lt b c = true) :
    TopicInfo.lt a c = true := by
  simp only [TopicInfo.lt, Bool.or_eq_true, decide_eq_true_eq, Bool.and_eq_true, beq_iff_eq] at *
  omega

theorem topicSet_named (name : String) (l : List (String × TopicInfo)) (acc : List TopicInfo) :
    topicSet name l acc = (named name l).foldl (fun a e => setInsert TopicInfo.lt e a) acc :=
  foldl_map_insert Prod.snd TopicInfo.lt _ acc

theorem quality_parity (ty : DataType) : quality ty true % 2 = 1 ∧ quality ty false % 2 = 0 := by
  unfold quality
  constructor <;> (split <;> split <;> split <;> simp)

/-- **C134.** After any history the type listed for a topic in the overview is the one the query for this topic gives,
and the query succeeds. -/
theorem C134_topics_agree (T t0 now : Int) (h : List (Int × Op)) (g : Gate) (hc : Clock t0 h now)
    (hr : (Gate.init T).run h = some g) (name : String) (r : TopicInfo)
    (hf : (getTopicsQuality (some g) now).find name = some r) :
    getTopicDataTypeInformation name (some g) now = (r.info, true) := by
  have tr := gate_history hc hr
  have hfind : (named name (listTopics g.pubs now) ++ named name (listTopics g.subs now)).foldl
      (pick fun c e => decide (c.quality < e.quality)) none = some r := by
    rw [← named_insAll strLt strLt_trans strLt_irr name _ _ (listTopics_sorted g.pubs now), ← reduceTopics_find]
    exact hf
  have hmax := (C43_topics (insAll (fun a b => strLt a.1 b.1) (listTopics g.subs now) (listTopics g.pubs now)) name).1 r hf
  simp only [mem_insAll] at hmax
  obtain ⟨hrm, hge⟩ := hmax
  obtain ⟨hq1, _, _⟩ := topicType_max name (listTopics g.pubs now) (listTopics g.subs now)
  have hok : (topicType name (listTopics g.pubs now) (listTopics g.subs now)).2 = true :=
    hq1.2 ⟨r, hrm.symm⟩
  have hpq : ∀ q, (name, q) ∈ listTopics g.pubs now →
      ∃ ty t, lastTopic true name q.id h none = some (ty, t) ∧ q.info = ty ∧ q.quality = quality ty true := by
    intro q hq
    obtain ⟨ty, t, a, _, b, c⟩ := (C42_publishers T t0 now h g hc hr name q).1 ((mem_listTopics _ _ _).1 hq)
    exact ⟨ty, t, a, b, c⟩
  have hsq : ∀ q, (name, q) ∈ listTopics g.subs now →
      ∃ ty t, lastTopic false name q.id h none = some (ty, t) ∧ q.info = ty ∧ q.quality = quality ty false := by
    intro q hq
    obtain ⟨ty, t, a, _, b, c⟩ := (C42_subscribers T t0 now h g hc hr name q).1 ((mem_listTopics _ _ _).1 hq)
    exact ⟨ty, t, a, b, c⟩
  suffices hinfo : (topicType name (listTopics g.pubs now) (listTopics g.subs now)).1.info = r.info by
    simp only [getTopicDataTypeInformation, getPublishers, getSubscribers, hinfo, hok]
  have hfold : (topicType name (listTopics g.pubs now) (listTopics g.subs now)).1
      = ((named name (listTopics g.subs now)).foldl (fun a e => setInsert TopicInfo.lt e a) []
          |>.foldl (fun a e => setInsert TopicInfo.lt e a)
            ((named name (listTopics g.pubs now)).foldl (fun a e => setInsert TopicInfo.lt e a) [])).foldl
        (fun c e => if decide (c.quality < e.quality) = true then e else c) {} := by
    simp only [topicType, highestTopic, topicSet_named, decide_eq_true_eq]
  rw [hfold]
  generalize hLp : named name (listTopics g.pubs now) = Lp at *
  generalize hLs : named name (listTopics g.subs now) = Ls at *
  generalize hSs : Ls.foldl (fun a e => setInsert TopicInfo.lt e a) [] = Ss
  generalize hSp : Lp.foldl (fun a e => setInsert TopicInfo.lt e a) [] = Sp
  generalize hS : Ss.foldl (fun a e => setInsert TopicInfo.lt e a) Sp = S
  have memp : ∀ q, q ∈ Lp ↔ (name, q) ∈ listTopics g.pubs now := fun q => by rw [← hLp]; exact mem_named _ _ _
  have mems : ∀ q, q ∈ Ls ↔ (name, q) ∈ listTopics g.subs now := fun q => by rw [← hLs]; exact mem_named _ _ _
  have hP : ∀ c e : TopicInfo, e.quality ≤ r.quality → (c.quality == r.quality) = true →
      decide (c.quality < e.quality) = false := by
    intro c e h1 h2
    rw [beq_iff_eq] at h2
    simp; omega
  have hN : ∀ c e : TopicInfo, c.quality ≤ r.quality → (c.quality == r.quality) = false →
      (e.quality == r.quality) = true → decide (c.quality < e.quality) = true := by
    intro c e h1 h2 h3
    rw [beq_iff_eq] at h3
    rw [beq_eq_false_iff_ne] at h2
    simp; omega
  have hle : ∀ x ∈ Lp ++ Ls, x.quality ≤ r.quality := by
    intro x hx
    apply hge x
    rcases List.mem_append.1 hx with hx | hx
    · right; exact (memp x).1 hx
    · left; exact (mems x).1 hx
  have hsubs : ∀ z ∈ S, z ∈ Lp ++ Ls := by
    intro z hz
    rw [← hS] at hz
    rcases mem_insertAll _ _ _ _ hz with hz | hz
    · rw [← hSs] at hz
      rcases mem_insertAll _ _ _ _ hz with hz | hz
      · simp [hz]
      · cases hz
    · rw [← hSp] at hz
      rcases mem_insertAll _ _ _ _ hz with hz | hz
      · simp [hz]
      · cases hz
  have hrep : ∀ x ∈ Lp ++ Ls, ∃ z ∈ S, z.quality = x.quality ∧ z.id = x.id := by
    intro x hx
    rcases List.mem_append.1 hx with hx | hx
    · obtain ⟨z, hz, h1, h2⟩ := insertAll_represented TopicInfo.lt topic_irr Lp [] x hx
      rw [hSp] at hz
      exact ⟨z, by rw [← hS]; exact old_mem_insertAll _ _ _ _ hz, topic_same h1 h2⟩
    · obtain ⟨z, hz, h1, h2⟩ := insertAll_represented TopicInfo.lt topic_irr Ls [] x hx
      rw [hSs] at hz
      obtain ⟨z', hz', h1', h2'⟩ := insertAll_represented TopicInfo.lt topic_irr Ss Sp z hz
      have e1 := topic_same h1 h2
      have e2 := topic_same h1' h2'
      exact ⟨z', by rw [← hS]; exact hz', e2.1.trans e1.1, e2.2.trans e1.2⟩
  have hrL : r ∈ Lp ++ Ls := by
    rcases hrm with h' | h'
    · exact List.mem_append.2 (Or.inr ((mems r).2 h'))
    · exact List.mem_append.2 (Or.inl ((memp r).2 h'))
  by_cases hz : r.quality = 0
  · rw [fold_keep _ (fun x : TopicInfo => x.quality == r.quality) (fun x => x.quality ≤ r.quality) hP S {}
      (fun x hx => hle x (hsubs x hx)) (by simp [hz])]
    rcases hrm with h' | h'
    · obtain ⟨ty, _, _, e1, e2⟩ := hsq r h'
      rw [e1, quality_zero ty false (by rw [← e2]; exact hz)]
    · obtain ⟨ty, _, _, e1, e2⟩ := hpq r h'
      rw [e1, quality_zero ty true (by rw [← e2]; exact hz)]
  · obtain ⟨r1, hr1⟩ := find_exists (fun x : TopicInfo => x.quality == r.quality) (Lp ++ Ls) r hrL (by simp)
    have hrr : r1 = r := by
      have := pick_first _ _ (fun x : TopicInfo => x.quality ≤ r.quality) hP hN (Lp ++ Ls) r1 hle hr1
      rw [hfind] at this
      simpa using this.symm
    subst hrr
    obtain ⟨z0, hz0, e0, _⟩ := hrep r1 hrL
    obtain ⟨z, hz1⟩ := find_exists (fun x : TopicInfo => x.quality == r1.quality) S z0 hz0 (by simp [e0])
    rw [fold_first _ (fun x : TopicInfo => x.quality == r1.quality) (fun x => x.quality ≤ r1.quality) hP hN S {} z
      (fun x hx => hle x (hsubs x hx)) (by simp) (by simpa using fun e => hz e.symm) hz1]
    have hcross : ∀ a ∈ Lp, ∀ b ∈ Ls, a.quality ≠ b.quality := by
      intro a ha b hb e
      obtain ⟨ty, _, _, _, e1⟩ := hpq a ((memp a).1 ha)
      obtain ⟨ty', _, _, _, e2⟩ := hsq b ((mems b).1 hb)
      have p1 := (quality_parity ty).1
      have p2 := (quality_parity ty').2
      omega
    have hid := same_id TopicInfo.id (fun x : TopicInfo => x.quality == r1.quality) (Lp ++ Ls) S
      (by
        rw [List.pairwise_append]
        refine ⟨?_, ?_, ?_⟩
        · rw [← hLp]; exact (topic_ids tr.pubs name).imp (fun h _ _ => h)
        · rw [← hLs]; exact (topic_ids tr.subs name).imp (fun h _ _ => h)
        · intro a ha b hb h1 h2
          rw [beq_iff_eq] at h1 h2
          exact absurd (h1.trans h2.symm) (hcross a ha b hb))
      (by
        have hs : S.Pairwise (fun a b => TopicInfo.lt a b = true) := by
          rw [← hS, ← hSp]
          exact insertAll_sorted _ topic_trans _ _ (insertAll_sorted _ topic_trans _ _ List.Pairwise.nil)
        refine hs.imp ?_
        intro a b hlt h1 h2
        rw [beq_iff_eq] at h1 h2
        simp only [TopicInfo.lt, Bool.or_eq_true, decide_eq_true_eq, Bool.and_eq_true, beq_iff_eq] at hlt
        omega)
      hsubs
      (by
        intro x hx hPx
        rw [beq_iff_eq] at hPx
        obtain ⟨z, hz, e1, e2⟩ := hrep x hx
        exact ⟨z, hz, by simp [e1, hPx], e2⟩)
      r1 z hr1 hz1
    have hzq : z.quality = r1.quality := by simpa using List.find?_some hz1
    have hzL := hsubs z (List.mem_of_find?_eq_some hz1)
    rcases List.mem_append.1 hzL with hzp | hzs <;> rcases List.mem_append.1 hrL with hrp | hrs
    · obtain ⟨ty, _, e1, e2, _⟩ := hpq z ((memp z).1 hzp)
      obtain ⟨ty', _, e1', e2', _⟩ := hpq r1 ((memp r1).1 hrp)
      rw [← hid, e1'] at e1
      simp only [Option.some.injEq, Prod.mk.injEq] at e1
      rw [e2, e2', e1.1]
    · exact absurd hzq (hcross z hzp r1 hrs)
    · exact absurd hzq.symm (hcross r1 hrp z hzs)
    · obtain ⟨ty, _, e1, e2, _⟩ := hsq z ((mems z).1 hzs)
      obtain ⟨ty', _, e1', e2', _⟩ := hsq r1 ((mems r1).1 hrs)
      rw [← hid, e1'] at e1
      simp only [Option.some.injEq, Prod.mk.injEq] at e1
      rw [e2, e2', e1.1]

/-- Two publishers and a subscriber of one topic; a tie is decided in favour of the smaller id. -/
example : ∃ g, (Gate.init 5).run
      [(0, .apply (.regTopic true "18" "a" ⟨"T", "", "x"⟩)), (1, .apply (.regTopic true "17" "a" ⟨"U", "", "y"⟩)),
       (1, .apply (.regTopic false "3" "a" ⟨"V", "", "z"⟩))] = some g ∧ Clock 0
      [(0, .apply (.regTopic true "18" "a" ⟨"T", "", "x"⟩)), (1, .apply (.regTopic true "17" "a" ⟨"U", "", "y"⟩)),
       (1, .apply (.regTopic false "3" "a" ⟨"V", "", "z"⟩))] 2 ∧
    (getTopicsQuality (some g) 2).find "a" = some ⟨17, ⟨"U", "", "y"⟩, 11⟩ :=
  ⟨_, rfl, by unfold Clock Clock Clock Clock; decide, by decide +kernel⟩

/-- **C134.** A topic is missing in the overview iff the query for it fails; the query then clears its output. -/
theorem C134_topics_missing (g : Option Gate) (now : Int) (name : String) :
    ((getTopicsQuality g now).find name = none ↔ (getTopicDataTypeInformation name g now).2 = false) ∧
    ((getTopicDataTypeInformation name g now).2 = false → (getTopicDataTypeInformation name g now).1 = {}) := by
  cases g with
  | none => simp [getTopicsQuality, getTopicDataTypeInformation, getPublishers, getSubscribers, topicType, topicSet, highestTopic]
  | some g =>
    obtain ⟨hq1, _, hq3⟩ := topicType_max name (listTopics g.pubs now) (listTopics g.subs now)
    have hno := (C43_topics (insAll (fun a b => strLt a.1 b.1) (listTopics g.subs now) (listTopics g.pubs now)) name).2
    simp only [mem_insAll] at hno
    have hkey : (topicType name (listTopics g.pubs now) (listTopics g.subs now)).2 = false ↔
        ∀ q, ¬ ((name, q) ∈ listTopics g.pubs now ∨ (name, q) ∈ listTopics g.subs now) := by
      rw [← Bool.not_eq_true, hq1]
      simp
    simp only [getTopicsQuality, getTopicDataTypeInformation, getPublishers, getSubscribers]
    refine ⟨?_, ?_⟩
    · rw [hno, hkey]
      constructor
      · intro h q hq; exact h q hq.symm
      · intro h q hq; exact h q hq.symm
    · intro h
      rw [hkey] at h
      rcases hq3 with h3 | h3
      · rw [h3]
      · exact absurd h3 (h _)

theorem strLt_tri (a b : String) (h1 : strLt a b = false) (h2 : strLt b a = false) : a = b := by
  simp only [strLt, decide_eq_false_iff_not, String.not_lt] at h1 h2
  exact String.le_antisymm h2 h1

theorem methodLt_tri (a b : String × String) (h1 : methodLt a b = false) (h2 : methodLt b a = false) : a = b := by
  obtain ⟨a1, a2⟩ := a
  obtain ⟨b1, b2⟩ := b
  simp only [methodLt, Bool.or_eq_false_iff] at h1 h2
  have e := strLt_tri _ _ h1.1 h2.1
  subst e
  have h1' := h1.2
  have h2' := h2.2
  simp only [beq_self_eq_true, Bool.true_and] at h1' h2'
  rw [strLt_tri _ _ h1' h2']

theorem mem_nameSet {K V : Type} (lt : K → K → Bool) (irr : ∀ a, lt a a = false)
    (tri : ∀ a b, lt a b = false → lt b a = false → a = b) (l : List (K × V)) (acc : List K) (k : K) :
    k ∈ l.foldl (fun a e => setInsert lt e.1 a) acc ↔ (∃ v, (k, v) ∈ l) ∨ k ∈ acc := by
  rw [foldl_map_insert Prod.fst lt l acc]
  have hm : k ∈ l.map Prod.fst ↔ ∃ v, (k, v) ∈ l := by simp
  rw [← hm]
  constructor
  · exact mem_insertAll lt _ _ _
  · rintro (h | h)
    · obtain ⟨z, hz, h1, h2⟩ := insertAll_represented lt irr (l.map Prod.fst) acc k h
      rw [← tri z k h1 h2]
      exact hz
    · exact old_mem_insertAll lt _ _ _ h

/-- **C134.** The list of topic names has exactly the names in the overview, each once and in alphabetical order. -/
theorem C134_topic_names (g : Option Gate) (now : Int) :
    (∀ name, name ∈ getTopicNames g now ↔ ((getTopicsQuality g now).find name).isSome = true) ∧
    (getTopicNames g now).Pairwise (fun a b => a < b) := by
  constructor
  · intro name
    unfold getTopicNames
    rw [mem_nameSet strLt strLt_irr strLt_tri, mem_nameSet strLt strLt_irr strLt_tri]
    cases g with
    | none => simp [getTopicsQuality, getPublishers, getSubscribers]
    | some g =>
      have hno := (C43_topics (insAll (fun a b => strLt a.1 b.1) (listTopics g.subs now) (listTopics g.pubs now)) name).2
      simp only [mem_insAll] at hno
      simp only [getPublishers, getSubscribers, getTopicsQuality, List.not_mem_nil, or_false]
      rw [Option.isSome_iff_ne_none, Ne, hno]
      constructor
      · rintro (⟨v, h⟩ | ⟨v, h⟩) hn
        · exact hn v (Or.inl h)
        · exact hn v (Or.inr h)
      · intro hn
        by_cases h1 : ∃ v, (name, v) ∈ listTopics g.subs now
        · left; exact h1
        · right
          by_cases h2 : ∃ v, (name, v) ∈ listTopics g.pubs now
          · exact h2
          · refine absurd ?_ hn
            rintro q (h | h)
            · exact h1 ⟨q, h⟩
            · exact h2 ⟨q, h⟩
  · unfold getTopicNames
    rw [foldl_map_insert Prod.fst strLt, foldl_map_insert Prod.fst strLt]
    exact (insertAll_sorted strLt strLt_trans _ _ (insertAll_sorted strLt strLt_trans _ _ List.Pairwise.nil)).imp
      (fun h => by simpa [strLt] using h)

example : ∃ g, (Gate.init 5).run
      [(0, .apply (.regTopic true "18" "b" {})), (1, .apply (.regTopic true "17" "a" {})),
       (1, .apply (.regTopic false "3" "b" {})), (1, .apply (.regTopic false "4" "c" {}))] = some g ∧
    getTopicNames (some g) 2 = ["a", "b", "c"] :=
  ⟨_, rfl, by decide +kernel⟩

theorem find_map {K V W : Type} [DecidableEq K] (f : V → W) (m : AMap K V) (k : K) :
    AMap.find (m.map fun e => (e.1, f e.2)) k = (m.find k).map f := by
  induction m with
  | nil => rfl
  | cons e m ih =>
    obtain ⟨a, b⟩ := e
    simp only [List.map_cons, AMap.find_cons]
    by_cases h : a = k
    · simp [h]
    · simp [h, ih]

/-- **C134.** The overview without qualities is the overview with qualities, with id and quality left out. -/
theorem C134_plain (g : Option Gate) (now : Int) (server : Bool) :
    (∀ name, (getTopics g now).find name = ((getTopicsQuality g now).find name).map TopicInfo.info) ∧
    (∀ key, (getMethodsInfo server g now).find key =
      ((getMethodsQuality server g now).find key).map fun q => (q.request, q.response)) :=
  ⟨fun name => find_map TopicInfo.info _ name, fun key => find_map (fun q : ServiceInfo => (q.request, q.response)) _ key⟩

/-- **C134.** Without a description gate (before initialisation, after finalisation) everything is empty and every query
fails. -/
theorem C134_no_gate (now : Int) (server : Bool) (a b : String) :
    getTopicsQuality none now = [] ∧ getTopics none now = [] ∧ getTopicNames none now = [] ∧
    getTopicDataTypeInformation a none now = ({}, false) ∧ getMethodsQuality server none now = [] ∧
    getMethodsInfo server none now = [] ∧ getMethodNames server none now = [] ∧
    getTypeNames server a b none now = (("", ""), false) ∧ getDescription server a b none now = (("", ""), false) :=
  ⟨rfl, rfl, rfl, rfl, rfl, rfl, rfl, rfl, rfl⟩

/-! ### Methods of services and clients -/

theorem reduceServices_find (l : List ((String × String) × ServiceInfo)) (key : String × String) :
    (reduceServices l).find key =
      (named key l).foldl (pick fun c e => decide (c.reqQ < e.reqQ) || decide (c.respQ < e.respQ)) none := by
  have e : reduceService = reduceG (fun c e : ServiceInfo => decide (c.reqQ < e.reqQ) || decide (c.respQ < e.respQ)) := by
    funext m e
    unfold reduceService reduceG
    cases m.find e.1 <;> rfl
  unfold reduceServices
  rw [e, reduceG_find]
  rfl

theorem pick_none {V : Type} (better : V → V → Bool) (l : List V) : l.foldl (pick better) none = none ↔ l = [] := by
  cases l with
  | nil => simp
  | cons x xs => simp [pick, pick_some]

theorem beq_dec {K : Type} [DecidableEq K] (a b : K) (h : a ≠ b) : (a == b) = false := by simp [h]

theorem serviceSet_named (key : String × String) (l : List ((String × String) × ServiceInfo)) :
    serviceSet key l = (named key l).foldl (fun a e => setInsert ServiceInfo.lt e a) [] := by
  unfold serviceSet named
  rw [foldl_map_insert Prod.snd ServiceInfo.lt]
  congr 2
  apply List.filter_congr
  intro e _
  by_cases h : e.1 = key
  · simp [h]
  · have h1 : (e.1 == key) = false := by simpa using h
    rw [h1]
    exact (beq_dec e.1 key h).symm

theorem serviceSet_empty (key : String × String) (l : List ((String × String) × ServiceInfo)) :
    serviceSet key l = [] ↔ named key l = [] := by
  rw [serviceSet_named]
  constructor
  · intro h
    cases hn : named key l with
    | nil => rfl
    | cons x xs =>
      obtain ⟨z, hz, _⟩ := insertAll_represented ServiceInfo.lt service_irr (named key l) [] x (by simp [hn])
      rw [h] at hz; cases hz
  · intro h; rw [h]; rfl

/-- **C134.** A method is missing in the overview iff the queries for it fail; they then clear their output. -/
theorem C134_methods_missing (server : Bool) (g : Option Gate) (now : Int) (service method : String) :
    ((getMethodsQuality server g now).find (service, method) = none ↔ (getTypeNames server service method g now).2 = false) ∧
    (getTypeNames server service method g now).2 = (getDescription server service method g now).2 ∧
    ((getTypeNames server service method g now).2 = false →
      (getTypeNames server service method g now).1 = ("", "") ∧ (getDescription server service method g now).1 = ("", "")) := by
  have hiff : (getTypeNames server service method g now).2 = false ↔
      serviceSet (service, method) (getMethods server g now) = [] := by
    simp [getTypeNames]
  refine ⟨?_, rfl, ?_⟩
  · rw [hiff, serviceSet_empty]
    unfold getMethodsQuality
    rw [reduceServices_find]
    exact pick_none _ _
  · intro h
    rw [hiff] at h
    simp [getTypeNames, getDescription, h, highestService]

/-- **C134.** The list of method names has exactly the methods in the overview, each once. -/
theorem C134_method_names (server : Bool) (g : Option Gate) (now : Int) :
    (∀ key, key ∈ getMethodNames server g now ↔ ((getMethodsQuality server g now).find key).isSome = true) ∧
    (getMethodNames server g now).Nodup := by
  constructor
  · intro key
    unfold getMethodNames getMethodsQuality
    rw [mem_nameSet methodLt methodLt_irr methodLt_tri, reduceServices_find, Option.isSome_iff_ne_none, Ne, pick_none]
    simp only [List.not_mem_nil, or_false]
    constructor
    · rintro ⟨v, h⟩ hn
      have := (mem_named _ _ _).2 h
      rw [hn] at this; cases this
    · intro hn
      obtain ⟨v, h⟩ := List.exists_mem_of_ne_nil _ hn
      exact ⟨v, (mem_named _ _ _).1 h⟩
  · unfold getMethodNames
    rw [foldl_map_insert Prod.fst methodLt]
    refine (insertAll_sorted methodLt methodLt_trans _ _ List.Pairwise.nil).imp ?_
    rintro a b h rfl
    rw [methodLt_irr] at h
    cases h

example : ∃ g, (Gate.init 5).run
      [(0, .apply (.regService true "7" "s" [⟨"n", "", "", "", ""⟩, ⟨"m", "A", "", "", ""⟩])),
       (0, .apply (.regService true "8" "s" [⟨"m", "A", "", "", ""⟩]))] = some g ∧
    getMethodNames true (some g) 2 = [("s", "m"), ("s", "n")] ∧ getMethodNames false (some g) 2 = [] :=
  ⟨_, rfl, by decide +kernel, by decide +kernel⟩

theorem service_same {a b : ServiceInfo} (h1 : ServiceInfo.lt a b = false) (h2 : ServiceInfo.lt b a = false) :
    a.reqQ = b.reqQ ∧ a.respQ = b.respQ ∧ a.id = b.id := by
  have h1' : ¬ ServiceInfo.lt a b = true := by simp [h1]
  have h2' : ¬ ServiceInfo.lt b a = true := by simp [h2]
  simp only [ServiceInfo.lt, Bool.or_eq_true, decide_eq_true_eq, Bool.and_eq_true, beq_iff_eq] at h1' h2'
  omega

/-- What is known about a listed method. -/
theorem listed_method (T t0 now : Int) (h : List (Int × Op)) (g : Gate) (hc : Clock t0 h now)
    (hr : (Gate.init T).run h = some g) (server : Bool) (name m : String) (q : ServiceInfo)
    (hq : ((name, m), q) ∈ getMethods server (some g) now) :
    ∃ x t, lastMethod server name m q.id h none = some (x, t) ∧
      q.request = { name := x.reqType, descriptor := x.reqDesc } ∧
      q.response = { name := x.respType, descriptor := x.respDesc } ∧
      q.reqQ = quality q.request server ∧ q.respQ = quality q.response server := by
  cases server with
  | true =>
    simp only [getMethods, if_true] at hq
    obtain ⟨x, t, a, _, b⟩ := (C42_services T t0 now h g hc hr name m q).1 ((mem_listServices _ _ _).1 hq)
    exact ⟨x, t, a, b⟩
  | false =>
    simp only [getMethods, Bool.false_eq_true, if_false] at hq
    obtain ⟨x, t, a, _, b⟩ := (C42_clients T t0 now h g hc hr name m q).1 ((mem_listServices _ _ _).1 hq)
    exact ⟨x, t, a, b⟩

/-- **C134 (what holds for methods).** After any history: if one of the listed servers (clients) of a method is at least
as good as all others in both qualities, the overview and the queries for this method give the same types.
Missing: without such a server they can differ (`C134_violated_methods`). -/
theorem C134_methods_agree_partial (T t0 now : Int) (h : List (Int × Op)) (g : Gate) (hc : Clock t0 h now)
    (hr : (Gate.init T).run h = some g) (server : Bool) (service method : String) (a : ServiceInfo)
    (ha : ((service, method), a) ∈ getMethods server (some g) now)
    (hbest : ∀ b, ((service, method), b) ∈ getMethods server (some g) now → b.reqQ ≤ a.reqQ ∧ b.respQ ≤ a.respQ) :
    ∃ r, (getMethodsQuality server (some g) now).find (service, method) = some r ∧
      getTypeNames server service method (some g) now = ((r.request.name, r.response.name), true) ∧
      getDescription server service method (some g) now = ((r.request.descriptor, r.response.descriptor), true) := by
  have tr := gate_history hc hr
  have hids : (named (service, method) (getMethods server (some g) now)).Pairwise (fun a b => a.id ≤ b.id) := by
    cases server with
    | true => exact method_ids tr.srvs (service, method)
    | false => exact method_ids tr.clis (service, method)
  have hinfo := fun q => listed_method T t0 now h g hc hr server service method q
  unfold getMethodsQuality getTypeNames getDescription
  simp only [reduceServices_find, highestService]
  have hmem := fun q => mem_named (service, method) (getMethods server (some g) now) q
  have hne : serviceSet (service, method) (getMethods server (some g) now) ≠ [] := by
    rw [Ne, serviceSet_empty]
    intro e
    have := (hmem a).2 ha
    rw [e] at this; cases this
  have hsorted : (serviceSet (service, method) (getMethods server (some g) now)).Pairwise
      (fun a b => ServiceInfo.lt a b = true) := by
    rw [serviceSet_named]; exact insertAll_sorted _ service_trans _ _ List.Pairwise.nil
  have hsub : ∀ z ∈ serviceSet (service, method) (getMethods server (some g) now),
      z ∈ named (service, method) (getMethods server (some g) now) := by
    intro z hz
    rw [serviceSet_named] at hz
    rcases mem_insertAll _ _ _ _ hz with hz | hz
    · exact hz
    · cases hz
  have hrep : ∀ x ∈ named (service, method) (getMethods server (some g) now),
      ∃ z ∈ serviceSet (service, method) (getMethods server (some g) now),
        z.reqQ = x.reqQ ∧ z.respQ = x.respQ ∧ z.id = x.id := by
    intro x hx
    obtain ⟨z, hz, h1, h2⟩ := insertAll_represented ServiceInfo.lt service_irr _ [] x hx
    rw [← serviceSet_named] at hz
    exact ⟨z, hz, service_same h1 h2⟩
  have hb : (!(serviceSet (service, method) (getMethods server (some g) now)).isEmpty) = true := by
    simpa using hne
  rw [hb]
  generalize serviceSet (service, method) (getMethods server (some g) now) = S at *
  generalize named (service, method) (getMethods server (some g) now) = L at *
  have hP : ∀ c e : ServiceInfo, (e.reqQ ≤ a.reqQ ∧ e.respQ ≤ a.respQ) →
      (c.reqQ == a.reqQ && c.respQ == a.respQ) = true → (decide (c.reqQ < e.reqQ) || decide (c.respQ < e.respQ)) = false := by
    intro c e h1 h2
    simp only [Bool.and_eq_true, beq_iff_eq] at h2
    simp only [Bool.or_eq_false_iff, decide_eq_false_iff_not]
    omega
  have hN : ∀ c e : ServiceInfo, (c.reqQ ≤ a.reqQ ∧ c.respQ ≤ a.respQ) →
      (c.reqQ == a.reqQ && c.respQ == a.respQ) = false → (e.reqQ == a.reqQ && e.respQ == a.respQ) = true →
      (decide (c.reqQ < e.reqQ) || decide (c.respQ < e.respQ)) = true := by
    intro c e h1 h2 h3
    simp only [Bool.and_eq_true, beq_iff_eq] at h3
    rw [← Bool.not_eq_true] at h2
    simp only [Bool.and_eq_true, beq_iff_eq] at h2
    simp only [Bool.or_eq_true, decide_eq_true_eq]
    omega
  have hle : ∀ x ∈ L, x.reqQ ≤ a.reqQ ∧ x.respQ ≤ a.respQ := fun x hx => hbest x ((hmem x).1 hx)
  have haL := (hmem a).2 ha
  obtain ⟨r, hr1⟩ := find_exists (fun x : ServiceInfo => x.reqQ == a.reqQ && x.respQ == a.respQ) L a haL (by simp)
  have hrL := List.mem_of_find?_eq_some hr1
  have hrq : r.reqQ = a.reqQ ∧ r.respQ = a.respQ := by simpa using List.find?_some hr1
  refine ⟨r, pick_first _ _ _ hP hN L r hle hr1, ?_⟩
  suffices hz : ∃ z : ServiceInfo, S.foldl (fun best e => if (decide (best.reqQ < e.reqQ) || decide (best.respQ < e.respQ)) = true then e else best) {} = z ∧
      z.request = r.request ∧ z.response = r.response by
    obtain ⟨z, e0, e1, e2⟩ := hz
    rw [e0, e1, e2]
    exact ⟨rfl, rfl⟩
  obtain ⟨x, _, hx1, hx2, hx3, hx4, hx5⟩ := hinfo r ((hmem r).1 hrL)
  by_cases hz : a.reqQ = 0 ∧ a.respQ = 0
  · refine ⟨_, fold_keep _ _ _ hP S {} (fun x hx => hle x (hsub x hx)) (by simp [hz]), ?_, ?_⟩
    · exact (quality_zero r.request server (by rw [← hx4]; omega)).symm
    · exact (quality_zero r.response server (by rw [← hx5]; omega)).symm
  · obtain ⟨z0, hz0, e0, e0', _⟩ := hrep a haL
    obtain ⟨z, hz1⟩ := find_exists (fun x : ServiceInfo => x.reqQ == a.reqQ && x.respQ == a.respQ) S z0 hz0 (by simp [e0, e0'])
    refine ⟨z, fold_first _ _ _ hP hN S {} z (fun x hx => hle x (hsub x hx)) (by simp) ?_ hz1, ?_⟩
    · rw [← Bool.not_eq_true]
      simp only [Bool.and_eq_true, beq_iff_eq]
      exact fun e => hz ⟨e.1.symm, e.2.symm⟩
    · have hid := same_id ServiceInfo.id (fun x : ServiceInfo => x.reqQ == a.reqQ && x.respQ == a.respQ) L S
        (hids.imp fun h _ _ => h)
        (by
          refine hsorted.imp ?_
          intro c d hlt h1 h2
          simp only [Bool.and_eq_true, beq_iff_eq] at h1 h2
          simp only [ServiceInfo.lt, Bool.or_eq_true, decide_eq_true_eq, Bool.and_eq_true, beq_iff_eq] at hlt
          omega)
        hsub
        (by
          intro y hy hPy
          simp only [Bool.and_eq_true, beq_iff_eq] at hPy
          obtain ⟨z, hz, e1, e2, e3⟩ := hrep y hy
          exact ⟨z, hz, by simp [e1, e2, hPy], e3⟩)
        r z hr1 hz1
      obtain ⟨y, _, hy1, hy2, hy3, _⟩ := hinfo z ((hmem z).1 (hsub z (List.mem_of_find?_eq_some hz1)))
      rw [← hid, hx1] at hy1
      simp only [Option.some.injEq, Prod.mk.injEq] at hy1
      rw [hx2, hx3, hy2, hy3, hy1.1]
      exact ⟨rfl, rfl⟩

/-- The hypotheses hold for two servers of a method, the second better in both respects. -/
example : ∃ g, (Gate.init 5).run
      [(0, .apply (.regService true "7" "s" [⟨"m", "A", "", "B", ""⟩])),
       (0, .apply (.regService true "8" "s" [⟨"m", "A", "d", "B", "e"⟩]))] = some g ∧
    (("s", "m"), methodInfo 8 ⟨"m", "A", "d", "B", "e"⟩ true) ∈ getMethods true (some g) 2 ∧
    (getMethods true (some g) 2).length = 2 ∧
    ∀ b ∈ getMethods true (some g) 2, b.2.reqQ ≤ 11 ∧ b.2.respQ ≤ 11 :=
  ⟨_, rfl, by decide +kernel, by decide +kernel, by decide +kernel⟩

/-- **C134 (violated).** Two servers offer a method, one with a described request type and one with a described response
type.  The overview shows the second registered, the query for the method the first, although nothing changed in
between. -/
theorem C134_violated_methods :
    ∃ (h : List (Int × Op)) (g : Gate), (Gate.init 5).run h = some g ∧ Clock 0 h 1 ∧
      ((getMethodsInfo true (some g) 1).find ("s", "m")) = some (⟨"A", "", ""⟩, ⟨"B", "", "e"⟩) ∧
      getDescription true "s" "m" (some g) 1 = (("d", ""), true) :=
  ⟨[(0, .apply (.regService true "1" "s" [⟨"m", "A", "d", "B", ""⟩])),
    (0, .apply (.regService true "2" "s" [⟨"m", "A", "", "B", "e"⟩]))], _, rfl,
   by unfold Clock Clock Clock; decide, by decide +kernel, by decide +kernel⟩

/-- **C134.** Of several equally good entities of a topic the one with the smallest id is shown in the overview. -/
theorem C134_topics_smallest_id (T t0 now : Int) (h : List (Int × Op)) (g : Gate) (hc : Clock t0 h now)
    (hr : (Gate.init T).run h = some g) (name : String) (r : TopicInfo)
    (hf : (getTopicsQuality (some g) now).find name = some r) (q : TopicInfo)
    (hq : (name, q) ∈ getPublishers (some g) now ∨ (name, q) ∈ getSubscribers (some g) now) :
    q.quality < r.quality ∨ (q.quality = r.quality ∧ r.id ≤ q.id) := by
  have tr := gate_history hc hr
  have hfind : (named name (listTopics g.pubs now) ++ named name (listTopics g.subs now)).foldl
      (pick fun c e => decide (c.quality < e.quality)) none = some r := by
    rw [← named_insAll strLt strLt_trans strLt_irr name _ _ (listTopics_sorted g.pubs now), ← reduceTopics_find]
    exact hf
  have hmax := (C43_topics (insAll (fun a b => strLt a.1 b.1) (listTopics g.subs now) (listTopics g.pubs now)) name).1 r hf
  simp only [mem_insAll] at hmax
  obtain ⟨hrm, hge⟩ := hmax
  simp only [getPublishers, getSubscribers] at hq
  have hle := hge q hq.symm
  by_cases he : q.quality = r.quality
  · right
    refine ⟨he, ?_⟩
    have hmem : ∀ x, x ∈ named name (listTopics g.pubs now) ++ named name (listTopics g.subs now) ↔
        (name, x) ∈ listTopics g.pubs now ∨ (name, x) ∈ listTopics g.subs now := by
      intro x; rw [List.mem_append, mem_named, mem_named]
    obtain ⟨r1, hr1⟩ := find_exists (fun x : TopicInfo => x.quality == r.quality) _ r ((hmem r).2 hrm.symm) (by simp)
    have := pick_first (fun c e : TopicInfo => decide (c.quality < e.quality)) _ (fun x : TopicInfo => x.quality ≤ r.quality)
      (by intro c e h1 h2; rw [beq_iff_eq] at h2; simp; omega)
      (by intro c e h1 h2 h3; rw [beq_iff_eq] at h3; rw [beq_eq_false_iff_ne] at h2; simp; omega)
      _ r1 (fun x hx => hge x ((hmem x).1 hx).symm) hr1
    rw [hfind] at this
    have hrr : r1 = r := by simpa using this.symm
    subst hrr
    have hpair : (named name (listTopics g.pubs now) ++ named name (listTopics g.subs now)).Pairwise
        (fun a b => a.quality = b.quality → a.id ≤ b.id) := by
      rw [List.pairwise_append]
      refine ⟨(topic_ids tr.pubs name).imp ?_, (topic_ids tr.subs name).imp ?_, ?_⟩
      · intro a b h _; exact h
      · intro a b h _; exact h
      intro a ha b hb e
      obtain ⟨ty, _, _, _, _, e1⟩ := (C42_publishers T t0 now h g hc hr name a).1
        ((mem_listTopics _ _ _).1 ((mem_named _ _ _).1 ha))
      obtain ⟨ty', _, _, _, _, e2⟩ := (C42_subscribers T t0 now h g hc hr name b).1
        ((mem_listTopics _ _ _).1 ((mem_named _ _ _).1 hb))
      have p1 := (quality_parity ty).1
      have p2 := (quality_parity ty').2
      omega
    rcases find_rel hpair hr1 ((hmem q).2 hq) (by simp [he]) with e | e
    · rw [e]; exact Nat.le_refl _
    · exact e he.symm
  · left; omega

end Ecal.Desc.Overview
