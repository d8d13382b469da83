import Verif.Desc.GateLemmas

/-!
# C42: description queries list exactly the live entities

The store starts empty with expiry time `T`; `h` is any history of applied registration
samples and queries with a clock that does not run backwards; the query happens at `now`.
-/

namespace Ecal.Desc

theorem gate_init (T t0 : Int) :
    GateTracks T (Gate.init T) (fun _ => none) (fun _ => none) (fun _ => none) (fun _ => none) t0 :=
  ⟨Tracks.init T t0, Tracks.init T t0, Tracks.init T t0, Tracks.init T t0⟩

theorem gate_history {T t0 now : Int} {h : List (Int × Op)} {g : Gate} (hc : Clock t0 h now)
    (hr : (Gate.init T).run h = some g) :
    GateTracks T g (fun k => lastTopic true k.name k.id h none)
      (fun k => lastTopic false k.name k.id h none)
      (fun k => lastMethod true k.service k.method k.id h none)
      (fun k => lastMethod false k.service k.method k.id h none) now := by
  obtain ⟨g', e, ht⟩ := gate_run (gate_init T t0) h hc (numeric_of_run h hr)
  rw [hr] at e
  cases e
  exact ht

theorem listed_topics {T now : Int} {s : ExpMap.State TopicKey TopicInfo} {pub : Bool}
    {P : TopicKey → Option (DataType × Int)}
    (h : Tracks T s (fun k => (P k).map (topicEntry pub k)) now) (name : String) (q : TopicInfo) :
    (name, q) ∈ (topics s now).2 ↔
      ∃ ty t, P ⟨name, q.id⟩ = some (ty, t) ∧ now - T ≤ t ∧ q.info = ty ∧ q.quality = quality ty pub := by
  obtain ⟨h1, h2⟩ := h.expire (Int.le_refl now)
  have key : (name, q) ∈ (topics s now).2 ↔
      ∃ k : TopicKey, k.name = name ∧ ExpMap.lookup (ExpMap.eraseExpired s now).1 k = some q := by
    simp only [topics, List.mem_map, Prod.mk.injEq]
    constructor
    · rintro ⟨⟨k, v, id⟩, hm, rfl, rfl⟩
      exact ⟨k, rfl, (mem_map_iff _ h1.nodup k v).1 ⟨id, hm⟩⟩
    · rintro ⟨k, rfl, hl⟩
      obtain ⟨id, hm⟩ := (mem_map_iff _ h1.nodup k q).2 hl
      exact ⟨_, hm, rfl, rfl⟩
  rw [key]
  constructor
  · rintro ⟨k, rfl, hl⟩
    obtain ⟨r, hL, hr⟩ := (h2 k q).1 hl
    cases hP : P k with
    | none => simp [hP] at hL
    | some p =>
      simp only [hP, Option.map_some, Option.some.injEq, topicEntry, Prod.mk.injEq] at hL
      obtain ⟨rfl, rfl⟩ := hL
      exact ⟨p.1, p.2, hP, hr, rfl, rfl⟩
  · rintro ⟨ty, t, hP, ht, h3, h4⟩
    refine ⟨⟨name, q.id⟩, rfl, (h2 _ q).2 ⟨t, ?_, ht⟩⟩
    simp only [hP, Option.map_some, topicEntry, Option.some.injEq, Prod.mk.injEq, and_true]
    cases q; simp_all

theorem listed_services {T now : Int} {s : ExpMap.State ServiceKey ServiceInfo} {sv : Bool}
    {P : ServiceKey → Option (Method × Int)}
    (h : Tracks T s (fun k => (P k).map (methodEntry sv k)) now) (name m : String) (q : ServiceInfo) :
    ((name, m), q) ∈ (services s now).2 ↔
      ∃ x t, P ⟨name, m, q.id⟩ = some (x, t) ∧ now - T ≤ t ∧
        q.request = { name := x.reqType, descriptor := x.reqDesc } ∧
        q.response = { name := x.respType, descriptor := x.respDesc } ∧
        q.reqQ = quality q.request sv ∧ q.respQ = quality q.response sv := by
  obtain ⟨h1, h2⟩ := h.expire (Int.le_refl now)
  have key : ((name, m), q) ∈ (services s now).2 ↔
      ∃ k : ServiceKey, k.service = name ∧ k.method = m ∧
        ExpMap.lookup (ExpMap.eraseExpired s now).1 k = some q := by
    simp only [services, List.mem_map, Prod.mk.injEq]
    constructor
    · rintro ⟨⟨k, v, id⟩, hm, ⟨rfl, rfl⟩, rfl⟩
      exact ⟨k, rfl, rfl, (mem_map_iff _ h1.nodup k v).1 ⟨id, hm⟩⟩
    · rintro ⟨k, rfl, rfl, hl⟩
      obtain ⟨id, hm⟩ := (mem_map_iff _ h1.nodup k q).2 hl
      exact ⟨_, hm, ⟨rfl, rfl⟩, rfl⟩
  rw [key]
  constructor
  · rintro ⟨k, rfl, rfl, hl⟩
    obtain ⟨r, hL, hr⟩ := (h2 k q).1 hl
    cases hP : P k with
    | none => simp [hP] at hL
    | some p =>
      simp only [hP, Option.map_some, Option.some.injEq, methodEntry, methodInfo, mkType,
        Prod.mk.injEq] at hL
      obtain ⟨rfl, rfl⟩ := hL
      exact ⟨p.1, p.2, hP, hr, rfl, rfl, rfl, rfl⟩
  · rintro ⟨x, t, hP, ht, h3, h4, h5, h6⟩
    refine ⟨⟨name, m, q.id⟩, rfl, rfl, (h2 _ q).2 ⟨t, ?_, ht⟩⟩
    simp only [hP, Option.map_some, methodEntry, methodInfo, mkType, Option.some.injEq,
      Prod.mk.injEq, and_true]
    cases q; simp_all

/-- **C42.** `GetPublishers` lists exactly the publishers whose latest announcement is a
registration not older than the expiry time, with the type given in that announcement. -/
theorem C42_publishers (T t0 now : Int) (h : List (Int × Op)) (g : Gate) (hc : Clock t0 h now)
    (hr : (Gate.init T).run h = some g) (name : String) (q : TopicInfo) :
    (name, q) ∈ (topics g.pubs now).2 ↔
      ∃ ty t, lastTopic true name q.id h none = some (ty, t) ∧ now - T ≤ t ∧ q.info = ty ∧
        q.quality = quality ty true :=
  listed_topics (gate_history hc hr).pubs name q

/-- **C42.** The same for `GetSubscribers`. -/
theorem C42_subscribers (T t0 now : Int) (h : List (Int × Op)) (g : Gate) (hc : Clock t0 h now)
    (hr : (Gate.init T).run h = some g) (name : String) (q : TopicInfo) :
    (name, q) ∈ (topics g.subs now).2 ↔
      ∃ ty t, lastTopic false name q.id h none = some (ty, t) ∧ now - T ≤ t ∧ q.info = ty ∧
        q.quality = quality ty false :=
  listed_topics (gate_history hc hr).subs name q

/-- **C42.** `GetServices` lists exactly the methods whose latest announcement (by a service
registration containing the method) is not older than the expiry time and was not followed
by an unregistration of that service instance. -/
theorem C42_services (T t0 now : Int) (h : List (Int × Op)) (g : Gate) (hc : Clock t0 h now)
    (hr : (Gate.init T).run h = some g) (name m : String) (q : ServiceInfo) :
    ((name, m), q) ∈ (services g.srvs now).2 ↔
      ∃ x t, lastMethod true name m q.id h none = some (x, t) ∧ now - T ≤ t ∧
        q.request = { name := x.reqType, descriptor := x.reqDesc } ∧
        q.response = { name := x.respType, descriptor := x.respDesc } ∧
        q.reqQ = quality q.request true ∧ q.respQ = quality q.response true :=
  listed_services (gate_history hc hr).srvs name m q

/-- **C42.** The same for `GetClients`. -/
theorem C42_clients (T t0 now : Int) (h : List (Int × Op)) (g : Gate) (hc : Clock t0 h now)
    (hr : (Gate.init T).run h = some g) (name m : String) (q : ServiceInfo) :
    ((name, m), q) ∈ (services g.clis now).2 ↔
      ∃ x t, lastMethod false name m q.id h none = some (x, t) ∧ now - T ≤ t ∧
        q.request = { name := x.reqType, descriptor := x.reqDesc } ∧
        q.response = { name := x.respType, descriptor := x.respDesc } ∧
        q.reqQ = quality q.request false ∧ q.respQ = quality q.response false :=
  listed_services (gate_history hc hr).clis name m q

/-- **C42.** Every entity is listed once: the listing has no duplicate (name, id). -/
theorem C42_listed_once (T t0 now : Int) (h : List (Int × Op)) (g : Gate) (hc : Clock t0 h now)
    (hr : (Gate.init T).run h = some g) :
    ((topics g.pubs now).2.map (fun e => (e.1, e.2.id))).Nodup := by
  obtain ⟨h1, h2⟩ := (gate_history hc hr).pubs.expire (Int.le_refl now)
  have e : (topics g.pubs now).2.map (fun e => (e.1, e.2.id))
      = (AMap.keys (ExpMap.eraseExpired g.pubs now).1.map).map (fun k => (k.name, k.id)) := by
    simp only [topics, AMap.keys, List.map_map]
    apply List.map_congr_left
    rintro ⟨k, v, id⟩ hm
    obtain ⟨r, hL, _⟩ := (h2 k v).1 ((mem_map_iff _ h1.nodup k v).1 ⟨id, hm⟩)
    cases hP : lastTopic true k.name k.id h none with
    | none => simp [hP] at hL
    | some p =>
      simp only [hP, Option.map_some, Option.some.injEq, topicEntry, Prod.mk.injEq] at hL
      obtain ⟨rfl, _⟩ := hL
      rfl
  rw [e]
  refine List.Pairwise.map _ ?_ h1.nodup
  rintro ⟨a, b⟩ ⟨c, d⟩ hne heq
  simp only [Prod.mk.injEq] at heq
  exact hne (by simp [heq])

/-- **C42 (robustness).** The store processes a history iff every entity id in it is a
number; a single sample with another id ends in an exception. -/
theorem C42_runs_iff_ids_numeric (T t0 now : Int) (h : List (Int × Op)) (hc : Clock t0 h now) :
    ((Gate.init T).run h).isSome ↔ ∀ p ∈ h, Numeric p.2 := by
  constructor
  · intro hs
    obtain ⟨g, hg⟩ := Option.isSome_iff_exists.1 hs
    exact numeric_of_run h hg
  · intro hn
    obtain ⟨g, e, _⟩ := gate_run (gate_init T t0) h hc hn
    simp [e]

/-- The hypotheses are met by a history with a refresh, an unregistration and a query, and
the listing is not empty. -/
example : ∃ g, (Gate.init 5).run
      [(0, .apply (.regTopic true "17" "a" ⟨"T", "", ""⟩)), (1, .apply (.regTopic true "18" "a" {})),
       (4, .apply (.regTopic true "17" "a" ⟨"T2", "", ""⟩)), (5, .getPublishers),
       (6, .apply (.unregTopic true "18" "a"))] = some g ∧
    (topics g.pubs 9).2 = [("a", ⟨17, ⟨"T2", "", ""⟩, 3⟩)] ∧ (topics g.pubs 10).2 = [] :=
  ⟨_, rfl, by decide +kernel, by decide +kernel⟩

/-- Removing the (only) methods of a service; the client of the same name stays. -/
example : ∃ g, (Gate.init 5).run
      [(0, .apply (.regService true "7" "s" [⟨"m", "A", "", "", ""⟩, ⟨"n", "", "", "", ""⟩])),
       (0, .apply (.regService false "8" "s" [⟨"m", "A", "", "", ""⟩])),
       (1, .apply (.unregService true "7" "s"))] = some g ∧
    (services g.srvs 2).2 = [] ∧ ((services g.clis 2).2.map Prod.fst) = [("s", "m")] :=
  ⟨_, rfl, by decide +kernel, by decide +kernel⟩

example : (Gate.init 5).run [(0, .apply (.regTopic true "x1" "a" {}))] = none := by decide +kernel

end Ecal.Desc
