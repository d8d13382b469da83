import Verif.Desc.Lemmas

namespace Ecal.Desc

open ExpMap (State)

/-- The entry a topic announcement should produce. -/
def topicEntry (pub : Bool) (k : TopicKey) (p : DataType × Int) : TopicInfo × Int :=
  (⟨k.id, p.1, quality p.1 pub⟩, p.2)

/-- The entry a method announcement should produce. -/
def methodEntry (server : Bool) (k : ServiceKey) (p : Method × Int) : ServiceInfo × Int :=
  (methodInfo k.id p.1 server, p.2)

/-- All four stores track the given latest announcements. -/
structure GateTracks (T : Int) (g : Gate) (P S : TopicKey → Option (DataType × Int))
    (Sv Cl : ServiceKey → Option (Method × Int)) (last : Int) : Prop where
  pubs : Tracks T g.pubs (fun k => (P k).map (topicEntry true k)) last
  subs : Tracks T g.subs (fun k => (S k).map (topicEntry false k)) last
  srvs : Tracks T g.srvs (fun k => (Sv k).map (methodEntry true k)) last
  clis : Tracks T g.clis (fun k => (Cl k).map (methodEntry false k)) last

theorem tracks_put_topic {T : Int} {s : State TopicKey TopicInfo} {P : TopicKey → Option (DataType × Int)}
    {last now : Int} (pub : Bool) (h : Tracks T s (fun k => (P k).map (topicEntry pub k)) last)
    (hl : last ≤ now) (name : String) (i : Nat) (ty : DataType) :
    ∃ s', put {} s now ⟨name, i⟩ ⟨i, ty, quality ty pub⟩ = some s' ∧
      Tracks T s' (fun k => (if k.name = name ∧ k.id = i then some (ty, now) else P k).map (topicEntry pub k)) now := by
  obtain ⟨s', e, ht⟩ := h.put hl {} ⟨name, i⟩ ⟨i, ty, quality ty pub⟩
  refine ⟨s', e, ht.congr fun k => ?_⟩
  by_cases hk : k.name = name ∧ k.id = i
  · obtain ⟨rfl, rfl⟩ := hk
    simp [topicEntry]
  · rw [if_neg hk, if_neg (by rintro rfl; exact hk ⟨rfl, rfl⟩)]

theorem tracks_rem_topic {T : Int} {s : State TopicKey TopicInfo} {P : TopicKey → Option (DataType × Int)}
    {last now : Int} (pub : Bool) (h : Tracks T s (fun k => (P k).map (topicEntry pub k)) last)
    (hl : last ≤ now) (name : String) (i : Nat) :
    ∃ s', remTopic s now ⟨name, i⟩ = some s' ∧
      Tracks T s' (fun k => (if k.name = name ∧ k.id = i then none else P k).map (topicEntry pub k)) now := by
  obtain ⟨s', e, ht⟩ := (h.expire hl).1.eraseKeys {} [⟨name, i⟩]
  refine ⟨s', e, ht.congr fun k => ?_⟩
  by_cases hk : k.name = name ∧ k.id = i
  · obtain ⟨rfl, rfl⟩ := hk
    simp
  · rw [if_neg hk, if_neg (by rw [List.mem_singleton]; rintro rfl; exact hk ⟨rfl, rfl⟩)]

theorem tracks_rem_service {T : Int} {s : State ServiceKey ServiceInfo}
    {P : ServiceKey → Option (Method × Int)}
    {last now : Int} (sv : Bool) (h : Tracks T s (fun k => (P k).map (methodEntry sv k)) last)
    (hl : last ≤ now) (name : String) (i : Nat) :
    ∃ s', remService s now name i = some s' ∧
      Tracks T s' (fun k => (if k.service = name ∧ k.id = i then none else P k).map (methodEntry sv k)) now := by
  obtain ⟨h1, _⟩ := h.expire hl
  have h2 := h1.forget
    (L' := fun k => if (k.service = name ∧ k.id = i) ∧ k ∉ AMap.keys (ExpMap.eraseExpired s now).1.map
      then none else (P k).map (methodEntry sv k))
    (fun k => by
      by_cases hk : (k.service = name ∧ k.id = i) ∧ k ∉ AMap.keys (ExpMap.eraseExpired s now).1.map
      · right; exact ⟨if_pos hk, hk.2⟩
      · left; exact if_neg hk)
  obtain ⟨s', e, ht⟩ := h2.eraseKeys {} ((AMap.keys (ExpMap.eraseExpired s now).1.map).filter
    (fun k => k.service == name && k.id == i))
  refine ⟨s', e, ht.congr fun k => ?_⟩
  by_cases hn : k.service = name ∧ k.id = i
  · by_cases hm : k ∈ AMap.keys (ExpMap.eraseExpired s now).1.map
    · rw [if_pos hn, if_pos (by simp [hm, hn])]; rfl
    · rw [if_pos hn, if_neg (by simp [hm]), if_pos ⟨hn, hm⟩]; rfl
  · rw [if_neg hn, if_neg (by simp [hn]), if_neg (by simp [hn])]

theorem lastNamed_or (m : String) (xs : List Method) (acc : Option Method) :
    lastNamed m xs acc = (lastNamed m xs none).or acc := by
  induction xs generalizing acc with
  | nil => simp [lastNamed]
  | cons x xs ih =>
    simp only [lastNamed]
    rw [ih, ih (if x.name = m then some x else none)]
    by_cases h : x.name = m
    · simp only [h, if_true]
      cases lastNamed m xs none <;> simp
    · simp [h]

theorem tracks_put_methods {T : Int} {s : State ServiceKey ServiceInfo}
    {P : ServiceKey → Option (Method × Int)}
    {last now : Int} (sv : Bool) (h : Tracks T s (fun k => (P k).map (methodEntry sv k)) last)
    (hl : last ≤ now) (id name : String) (i : Nat) (ms : List Method) (hi : stoull id = some i) :
    ∃ s', putMethods s now id name sv ms = some s' ∧
      Tracks T s' (fun k => (if k.service = name ∧ k.id = i then
        (match lastNamed k.method ms none with
         | some x => some (x, now)
         | none => P k) else P k).map (methodEntry sv k)) now := by
  induction ms generalizing s P last with
  | nil => exact ⟨s, rfl, (h.mono hl).congr fun k => by simp [lastNamed]⟩
  | cons m ms ih =>
    obtain ⟨s1, e1, h1⟩ := h.put hl {} ⟨name, m.name, i⟩ (methodInfo i m sv)
    have h1' : Tracks T s1 (fun k => (if k.service = name ∧ k.method = m.name ∧ k.id = i
        then some (m, now) else P k).map (methodEntry sv k)) now := by
      refine h1.congr fun k => ?_
      by_cases hk : k.service = name ∧ k.method = m.name ∧ k.id = i
      · obtain ⟨rfl, hm, rfl⟩ := hk
        obtain ⟨a, b, c⟩ := k
        simp only at hm
        subst hm
        simp [methodEntry]
      · rw [if_neg hk, if_neg (by rintro rfl; exact hk ⟨rfl, rfl, rfl⟩)]
    obtain ⟨s', e', h'⟩ := ih h1' (Int.le_refl now)
    refine ⟨s', by simp [putMethods, hi, e1, e'], h'.congr fun k => ?_⟩
    by_cases hk : k.service = name ∧ k.id = i
    · simp only [hk, and_self, if_true, lastNamed, and_true, true_and]
      rw [lastNamed_or k.method ms (if m.name = k.method then some m else none)]
      cases hln : lastNamed k.method ms none with
      | some x => simp
      | none =>
        by_cases hm : m.name = k.method
        · simp [hm]
        · simp [hm, Ne.symm hm]
    · have hk' : ¬ (k.service = name ∧ k.method = m.name ∧ k.id = i) := fun hh => hk ⟨hh.1, hh.2.2⟩
      simp only [hk, hk', if_false]

theorem Tracks.expire' {K V : Type} [DecidableEq K] {T : Int} {s : State K V}
    {L : K → Option (V × Int)} {last now : Int}
    (h : Tracks T s L last) (hl : last ≤ now) : Tracks T (ExpMap.eraseExpired s now).1 L now :=
  (h.expire hl).1

/-- One call. -/
theorem gate_step {T : Int} {g : Gate} {P S : TopicKey → Option (DataType × Int)}
    {Sv Cl : ServiceKey → Option (Method × Int)} {last now : Int}
    (h : GateTracks T g P S Sv Cl last) (hl : last ≤ now) (op : Op) (hn : Numeric op) :
    ∃ g', g.step now op = some g' ∧
      GateTracks T g' (fun k => lastTopic true k.name k.id [(now, op)] (P k))
        (fun k => lastTopic false k.name k.id [(now, op)] (S k))
        (fun k => lastMethod true k.service k.method k.id [(now, op)] (Sv k))
        (fun k => lastMethod false k.service k.method k.id [(now, op)] (Cl k)) now := by
  obtain ⟨hp, hs, hv, hc⟩ := h
  have hp' := hp.mono hl
  have hs' := hs.mono hl
  have hv' := hv.mono hl
  have hc' := hc.mono hl
  cases op with
  | getPublishers => exact ⟨_, rfl, hp.expire' hl, hs', hv', hc'⟩
  | getSubscribers => exact ⟨_, rfl, hp', hs.expire' hl, hv', hc'⟩
  | getServices => exact ⟨_, rfl, hp', hs', hv.expire' hl, hc'⟩
  | getClients => exact ⟨_, rfl, hp', hs', hv', hc.expire' hl⟩
  | apply smp =>
    cases smp with
    | other => exact ⟨g, rfl, hp', hs', hv', hc'⟩
    | regTopic pub id name ty =>
      obtain ⟨i, hi⟩ := Option.isSome_iff_exists.1 hn
      cases pub
      · obtain ⟨s', e, ht⟩ := tracks_put_topic false hs hl name i ty
        refine ⟨{ g with subs := s' }, by simp [Gate.step, Gate.apply, hi, e], ?_, ?_, hv', hc'⟩
        · simpa [lastTopic] using hp'
        · refine ht.congr fun k => ?_
          simp only [lastTopic, hi, true_and, Option.some.injEq, @eq_comm _ name, @eq_comm _ i]
      · obtain ⟨s', e, ht⟩ := tracks_put_topic true hp hl name i ty
        refine ⟨{ g with pubs := s' }, by simp [Gate.step, Gate.apply, hi, e], ?_, ?_, hv', hc'⟩
        · refine ht.congr fun k => ?_
          simp only [lastTopic, hi, true_and, Option.some.injEq, @eq_comm _ name, @eq_comm _ i]
        · simpa [lastTopic] using hs'
    | unregTopic pub id name =>
      obtain ⟨i, hi⟩ := Option.isSome_iff_exists.1 hn
      cases pub
      · obtain ⟨s', e, ht⟩ := tracks_rem_topic false hs hl name i
        refine ⟨{ g with subs := s' }, by simp [Gate.step, Gate.apply, hi, e], ?_, ?_, hv', hc'⟩
        · simpa [lastTopic] using hp'
        · refine ht.congr fun k => ?_
          simp only [lastTopic, hi, true_and, Option.some.injEq, @eq_comm _ name, @eq_comm _ i]
      · obtain ⟨s', e, ht⟩ := tracks_rem_topic true hp hl name i
        refine ⟨{ g with pubs := s' }, by simp [Gate.step, Gate.apply, hi, e], ?_, ?_, hv', hc'⟩
        · refine ht.congr fun k => ?_
          simp only [lastTopic, hi, true_and, Option.some.injEq, @eq_comm _ name, @eq_comm _ i]
        · simpa [lastTopic] using hs'
    | regService sv id name ms =>
      by_cases hms : ms = []
      · subst hms
        cases sv
        · refine ⟨g, by simp [Gate.step, Gate.apply, putMethods], hp', hs', ?_, ?_⟩
          · refine hv'.congr fun k => ?_
            simp [lastMethod]
          · refine hc'.congr fun k => ?_
            simp [lastMethod, lastNamed]
        · refine ⟨g, by simp [Gate.step, Gate.apply, putMethods], hp', hs', ?_, ?_⟩
          · refine hv'.congr fun k => ?_
            simp [lastMethod, lastNamed]
          · refine hc'.congr fun k => ?_
            simp [lastMethod]
      · obtain ⟨i, hi⟩ := Option.isSome_iff_exists.1 (hn hms)
        cases sv
        · obtain ⟨s', e, ht⟩ := tracks_put_methods false hc hl id name i ms hi
          refine ⟨{ g with clis := s' }, by simp [Gate.step, Gate.apply, e], hp', hs', ?_, ?_⟩
          · simpa [lastMethod] using hv'
          · refine ht.congr fun k => ?_
            simp only [lastMethod, hi, true_and, Option.some.injEq, @eq_comm _ name, @eq_comm _ i]
            cases lastNamed k.method ms none <;> rfl
        · obtain ⟨s', e, ht⟩ := tracks_put_methods true hv hl id name i ms hi
          refine ⟨{ g with srvs := s' }, by simp [Gate.step, Gate.apply, e], hp', hs', ?_, ?_⟩
          · refine ht.congr fun k => ?_
            simp only [lastMethod, hi, true_and, Option.some.injEq, @eq_comm _ name, @eq_comm _ i]
            cases lastNamed k.method ms none <;> rfl
          · simpa [lastMethod] using hc'
    | unregService sv id name =>
      obtain ⟨i, hi⟩ := Option.isSome_iff_exists.1 hn
      cases sv
      · obtain ⟨s', e, ht⟩ := tracks_rem_service false hc hl name i
        refine ⟨{ g with clis := s' }, by simp [Gate.step, Gate.apply, hi, e], hp', hs', ?_, ?_⟩
        · simpa [lastMethod] using hv'
        · refine ht.congr fun k => ?_
          simp only [lastMethod, hi, true_and, Option.some.injEq, @eq_comm _ name, @eq_comm _ i]
      · obtain ⟨s', e, ht⟩ := tracks_rem_service true hv hl name i
        refine ⟨{ g with srvs := s' }, by simp [Gate.step, Gate.apply, hi, e], hp', hs', ?_, ?_⟩
        · refine ht.congr fun k => ?_
          simp only [lastMethod, hi, true_and, Option.some.injEq, @eq_comm _ name, @eq_comm _ i]
        · simpa [lastMethod] using hc'

theorem lastTopic_cons (pub : Bool) (name : String) (id : Nat) (p : Int × Op) (h : List (Int × Op))
    (acc : Option (DataType × Int)) :
    lastTopic pub name id (p :: h) acc = lastTopic pub name id h (lastTopic pub name id [p] acc) := by
  obtain ⟨t, op⟩ := p
  cases op with
  | apply s => cases s <;> rfl
  | _ => rfl

theorem lastMethod_cons (sv : Bool) (name m : String) (id : Nat) (p : Int × Op) (h : List (Int × Op))
    (acc : Option (Method × Int)) :
    lastMethod sv name m id (p :: h) acc = lastMethod sv name m id h (lastMethod sv name m id [p] acc) := by
  obtain ⟨t, op⟩ := p
  cases op with
  | apply s => cases s <;> rfl
  | _ => rfl

/-- Whole histories. -/
theorem gate_run {T : Int} {g : Gate} {P S : TopicKey → Option (DataType × Int)}
    {Sv Cl : ServiceKey → Option (Method × Int)} {last now : Int}
    (h : GateTracks T g P S Sv Cl last) (hist : List (Int × Op)) (hc : Clock last hist now)
    (hn : ∀ p ∈ hist, Numeric p.2) :
    ∃ g', g.run hist = some g' ∧
      GateTracks T g' (fun k => lastTopic true k.name k.id hist (P k))
        (fun k => lastTopic false k.name k.id hist (S k))
        (fun k => lastMethod true k.service k.method k.id hist (Sv k))
        (fun k => lastMethod false k.service k.method k.id hist (Cl k)) now := by
  induction hist generalizing g P S Sv Cl last with
  | nil => exact ⟨g, rfl, h.pubs.mono hc, h.subs.mono hc, h.srvs.mono hc, h.clis.mono hc⟩
  | cons p hist ih =>
    obtain ⟨t, op⟩ := p
    obtain ⟨g1, e1, h1⟩ := gate_step h hc.1 op (hn (t, op) (by simp))
    obtain ⟨g', e', h'⟩ := ih h1 hc.2 (fun p hp => hn p (by simp [hp]))
    refine ⟨g', by simp [Gate.run, e1, e'], ?_⟩
    simp only [lastTopic_cons _ _ _ (t, op) hist, lastMethod_cons _ _ _ _ (t, op) hist]
    exact h'

/-- A history that ran through had numeric ids only. -/
theorem numeric_of_run {g g' : Gate} (hist : List (Int × Op)) (hr : g.run hist = some g') :
    ∀ p ∈ hist, Numeric p.2 := by
  induction hist generalizing g with
  | nil => simp
  | cons p hist ih =>
    obtain ⟨t, op⟩ := p
    simp only [Gate.run] at hr
    split at hr
    · cases hr
    · rename_i g1 hg
      intro q hq
      rcases List.mem_cons.1 hq with rfl | hq
      · cases op with
        | apply s =>
          cases s with
          | other => trivial
          | regTopic pub id name ty =>
            simp only [Gate.step, Gate.apply] at hg
            cases hi : stoull id with
            | none => simp [hi] at hg
            | some i => simp [Numeric, hi]
          | unregTopic pub id name =>
            simp only [Gate.step, Gate.apply] at hg
            cases hi : stoull id with
            | none => simp [hi] at hg
            | some i => simp [Numeric, hi]
          | regService sv id name ms =>
            intro hms
            cases ms with
            | nil => exact absurd rfl hms
            | cons m ms =>
              cases hi : stoull id with
              | none => cases sv <;> simp [Gate.step, Gate.apply, putMethods, hi] at hg
              | some i => simp
          | unregService sv id name =>
            simp only [Gate.step, Gate.apply] at hg
            cases hi : stoull id with
            | none => simp [hi] at hg
            | some i => simp [Numeric, hi]
        | _ => trivial
      · exact ih hr q hq

end Ecal.Desc
