import Verif.ExpMap.Spec

namespace Ecal.ExpMap

variable {K V : Type} [DecidableEq K]

/-- Relation between implementation state and abstract table after a history whose last
clock value was `last` and that never re-inserted a present key. -/
structure Rel (s : State K V) (t : Table K V) (last : Int) : Prop where
  sorted : s.nodes.Pairwise (fun a b => a.ts ≤ b.ts)
  bound  : ∀ n ∈ s.nodes, n.ts ≤ last
  idnd   : s.nodes.Pairwise (fun a b => a.id ≠ b.id)
  idlt   : ∀ n ∈ s.nodes, n.id < s.nextId
  n2m    : ∀ n ∈ s.nodes, ∃ v, s.map.find n.key = some (v, n.id) ∧ t n.key = some (v, n.ts)
  m2n    : ∀ k v id, s.map.find k = some (v, id) → ∃ n ∈ s.nodes, n.id = id ∧ n.key = k
  absent : ∀ k, s.map.find k = none → t k = none

theorem Rel.init (timeout last : Int) : Rel (init K V timeout) (fun _ => none) last := by
  constructor <;> simp [ExpMap.init]

theorem Rel.mono {s : State K V} {t : Table K V} {a b : Int} (h : Rel s t a) (hab : a ≤ b) :
    Rel s t b :=
  { h with bound := fun n hn => by have := h.bound n hn; omega }

/-- Looking up a key gives the abstract value. -/
theorem Rel.lookup {s : State K V} {t : Table K V} {l : Int} (h : Rel s t l) (k : K) :
    lookup s k = (t k).map Prod.fst := by
  unfold ExpMap.lookup
  cases hf : s.map.find k with
  | none => simp [h.absent k hf]
  | some p =>
    obtain ⟨v, id⟩ := p
    obtain ⟨n, hn, hid, hk⟩ := h.m2n k v id hf
    obtain ⟨w, hw, ht⟩ := h.n2m n hn
    subst hk
    rw [hf] at hw
    simp at hw
    simp [ht, hw.1]

omit [DecidableEq K] in
theorem id_inj {ns : List (Node K)} (h : ns.Pairwise (fun a b => a.id ≠ b.id))
    {a b : Node K} (ha : a ∈ ns) (hb : b ∈ ns) (hab : a.id = b.id) : a = b := by
  induction ns with
  | nil => simp at ha
  | cons n ns ih =>
    rw [List.pairwise_cons] at h
    rcases List.mem_cons.1 ha with ha | ha' <;> rcases List.mem_cons.1 hb with hb | hb'
    · rw [ha, hb]
    · rw [ha] at hab; exact absurd hab (h.1 b hb')
    · rw [hb] at hab; exact absurd hab.symm (h.1 a ha')
    · exact ih h.2 ha' hb'

/-- With `Rel`, two nodes with the same key are the same node. -/
theorem Rel.key_inj {s : State K V} {t : Table K V} {l : Int} (h : Rel s t l)
    {a b : Node K} (ha : a ∈ s.nodes) (hb : b ∈ s.nodes) (hk : a.key = b.key) : a = b := by
  obtain ⟨v, hv, _⟩ := h.n2m a ha
  obtain ⟨w, hw, _⟩ := h.n2m b hb
  rw [hk, hw] at hv
  simp at hv
  exact id_inj h.idnd ha hb hv.2.symm

/-- Inserting an absent key. -/
theorem Rel.insertRaw {s : State K V} {t : Table K V} {l now : Int} (h : Rel s t l)
    (hl : l ≤ now) (k : K) (v : V) (hk : s.map.find k = none) :
    Rel (insertRaw s now k v).1 (fun x => if x = k then some (v, now) else t x) now := by
  have hkn : ∀ n ∈ s.nodes, n.key ≠ k := by
    intro n hn e
    obtain ⟨v, hv, _⟩ := h.n2m n hn
    rw [e, hk] at hv; cases hv
  simp only [ExpMap.insertRaw, hk]
  constructor
  · simp only [List.pairwise_append]
    refine ⟨h.sorted, by simp, ?_⟩
    intro a ha b hb
    simp at hb; subst hb
    have := h.bound a ha; simp; omega
  · intro n hn
    simp at hn
    rcases hn with hn | hn
    · have := h.bound n hn; omega
    · subst hn; simp
  · simp only [List.pairwise_append]
    refine ⟨h.idnd, by simp, ?_⟩
    intro a ha b hb
    simp at hb; subst hb
    have := h.idlt a ha; simp; omega
  · intro n hn
    simp at hn
    rcases hn with hn | hn
    · have := h.idlt n hn; simp; omega
    · subst hn; simp
  · intro n hn
    simp at hn
    rcases hn with hn | hn
    · obtain ⟨w, hw, ht⟩ := h.n2m n hn
      refine ⟨w, ?_, ?_⟩
      · rw [AMap.find_set_ne _ _ _ _ (Ne.symm (hkn n hn))]; exact hw
      · simp [hkn n hn, ht]
    · subst hn; exact ⟨v, by simp, by simp⟩
  · intro x w id hf
    rw [AMap.find_set] at hf
    by_cases hx : k = x
    · simp [hx] at hf
      refine ⟨{ id := s.nextId, key := k, ts := now }, by simp, ?_, hx⟩
      exact hf.2
    · simp [hx] at hf
      obtain ⟨n, hn, h1, h2⟩ := h.m2n x w id hf
      exact ⟨n, by simp [hn], h1, h2⟩
  · intro x hf
    rw [AMap.find_set] at hf
    by_cases hx : k = x
    · simp [hx] at hf
    · simp [hx] at hf
      simp [Ne.symm hx, h.absent x hf]

/-- Refreshing a present key never meets a dangling iterator and updates the table. -/
theorem Rel.updateTimestamp {s : State K V} {t : Table K V} {l now : Int} (h : Rel s t l)
    (hl : l ≤ now) (k : K) (v : V) (id : Nat) (hk : s.map.find k = some (v, id)) :
    ∃ s', updateTimestamp s now id = some s' ∧ s'.map = s.map ∧
      Rel s' (fun x => if x = k then some (v, now) else t x) now := by
  obtain ⟨n, hn, hid, hkey⟩ := h.m2n k v id hk
  have hfind : s.nodes.find? (fun n => n.id == id) = some n := by
    cases hf : s.nodes.find? (fun n => n.id == id) with
    | none =>
      rw [List.find?_eq_none] at hf
      exact absurd hid (by simpa using hf n hn)
    | some m =>
      have hm := List.mem_of_find?_eq_some hf
      have := List.find?_some hf
      simp at this
      rw [id_inj h.idnd hm hn (by omega)]
  simp only [ExpMap.updateTimestamp, hfind]
  refine ⟨_, rfl, rfl, ?_⟩
  have hsub : ∀ m ∈ s.nodes.filter (fun n => n.id != id), m ∈ s.nodes ∧ m.id ≠ id := by
    intro m hm; simpa using hm
  have hne : ∀ m ∈ s.nodes.filter (fun n => n.id != id), m.key ≠ k := by
    intro m hm e
    obtain ⟨hm1, hm2⟩ := hsub m hm
    have := h.key_inj hm1 hn (by rw [e, hkey])
    subst this; exact hm2 hid
  constructor
  · simp only [List.pairwise_append]
    refine ⟨h.sorted.filter _, by simp, ?_⟩
    intro a ha b hb
    simp only [List.mem_singleton] at hb; subst hb
    have := h.bound a (hsub a ha).1; simp; omega
  · intro m hm
    simp only [List.mem_append, List.mem_singleton] at hm
    rcases hm with hm | hm
    · have := h.bound m (hsub m hm).1; omega
    · subst hm; simp
  · simp only [List.pairwise_append]
    refine ⟨h.idnd.filter _, by simp, ?_⟩
    intro a ha b hb
    simp only [List.mem_singleton] at hb; subst hb
    have := (hsub a ha).2; simp; omega
  · intro m hm
    simp only [List.mem_append, List.mem_singleton] at hm
    rcases hm with hm | hm
    · exact h.idlt m (hsub m hm).1
    · subst hm; exact h.idlt n hn
  · intro m hm
    simp only [List.mem_append, List.mem_singleton] at hm
    rcases hm with hm | hm
    · obtain ⟨w, hw, ht⟩ := h.n2m m (hsub m hm).1
      exact ⟨w, hw, by simp [hne m hm, ht]⟩
    · subst hm
      refine ⟨v, ?_, ?_⟩
      · simp [hkey, hk, hid]
      · simp [hkey]
  · intro x w id' hf
    obtain ⟨m, hm, h1, h2⟩ := h.m2n x w id' hf
    by_cases he : m.id = id
    · refine ⟨{ n with ts := now }, by simp, ?_, ?_⟩
      · have := id_inj h.idnd hm hn (by omega); subst this; exact h1
      · have := id_inj h.idnd hm hn (by omega); subst this; exact h2
    · exact ⟨m, by simp [hm, he], h1, h2⟩
  · intro x hf
    have hx : x ≠ k := by intro e; subst e; rw [hk] at hf; cases hf
    simp [hx, h.absent x hf]

theorem Rel.access {s : State K V} {t : Table K V} {l now timeout : Int} (h : Rel s t l)
    (hl : l ≤ now) (dflt : V) (k : K) :
    ∃ s' v, access s now dflt k = some (s', v) ∧
      Rel s' (specStep timeout dflt t now (.access k)) now ∧
      (∃ id, s'.map.find k = some (v, id)) := by
  unfold ExpMap.access
  cases hf : s.map.find k with
  | none =>
    refine ⟨_, _, rfl, ?_, ?_⟩
    · have := h.insertRaw hl k dflt hf
      simpa [specStep, h.absent k hf] using this
    · simp [ExpMap.insertRaw, hf]
  | some p =>
    obtain ⟨v, id⟩ := p
    obtain ⟨s', hs', hm, hr⟩ := h.updateTimestamp hl k v id hf
    refine ⟨s', v, by simp [hs'], ?_, ⟨id, by rw [hm, hf]⟩⟩
    obtain ⟨n, hn, hid, hk⟩ := h.m2n k v id hf
    obtain ⟨w, hw, ht⟩ := h.n2m n hn
    subst hk
    rw [hf] at hw
    simp at hw
    simpa [specStep, ht, hw.1] using hr

theorem Rel.assign {s : State K V} {t : Table K V} {l now timeout : Int} (h : Rel s t l)
    (hl : l ≤ now) (dflt : V) (k : K) (w : V) :
    ∃ s', assign s now dflt k w = some s' ∧
      Rel s' (specStep timeout dflt t now (.assign k w)) now := by
  obtain ⟨s1, v, h1, hr, id, hf⟩ := h.access (timeout := timeout) hl dflt k
  refine ⟨{ s1 with map := s1.map.set k (w, id) }, by simp [ExpMap.assign, h1, hf], ?_⟩
  have hone : ∀ n ∈ s1.nodes, n.key = k → n.id = id := by
    intro n hn e
    obtain ⟨u, hu, _⟩ := hr.n2m n hn
    rw [e, hf] at hu; simp at hu; omega
  constructor
  · exact hr.sorted
  · exact hr.bound
  · exact hr.idnd
  · exact hr.idlt
  · intro n hn
    obtain ⟨u, hu, ht⟩ := hr.n2m n hn
    by_cases he : n.key = k
    · refine ⟨w, by simp [he, hone n hn he], ?_⟩
      have : n.ts = now := by
        simp [specStep, he] at ht
        split at ht <;> simp at ht <;> omega
      simp [specStep, he, this]
    · refine ⟨u, ?_, ?_⟩
      · rw [AMap.find_set_ne _ _ _ _ (Ne.symm he)]; exact hu
      · simpa [specStep, he] using ht
  · intro x u id' hx
    rw [AMap.find_set] at hx
    by_cases he : k = x
    · simp [he] at hx
      obtain ⟨n, hn, h1, h2⟩ := hr.m2n k v id hf
      exact ⟨n, hn, by omega, by rw [h2, he]⟩
    · simp [he] at hx
      exact hr.m2n x u id' hx
  · intro x hx
    rw [AMap.find_set] at hx
    by_cases he : k = x
    · simp [he] at hx
    · simp [he] at hx
      have := hr.absent x hx
      simpa [specStep, Ne.symm he] using this

theorem Rel.erase {s : State K V} {t : Table K V} {l now timeout : Int} (h : Rel s t l)
    (hl : l ≤ now) (dflt : V) (k : K) :
    ∃ s' b, erase s k = some (s', b) ∧ Rel s' (specStep timeout dflt t now (.erase k)) now ∧
      (b = true ↔ (t k).isSome) := by
  unfold ExpMap.erase
  cases hf : s.map.find k with
  | none =>
    refine ⟨s, false, rfl, ?_, by simp [h.absent k hf]⟩
    have : specStep timeout dflt t now (.erase k) = t := by
      funext x; simp only [specStep]; split
      · next e => subst e; exact (h.absent _ hf).symm
      · rfl
    rw [this]; exact h.mono hl
  | some p =>
    obtain ⟨v, id⟩ := p
    obtain ⟨n, hn, hid, hkey⟩ := h.m2n k v id hf
    have hany : s.nodes.any (fun n => n.id == id) = true := by
      rw [List.any_eq_true]; exact ⟨n, hn, by simp [hid]⟩
    have hsub : ∀ m ∈ s.nodes.filter (fun n => n.id != id), m ∈ s.nodes ∧ m.id ≠ id := by
      intro m hm; simpa using hm
    have hne : ∀ m ∈ s.nodes.filter (fun n => n.id != id), m.key ≠ k := by
      intro m hm e
      obtain ⟨hm1, hm2⟩ := hsub m hm
      have := h.key_inj hm1 hn (by rw [e, hkey])
      subst this; exact hm2 hid
    simp only [hany, if_true]
    refine ⟨_, _, rfl, ?_, ?_⟩
    · constructor
      · exact h.sorted.filter _
      · intro m hm; have := h.bound m (hsub m hm).1; omega
      · exact h.idnd.filter _
      · intro m hm; exact h.idlt m (hsub m hm).1
      · intro m hm
        obtain ⟨w, hw, ht⟩ := h.n2m m (hsub m hm).1
        refine ⟨w, ?_, ?_⟩
        · rw [AMap.find_erase_ne _ _ _ (Ne.symm (hne m hm))]; exact hw
        · simp [specStep, hne m hm, ht]
      · intro x u id' hx
        rw [AMap.find_erase] at hx
        by_cases he : k = x
        · simp [he] at hx
        · simp [he] at hx
          obtain ⟨m, hm, h1, h2⟩ := h.m2n x u id' hx
          refine ⟨m, ?_, h1, h2⟩
          simp only [List.mem_filter, bne_iff_ne, ne_eq]
          refine ⟨hm, ?_⟩
          intro e
          have := id_inj h.idnd hm hn (by omega)
          subst this
          exact he (by rw [← hkey, h2])
      · intro x hx
        rw [AMap.find_erase] at hx
        by_cases he : k = x
        · simp [specStep, he]
        · simp [he] at hx
          simp [specStep, Ne.symm he, h.absent x hx]
    · obtain ⟨w, hw, ht⟩ := h.n2m n hn
      rw [hkey] at ht
      simp [ht]

/-- The expiry loop: what it removes and keeps. -/
theorem eraseExpiredLoop_spec (limit : Int) (ns : List (Node K)) (m : AMap K (V × Nat))
    (hs : ns.Pairwise (fun a b => a.ts ≤ b.ts)) :
    (eraseExpiredLoop limit ns m).1 = ns.filter (fun n => decide (¬ n.ts < limit)) ∧
    (eraseExpiredLoop limit ns m).2.2 = (ns.filter (fun n => decide (n.ts < limit))).map Node.key ∧
    ∀ k, (eraseExpiredLoop limit ns m).2.1.find k =
      if ∃ n ∈ ns, n.ts < limit ∧ n.key = k then none else m.find k := by
  induction ns generalizing m with
  | nil => simp [eraseExpiredLoop]
  | cons n ns ih =>
    rw [List.pairwise_cons] at hs
    by_cases hlt : n.ts < limit
    · obtain ⟨h1, h2, h3⟩ := ih (m.erase n.key) hs.2
      simp only [eraseExpiredLoop, hlt, if_true]
      refine ⟨by simp [h1, hlt], by simp [h2, hlt], ?_⟩
      intro k
      rw [h3 k, AMap.find_erase]
      by_cases hex : ∃ n' ∈ ns, n'.ts < limit ∧ n'.key = k
      · have : ∃ n' ∈ n :: ns, n'.ts < limit ∧ n'.key = k := by
          obtain ⟨a, b, c⟩ := hex; exact ⟨a, List.mem_cons_of_mem _ b, c⟩
        simp only [hex, this, if_true]
      · by_cases hk : n.key = k
        · have : ∃ n' ∈ n :: ns, n'.ts < limit ∧ n'.key = k := ⟨n, by simp, hlt, hk⟩
          simp only [hex, this, if_true, if_false, hk]
        · have : ¬ ∃ n' ∈ n :: ns, n'.ts < limit ∧ n'.key = k := by
            rintro ⟨a, b, c, d⟩
            rcases List.mem_cons.1 b with b | b
            · subst b; exact hk d
            · exact hex ⟨a, b, c, d⟩
          simp only [hex, this, if_false, hk]
    · have hall : ∀ a ∈ n :: ns, ¬ a.ts < limit := by
        intro a ha
        rcases List.mem_cons.1 ha with ha | ha
        · subst ha; exact hlt
        · have := hs.1 a ha; omega
      simp only [eraseExpiredLoop, hlt, if_false]
      refine ⟨?_, ?_, ?_⟩
      · symm; rw [List.filter_eq_self]; intro a ha; simpa using hall a ha
      · symm; rw [List.map_eq_nil_iff, List.filter_eq_nil_iff]
        intro a ha; simpa using hall a ha
      · intro k
        have : ¬ ∃ n' ∈ n :: ns, n'.ts < limit ∧ n'.key = k := by
          rintro ⟨a, b, c, d⟩; exact hall a b c
        simp only [this, if_false]

theorem Rel.eraseExpired {s : State K V} {t : Table K V} {l now : Int} (h : Rel s t l)
    (hl : l ≤ now) (dflt : V) :
    Rel (eraseExpired s now).1 (specStep s.timeout dflt t now .eraseExpired) now := by
  obtain ⟨h1, h2, h3⟩ := eraseExpiredLoop_spec (now - s.timeout) s.nodes s.map h.sorted
  unfold ExpMap.eraseExpired
  constructor
  · simp only [h1]; exact h.sorted.filter _
  · simp only [h1]; intro m hm
    have := h.bound m ((List.mem_filter.1 hm).1); omega
  · simp only [h1]; exact h.idnd.filter _
  · simp only [h1]; intro m hm; exact h.idlt m ((List.mem_filter.1 hm).1)
  · simp only [h1]; intro m hm
    have hm1 := (List.mem_filter.1 hm).1
    have hm2 := (List.mem_filter.1 hm).2
    simp only [decide_not, Bool.not_eq_eq_eq_not, Bool.not_true, decide_eq_false_iff_not] at hm2
    obtain ⟨v, hv, ht⟩ := h.n2m m hm1
    refine ⟨v, ?_, ?_⟩
    · rw [h3]
      have : ¬ ∃ n ∈ s.nodes, n.ts < now - s.timeout ∧ n.key = m.key := by
        rintro ⟨n, hn, hlt, hk⟩
        have := h.key_inj hn hm1 hk
        subst this; exact hm2 hlt
      simp only [this, if_false, hv]
    · simp [specStep, ht, hm2]
  · intro k v id hf
    simp only [h3] at hf
    split at hf
    · cases hf
    · next hno =>
      obtain ⟨n, hn, ha, hb⟩ := h.m2n k v id hf
      refine ⟨n, ?_, ha, hb⟩
      simp only [h1, List.mem_filter]
      refine ⟨hn, ?_⟩
      simp only [decide_not, Bool.not_eq_eq_eq_not, Bool.not_true, decide_eq_false_iff_not]
      intro hlt; exact hno ⟨n, hn, hlt, hb⟩
  · intro k hf
    simp only [h3] at hf
    split at hf
    · next hex =>
      obtain ⟨n, hn, hlt, hk⟩ := hex
      obtain ⟨v, hv, ht⟩ := h.n2m n hn
      subst hk
      simp [specStep, ht, hlt]
    · simp [specStep, h.absent k hf]

/-- One step of a history without re-insertion. -/
theorem Rel.step {s : State K V} {t : Table K V} {l now : Int} (h : Rel s t l)
    (hl : l ≤ now) (dflt : V) (op : Op K V) (hop : ∀ k v, op = .insert k v → t k = none) :
    ∃ s', step dflt s now op = some s' ∧ s'.timeout = s.timeout ∧
      Rel s' (specStep s.timeout dflt t now op) now := by
  cases op with
  | access k =>
    obtain ⟨s', v, h1, h2, _⟩ := h.access (timeout := s.timeout) hl dflt k
    refine ⟨s', by simp [ExpMap.step, h1], ?_, h2⟩
    unfold ExpMap.access at h1
    split at h1
    · simp only [Option.some.injEq, Prod.mk.injEq] at h1
      rw [← h1.1]; unfold ExpMap.insertRaw; split <;> rfl
    · unfold ExpMap.updateTimestamp at h1; split at h1
      · cases h1
      · next heq =>
        split at heq
        · cases heq
        · simp only [Option.some.injEq] at heq; simp only [Option.some.injEq, Prod.mk.injEq] at h1
          rw [← h1.1, ← heq]
  | assign k v =>
    obtain ⟨s', h1, h2⟩ := h.assign (timeout := s.timeout) hl dflt k v
    refine ⟨s', by simp [ExpMap.step, h1], ?_, h2⟩
    unfold ExpMap.assign ExpMap.access at h1
    split at h1
    · cases h1
    · next heq =>
      split at h1
      · cases h1
      · simp only [Option.some.injEq] at h1
        rw [← h1]
        split at heq
        · simp only [Option.some.injEq, Prod.mk.injEq] at heq
          rw [← heq.1]; unfold ExpMap.insertRaw; split <;> rfl
        · unfold ExpMap.updateTimestamp at heq; split at heq
          · cases heq
          · next heq2 =>
            split at heq2
            · cases heq2
            · simp only [Option.some.injEq] at heq2
              simp only [Option.some.injEq, Prod.mk.injEq] at heq
              rw [← heq.1, ← heq2]
  | insert k v =>
    have ht := hop k v rfl
    have hf : s.map.find k = none := by
      cases hf : s.map.find k with
      | none => rfl
      | some p =>
        obtain ⟨w, id⟩ := p
        obtain ⟨n, hn, _, hk⟩ := h.m2n k w id hf
        obtain ⟨u, _, hu⟩ := h.n2m n hn
        rw [hk, ht] at hu; cases hu
    refine ⟨_, rfl, by simp [ExpMap.insertRaw, hf], ?_⟩
    simpa [specStep, ht] using h.insertRaw hl k v hf
  | erase k =>
    obtain ⟨s', b, h1, h2, _⟩ := h.erase (timeout := s.timeout) hl dflt k
    refine ⟨s', by simp [ExpMap.step, h1], ?_, h2⟩
    unfold ExpMap.erase at h1
    split at h1
    · simp only [Option.some.injEq, Prod.mk.injEq] at h1; rw [← h1.1]
    · split at h1
      · simp only [Option.some.injEq, Prod.mk.injEq] at h1; rw [← h1.1]
      · cases h1
  | eraseExpired => exact ⟨_, rfl, rfl, h.eraseExpired hl dflt⟩
  | clear =>
    refine ⟨_, rfl, rfl, ?_⟩
    constructor <;> simp [ExpMap.clear, specStep]

theorem Rel.run {s : State K V} {t : Table K V} {l : Int} (h : Rel s t l) (dflt : V)
    (hist : List (Int × Op K V)) (hm : MonotoneFrom l hist)
    (hn : NoReinsert s.timeout dflt t hist) :
    ∃ s' l', run dflt s hist = some s' ∧ s'.timeout = s.timeout ∧
      l' = hist.foldl (fun _ p => p.1) l ∧
      Rel s' (specRun s.timeout dflt t hist) l' := by
  induction hist generalizing s t l with
  | nil => exact ⟨s, l, rfl, rfl, rfl, h⟩
  | cons p hist ih =>
    obtain ⟨now, op⟩ := p
    obtain ⟨hm1, hm2⟩ := hm
    obtain ⟨hn1, hn2⟩ := hn
    obtain ⟨s1, h1, ht, hr⟩ := h.step hm1 dflt op hn1
    rw [← ht] at hn2
    obtain ⟨s', l', h2, ht2, hl, hr2⟩ := ih (ht ▸ hr) hm2 hn2
    refine ⟨s', l', ?_, by rw [ht2, ht], hl, ?_⟩
    · simp [ExpMap.run, h1, h2]
    · rw [ht] at hr2; exact hr2

/-! ### No dangling iterator, for every history -/

/-- Representation invariant that holds even with re-insertion: node identities are
unique and fresh, and every map entry points to an existing node of its key. -/
structure Safe (s : State K V) : Prop where
  idnd : s.nodes.Pairwise (fun a b => a.id ≠ b.id)
  idlt : ∀ n ∈ s.nodes, n.id < s.nextId
  m2n  : ∀ k v id, s.map.find k = some (v, id) → ∃ n ∈ s.nodes, n.id = id ∧ n.key = k

theorem Safe.init (timeout : Int) : Safe (init K V timeout) := by
  constructor <;> simp [ExpMap.init]

theorem Safe.insertRaw {s : State K V} (h : Safe s) (now : Int) (k : K) (v : V) :
    Safe (insertRaw s now k v).1 := by
  have hp : (s.nodes ++ [({ id := s.nextId, key := k, ts := now } : Node K)]).Pairwise
      (fun a b => a.id ≠ b.id) := by
    simp only [List.pairwise_append]
    refine ⟨h.idnd, by simp, ?_⟩
    intro a ha b hb
    simp at hb; subst hb
    have := h.idlt a ha; simp; omega
  have hl : ∀ n ∈ s.nodes ++ [({ id := s.nextId, key := k, ts := now } : Node K)], n.id < s.nextId + 1 := by
    intro n hn
    simp at hn
    rcases hn with hn | hn
    · have := h.idlt n hn; omega
    · subst hn; simp
  unfold ExpMap.insertRaw
  cases hk : s.map.find k with
  | none =>
    refine ⟨hp, hl, ?_⟩
    intro x w id hf
    simp only [AMap.find_set] at hf
    by_cases hx : k = x
    · simp [hx] at hf
      exact ⟨{ id := s.nextId, key := k, ts := now }, by simp, hf.2, hx⟩
    · simp [hx] at hf
      obtain ⟨n, hn, h1, h2⟩ := h.m2n x w id hf
      exact ⟨n, by simp [hn], h1, h2⟩
  | some p =>
    refine ⟨hp, hl, ?_⟩
    intro x w id hf
    obtain ⟨n, hn, h1, h2⟩ := h.m2n x w id hf
    exact ⟨n, by simp [hn], h1, h2⟩

theorem Safe.updateTimestamp {s : State K V} (h : Safe s) (now : Int) (k : K) (v : V) (id : Nat)
    (hk : s.map.find k = some (v, id)) :
    ∃ s', updateTimestamp s now id = some s' ∧ s'.map = s.map ∧ Safe s' := by
  obtain ⟨n, hn, hid, hkey⟩ := h.m2n k v id hk
  have hfind : s.nodes.find? (fun n => n.id == id) = some n := by
    cases hf : s.nodes.find? (fun n => n.id == id) with
    | none =>
      rw [List.find?_eq_none] at hf
      exact absurd hid (by simpa using hf n hn)
    | some m =>
      have hm := List.mem_of_find?_eq_some hf
      have := List.find?_some hf
      simp at this
      rw [id_inj h.idnd hm hn (by omega)]
  simp only [ExpMap.updateTimestamp, hfind]
  refine ⟨_, rfl, rfl, ?_, ?_, ?_⟩
  · simp only [List.pairwise_append]
    refine ⟨h.idnd.filter _, by simp, ?_⟩
    intro a ha b hb
    simp only [List.mem_singleton] at hb; subst hb
    have : a.id ≠ id := by simpa using (List.mem_filter.1 ha).2
    simp; omega
  · intro m hm
    simp only [List.mem_append, List.mem_singleton] at hm
    rcases hm with hm | hm
    · exact h.idlt m (List.mem_filter.1 hm).1
    · subst hm; exact h.idlt n hn
  · intro x w id' hf
    obtain ⟨m, hm, h1, h2⟩ := h.m2n x w id' hf
    by_cases he : m.id = id
    · have := id_inj h.idnd hm hn (by omega); subst this
      exact ⟨{ m with ts := now }, by simp, h1, h2⟩
    · exact ⟨m, by simp [hm, he], h1, h2⟩

theorem Safe.access {s : State K V} (h : Safe s) (now : Int) (dflt : V) (k : K) :
    ∃ s' v id, access s now dflt k = some (s', v) ∧ Safe s' ∧ s'.map.find k = some (v, id) := by
  unfold ExpMap.access
  cases hf : s.map.find k with
  | none =>
    exact ⟨_, _, s.nextId, rfl, h.insertRaw now k dflt, by simp [ExpMap.insertRaw, hf]⟩
  | some p =>
    obtain ⟨v, id⟩ := p
    obtain ⟨s', hs', hm, hr⟩ := h.updateTimestamp now k v id hf
    exact ⟨s', v, id, by simp [hs'], hr, by rw [hm, hf]⟩

theorem Safe.loop (limit : Int) (ns : List (Node K)) (m : AMap K (V × Nat))
    (h : ∀ k v id, m.find k = some (v, id) → ∃ n ∈ ns, n.id = id ∧ n.key = k) :
    (eraseExpiredLoop limit ns m).1 <:+ ns ∧
    ∀ k v id, (eraseExpiredLoop limit ns m).2.1.find k = some (v, id) →
      ∃ n ∈ (eraseExpiredLoop limit ns m).1, n.id = id ∧ n.key = k := by
  induction ns generalizing m with
  | nil => simpa [eraseExpiredLoop] using h
  | cons n ns ih =>
    unfold eraseExpiredLoop
    split
    · have := ih (m.erase n.key) (by
        intro k v id hf
        rw [AMap.find_erase] at hf
        by_cases hx : n.key = k
        · simp [hx] at hf
        · simp [hx] at hf
          obtain ⟨a, ha, hb, hc⟩ := h k v id hf
          rcases List.mem_cons.1 ha with e | ha
          · subst e; exact absurd hc hx
          · exact ⟨a, ha, hb, hc⟩)
      exact ⟨this.1.trans (List.suffix_cons n ns), this.2⟩
    · exact ⟨List.suffix_refl _, h⟩

theorem Safe.step {s : State K V} (h : Safe s) (now : Int) (dflt : V) (op : Op K V) :
    ∃ s', step dflt s now op = some s' ∧ Safe s' := by
  cases op with
  | access k =>
    obtain ⟨s', v, id, h1, h2, _⟩ := h.access now dflt k
    exact ⟨s', by simp [ExpMap.step, h1], h2⟩
  | assign k w =>
    obtain ⟨s', v, id, h1, h2, h3⟩ := h.access now dflt k
    refine ⟨{ s' with map := s'.map.set k (w, id) }, by simp [ExpMap.step, ExpMap.assign, h1, h3],
      h2.idnd, h2.idlt, ?_⟩
    intro x u id' hx
    simp only [AMap.find_set] at hx
    by_cases he : k = x
    · simp [he] at hx
      obtain ⟨n, hn, h1, h2⟩ := h2.m2n k v id h3
      exact ⟨n, hn, by omega, by rw [h2, he]⟩
    · simp [he] at hx
      exact h2.m2n x u id' hx
  | insert k v => exact ⟨_, rfl, h.insertRaw now k v⟩
  | erase k =>
    simp only [ExpMap.step, ExpMap.erase]
    cases hf : s.map.find k with
    | none => exact ⟨s, rfl, h⟩
    | some p =>
      obtain ⟨v, id⟩ := p
      obtain ⟨n, hn, hid, hkey⟩ := h.m2n k v id hf
      have hany : s.nodes.any (fun n => n.id == id) = true := by
        rw [List.any_eq_true]; exact ⟨n, hn, by simp [hid]⟩
      simp only [hany, if_true]
      refine ⟨_, rfl, h.idnd.filter _, fun m hm => h.idlt m (List.mem_filter.1 hm).1, ?_⟩
      intro x u id' hx
      simp only [AMap.find_erase] at hx
      by_cases he : k = x
      · simp [he] at hx
      · simp [he] at hx
        obtain ⟨m, hm, h1, h2⟩ := h.m2n x u id' hx
        refine ⟨m, ?_, h1, h2⟩
        simp only [List.mem_filter, bne_iff_ne, ne_eq]
        refine ⟨hm, ?_⟩
        intro e
        have := id_inj h.idnd hm hn (by omega)
        subst this
        exact he (by rw [← hkey, h2])
  | eraseExpired =>
    obtain ⟨h1, h2⟩ := Safe.loop (now - s.timeout) s.nodes s.map h.m2n
    exact ⟨_, rfl, h.idnd.sublist h1.sublist, fun m hm => h.idlt m (h1.subset hm), h2⟩
  | clear => exact ⟨_, rfl, by constructor <;> simp [ExpMap.clear]⟩

theorem Safe.run {s : State K V} (h : Safe s) (dflt : V) (hist : List (Int × Op K V)) :
    ∃ s', run dflt s hist = some s' ∧ Safe s' := by
  induction hist generalizing s with
  | nil => exact ⟨s, rfl, h⟩
  | cons p hist ih =>
    obtain ⟨s1, h1, h2⟩ := h.step p.1 dflt p.2
    obtain ⟨s2, h3, h4⟩ := ih h2
    exact ⟨s2, by simp [ExpMap.run, h1, h3], h4⟩

end Ecal.ExpMap
