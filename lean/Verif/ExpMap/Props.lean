import Verif.ExpMap.Lemmas

/-!
# C01, C02: expiry of registered entities

Histories are lists of (clock value, call).  `lookup s k` is what a user of the table sees.
-/

namespace Ecal.ExpMap

variable {K V : Type} [DecidableEq K]

/-- The call refreshes key `k` (a registration of the entity was seen). -/
def Refreshes (k : K) : Op K V → Prop
  | .access x   => x = k
  | .assign x _ => x = k
  | .insert x _ => x = k
  | _ => False

/-- The call explicitly removes key `k`. -/
def Removes (k : K) : Op K V → Prop
  | .erase x => x = k
  | .clear   => True
  | _ => False

/-! ### Specification level helper lemmas -/

theorem spec_survives (timeout : Int) (dflt : V) (k : K) (t0 : Int)
    (h : List (Int × Op K V)) (t : Table K V)
    (hk : ∃ v r, t k = some (v, r) ∧ t0 ≤ r)
    (hmono : MonotoneFrom t0 h)
    (hrem : ∀ p ∈ h, ¬ Removes k p.2)
    (hexp : ∀ p ∈ h, p.1 ≤ t0 + timeout) :
    ∃ v r, specRun timeout dflt t h k = some (v, r) ∧ t0 ≤ r := by
  induction h generalizing t with
  | nil => exact hk
  | cons p h ih =>
    obtain ⟨now, op⟩ := p
    have hnow : t0 ≤ now := hmono.1
    have hmono' : MonotoneFrom t0 h := by
      cases h with
      | nil => trivial
      | cons q h => exact ⟨by have := hmono.2.1; omega, hmono.2.2⟩
    apply ih _ _ hmono' (fun p hp => hrem p (by simp [hp])) (fun p hp => hexp p (by simp [hp]))
    obtain ⟨v, r, hv, hr⟩ := hk
    have h1 := hrem (now, op) (by simp)
    have h2 := hexp (now, op) (by simp)
    simp only at h2
    cases op with
    | access x =>
      by_cases e : k = x
      · subst e; exact ⟨v, now, by simp [specStep, hv], hnow⟩
      · exact ⟨v, r, by simp [specStep, e, hv], hr⟩
    | assign x w =>
      by_cases e : k = x
      · subst e; exact ⟨w, now, by simp [specStep], hnow⟩
      · exact ⟨v, r, by simp [specStep, e, hv], hr⟩
    | insert x w =>
      by_cases e : k = x
      · subst e; exact ⟨v, r, by simp [specStep, hv], hr⟩
      · exact ⟨v, r, by simp [specStep, e, hv], hr⟩
    | erase x =>
      have e : k ≠ x := by intro e; exact h1 e.symm
      exact ⟨v, r, by simp [specStep, e, hv], hr⟩
    | eraseExpired =>
      have : ¬ r < now - timeout := by omega
      exact ⟨v, r, by simp [specStep, hv, this], hr⟩
    | clear => exact absurd trivial h1

theorem spec_refreshed (timeout : Int) (dflt : V) (k : K) (h : List (Int × Op K V))
    (t : Table K V) (v : V) (r : Int) (hk : specRun timeout dflt t h k = some (v, r)) :
    (∃ w, t k = some (w, r)) ∨ ∃ p ∈ h, Refreshes k p.2 ∧ p.1 = r := by
  induction h generalizing t with
  | nil => exact Or.inl ⟨v, hk⟩
  | cons p h ih =>
    obtain ⟨now, op⟩ := p
    rcases ih _ hk with ⟨w, hw⟩ | ⟨q, hq, hq2⟩
    · cases op with
      | access x =>
        by_cases e : k = x
        · subst e
          refine Or.inr ⟨(now, .access k), by simp, rfl, ?_⟩
          simp [specStep] at hw; split at hw <;> simp at hw <;> omega
        · exact Or.inl ⟨w, by simpa [specStep, e] using hw⟩
      | assign x u =>
        by_cases e : k = x
        · subst e
          refine Or.inr ⟨(now, .assign k u), by simp, rfl, ?_⟩
          simp [specStep] at hw; omega
        · exact Or.inl ⟨w, by simpa [specStep, e] using hw⟩
      | insert x u =>
        by_cases e : k = x
        · subst e
          cases ht : t k with
          | some p =>
            simp [specStep, ht] at hw
            exact Or.inl ⟨w, by simp [hw]⟩
          | none =>
            simp [specStep, ht] at hw
            exact Or.inr ⟨(now, .insert k u), by simp, rfl, by simp; omega⟩
        · exact Or.inl ⟨w, by simpa [specStep, e] using hw⟩
      | erase x =>
        by_cases e : k = x
        · simp [specStep, e] at hw
        · exact Or.inl ⟨w, by simpa [specStep, e] using hw⟩
      | eraseExpired =>
        cases ht : t k with
        | none => simp [specStep, ht] at hw
        | some p =>
          simp only [specStep, ht] at hw
          split at hw
          · cases hw
          · exact Or.inl ⟨w, hw⟩
      | clear => simp [specStep] at hw
    · exact Or.inr ⟨q, by simp [hq], hq2⟩

/-! ### The properties -/

/-- C01, refinement form: on every history with a non-decreasing clock that never
re-inserts a present key, the container runs without undefined behaviour and shows exactly
the contents of the abstract expiring table. -/
theorem C01_refines_expiring_table (timeout t0 : Int) (dflt : V) (h : List (Int × Op K V))
    (hmono : MonotoneFrom t0 h) (hnr : NoReinsert timeout dflt (fun _ => none) h) :
    ∃ s, run dflt (init K V timeout) h = some s ∧
      ∀ k, lookup s k = (specRun timeout dflt (fun _ => none) h k).map Prod.fst := by
  obtain ⟨s, l, h1, _, _, hr⟩ := (Rel.init (K := K) (V := V) timeout t0).run dflt h hmono hnr
  exact ⟨s, h1, fun k => hr.lookup k⟩

example : MonotoneFrom 0 [((0 : Int), Op.assign 1 10), (3, .insert 2 20), (4, .access 1),
      (9, .eraseExpired)] ∧
    NoReinsert 5 0 (fun _ => none) [((0 : Int), Op.assign 1 10), (3, .insert 2 20),
      (4, .access 1), (9, .eraseExpired)] := by
  simp [MonotoneFrom, NoReinsert, specStep]

/-- C01: a key refreshed at time `t` (by an access or a registration) is still there after
any later calls, expiry passes at any time up to `t + timeout` included, as long as nobody
removes it explicitly. -/
theorem C01_recently_refreshed_survives (timeout t0 t : Int) (dflt : V) (k : K)
    (op : Op K V) (h1 h2 : List (Int × Op K V))
    (hop : (∃ v, op = .assign k v) ∨ op = .access k ∨ ∃ v, op = .insert k v)
    (hmono : MonotoneFrom t0 (h1 ++ (t, op) :: h2))
    (hnr : NoReinsert timeout dflt (fun _ => none) (h1 ++ (t, op) :: h2))
    (hrem : ∀ p ∈ h2, ¬ Removes k p.2)
    (hrecent : ∀ p ∈ h2, p.1 ≤ t + timeout) :
    ∃ s, run dflt (init K V timeout) (h1 ++ (t, op) :: h2) = some s ∧
      (lookup s k).isSome := by
  obtain ⟨s, hs, hl⟩ := C01_refines_expiring_table timeout t0 dflt _ hmono hnr
  refine ⟨s, hs, ?_⟩
  rw [hl k]
  have happ : ∀ (a b : List (Int × Op K V)) (tb : Table K V),
      specRun timeout dflt tb (a ++ b) = specRun timeout dflt (specRun timeout dflt tb a) b := by
    intro a; induction a with
    | nil => intro b tb; rfl
    | cons p a ih => intro b tb; exact ih b _
  have hmapp : ∀ (a : List (Int × Op K V)) (x : Int), MonotoneFrom x (a ++ (t, op) :: h2) →
      MonotoneFrom t h2 := by
    intro a; induction a with
    | nil => intro x hx; exact hx.2
    | cons p a ih => intro x hx; exact ih _ hx.2
  have hnapp : ∀ (a : List (Int × Op K V)) (tb : Table K V),
      NoReinsert timeout dflt tb (a ++ (t, op) :: h2) →
      (∀ k v, op = .insert k v → specRun timeout dflt tb a k = none) := by
    intro a; induction a with
    | nil => intro tb hx; exact hx.1
    | cons p a ih => intro tb hx; exact ih _ hx.2
  have hno := hnapp h1 _ hnr
  rw [happ]
  simp only [specRun]
  obtain ⟨v, r, hv, _⟩ := spec_survives timeout dflt k t h2
    (specStep timeout dflt (specRun timeout dflt (fun _ => none) h1) t op) (by
      rcases hop with ⟨v, e⟩ | e | ⟨v, e⟩
      · subst e; exact ⟨v, t, by simp [specStep], Int.le_refl _⟩
      · subst e
        simp only [specStep, if_true]
        split
        · next v _ _ => exact ⟨v, t, rfl, Int.le_refl _⟩
        · exact ⟨dflt, t, rfl, Int.le_refl _⟩
      · subst e
        have := hno k v rfl
        exact ⟨v, t, by simp [specStep, this], Int.le_refl _⟩)
    (hmapp h1 _ hmono) hrem hrecent
  simp [hv]

example : ∃ s, run 0 (init Nat Nat 5)
      ([((0 : Int), Op.assign 1 10), (3, .assign 2 20)] ++ (4, .access 1) ::
        [((9 : Int), Op.eraseExpired), (9, .erase 2)]) = some s ∧ (lookup s 1).isSome := by
  apply C01_recently_refreshed_survives (t0 := 0)
  · exact Or.inr (Or.inl rfl)
  · simp [MonotoneFrom]
  · simp [NoReinsert]
  · simp [Removes]
  · simp

/-- C01, memory safety: no history whatsoever (re-insertion and clock jumps included) makes
the container follow a dangling list iterator. -/
theorem C01_no_dangling_iterator (timeout : Int) (dflt : V) (h : List (Int × Op K V)) :
    ∃ s, run dflt (init K V timeout) h = some s := by
  obtain ⟨s, hs, _⟩ := (Safe.init (K := K) (V := V) timeout).run dflt h
  exact ⟨s, hs⟩

/-- The outcome "undefined behaviour" is not vacuous: a container whose list node is gone
would reach it. -/
example : step (V := Nat) (K := Nat) 0
    { nodes := [], map := [(1, 10, 0)], timeout := 5, nextId := 1 } 0 (.erase 1) = none := rfl

/-- C01 at full strength (including the public `insert` of a key that is already present)
is false of the code: `insert` of a present key leaves a second list node behind; when
this node expires the key is dropped although it was refreshed a moment ago. -/
theorem C01_violated_by_reinsert :
    ∃ s, run 0 (init Nat Nat 5) [((0 : Int), Op.assign 1 10), (1, .insert 1 11),
        (8, .access 1), (8, .eraseExpired)] = some s ∧ lookup s 1 = none := by
  exact ⟨_, rfl, rfl⟩

/-- C02: after an expiry pass at time `now` every key still present was refreshed by some
call at or after `now - timeout`. -/
theorem C02_no_stale_key_left (timeout t0 now : Int) (dflt : V) (h : List (Int × Op K V))
    (hmono : MonotoneFrom t0 (h ++ [(now, .eraseExpired)]))
    (hnr : NoReinsert timeout dflt (fun _ => none) (h ++ [(now, .eraseExpired)]))
    (s : State K V) (hs : run dflt (init K V timeout) (h ++ [(now, .eraseExpired)]) = some s)
    (k : K) (hk : (lookup s k).isSome) :
    ∃ p ∈ h, Refreshes k p.2 ∧ now - timeout ≤ p.1 := by
  obtain ⟨s', hs', hl⟩ := C01_refines_expiring_table timeout t0 dflt _ hmono hnr
  rw [hs] at hs'; cases hs'
  rw [hl k] at hk
  have happ : ∀ (a b : List (Int × Op K V)) (tb : Table K V),
      specRun timeout dflt tb (a ++ b) = specRun timeout dflt (specRun timeout dflt tb a) b := by
    intro a; induction a with
    | nil => intro b tb; rfl
    | cons p a ih => intro b tb; exact ih b _
  rw [happ] at hk
  simp only [specRun, specStep] at hk
  cases hx : specRun timeout dflt (fun _ => none) h k with
  | none => simp [hx] at hk
  | some p =>
    obtain ⟨v, r⟩ := p
    simp only [hx] at hk
    have hr : ¬ r < now - timeout := by
      intro hlt; simp [hlt] at hk
    rcases spec_refreshed timeout dflt k h _ v r hx with ⟨w, hw⟩ | ⟨p, hp, hp1, hp2⟩
    · cases hw
    · exact ⟨p, hp, hp1, by omega⟩

example : ∃ p ∈ [((0 : Int), Op.assign 1 10), (3, Op.assign 2 20)],
    Refreshes 2 p.2 ∧ 6 - 5 ≤ p.1 :=
  C02_no_stale_key_left (K := Nat) (V := Nat) 5 0 6 0 _ (by simp [MonotoneFrom])
    (by simp [NoReinsert]) _ rfl 2 rfl

/-- C02: the keys reported by an expiry pass are pairwise different, and they are exactly
the keys visible before and not visible after the pass. -/
theorem C02_reported_exactly_removed (timeout t0 now : Int) (dflt : V)
    (h : List (Int × Op K V)) (hmono : MonotoneFrom t0 (h ++ [(now, .eraseExpired)]))
    (hnr : NoReinsert timeout dflt (fun _ => none) h)
    (s : State K V) (hs : run dflt (init K V timeout) h = some s) :
    (eraseExpired s now).2.Nodup ∧
    ∀ k, k ∈ (eraseExpired s now).2 ↔
      (lookup s k).isSome ∧ lookup (eraseExpired s now).1 k = none := by
  have hm1 : MonotoneFrom t0 h := by
    clear hs hnr
    induction h generalizing t0 with
    | nil => trivial
    | cons p h ih => exact ⟨hmono.1, ih _ hmono.2⟩
  obtain ⟨s', l, h1, ht, hl, hr⟩ := (Rel.init (K := K) (V := V) timeout t0).run dflt h hm1 hnr
  rw [hs] at h1; cases h1
  obtain ⟨e1, e2, e3⟩ := eraseExpiredLoop_spec (now - s.timeout) s.nodes s.map hr.sorted
  have hkeys : (s.nodes.map Node.key).Nodup := by
    have : ∀ ns : List (Node K), (∀ n ∈ ns, n ∈ s.nodes) →
        ns.Pairwise (fun a b => a.id ≠ b.id) → (ns.map Node.key).Nodup := by
      intro ns hsub hp
      induction ns with
      | nil => simp
      | cons n ns ih =>
        rw [List.pairwise_cons] at hp
        simp only [List.map_cons, List.nodup_cons]
        refine ⟨?_, ih (fun m hm => hsub m (by simp [hm])) hp.2⟩
        intro hmem
        obtain ⟨m, hm, he⟩ := List.mem_map.1 hmem
        have := hr.key_inj (hsub m (by simp [hm])) (hsub n (by simp)) he
        exact hp.1 m hm (by rw [this])
    exact this s.nodes (fun n hn => hn) hr.idnd
  unfold eraseExpired lookup
  constructor
  · simp only [e2]
    exact List.Sublist.nodup (List.filter_sublist.map _) hkeys
  · intro k
    simp only [e2, e3]
    simp only [List.mem_map, List.mem_filter, decide_eq_true_eq]
    constructor
    · rintro ⟨n, ⟨hn, hlt⟩, hk⟩
      obtain ⟨v, hv, _⟩ := hr.n2m n hn
      subst hk
      refine ⟨by simp [hv], ?_⟩
      have : ∃ m ∈ s.nodes, m.ts < now - s.timeout ∧ m.key = n.key := ⟨n, hn, hlt, rfl⟩
      simp [this]
    · rintro ⟨ha, hb⟩
      split at hb
      · next hex =>
        obtain ⟨n, hn, hlt, hk⟩ := hex
        exact ⟨n, ⟨hn, hlt⟩, hk⟩
      · simp only [Option.map_eq_none_iff] at hb
        rw [hb] at ha; simp at ha

example : (eraseExpired (V := Nat) (K := Nat)
    { nodes := [⟨0, 1, 0⟩, ⟨1, 2, 7⟩], map := [(1, 10, 0), (2, 20, 1)], timeout := 5,
      nextId := 2 } 8).2 = [1] := rfl

/-- With the public `insert` of a present key a key can be reported twice. -/
theorem C02_violated_by_reinsert :
    ∃ s : State Nat Nat, run 0 (init Nat Nat 5) [((0 : Int), Op.assign 1 10), (1, .insert 1 11)] = some s
      ∧ (eraseExpired s 8).2 = [1, 1] := ⟨_, rfl, rfl⟩

end Ecal.ExpMap
