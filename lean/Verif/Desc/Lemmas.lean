import Verif.Desc.Spec
import Verif.ExpMap.Lemmas

namespace Ecal.Desc

open ExpMap (State Table Rel)

variable {K V : Type} [DecidableEq K]

/-- Link between a store and the latest announcements `L` (per key: value and time). -/
structure Tracks (T : Int) (s : State K V) (L : K → Option (V × Int)) (last : Int) : Prop where
  nodup : (AMap.keys s.map).Nodup
  tmo   : s.timeout = T
  rel   : ∃ t : Table K V, Rel s t last ∧
    ∀ k, t k = L k ∨ (t k = none ∧ ∃ v r, L k = some (v, r) ∧ r < last - T)

theorem Tracks.init (T last : Int) : Tracks T (ExpMap.init K V T) (fun _ => none) last :=
  ⟨by simp [ExpMap.init], rfl, _, Rel.init T last, fun _ => Or.inl rfl⟩

theorem Tracks.mono {T : Int} {s : State K V} {L : K → Option (V × Int)} {a b : Int}
    (h : Tracks T s L a) (hab : a ≤ b) : Tracks T s L b := by
  obtain ⟨h1, h2, t, h3, h4⟩ := h
  refine ⟨h1, h2, t, h3.mono hab, fun k => ?_⟩
  rcases h4 k with h | ⟨h, v, r, hv, hr⟩
  · exact Or.inl h
  · exact Or.inr ⟨h, v, r, hv, by omega⟩


theorem Tracks.congr {T : Int} {s : State K V} {L L' : K → Option (V × Int)} {a : Int}
    (h : Tracks T s L a) (e : ∀ k, L' k = L k) : Tracks T s L' a := by
  have : L' = L := funext e
  rw [this]; exact h

/-- Entries not present may be forgotten. -/
theorem Tracks.forget {T : Int} {s : State K V} {L L' : K → Option (V × Int)} {a : Int}
    (h : Tracks T s L a) (e : ∀ k, L' k = L k ∨ (L' k = none ∧ k ∉ AMap.keys s.map)) :
    Tracks T s L' a := by
  obtain ⟨h1, h2, t, h3, h4⟩ := h
  refine ⟨h1, h2, t, h3, fun k => ?_⟩
  rcases e k with h | ⟨h, hk⟩
  · rw [h]; exact h4 k
  · left; rw [h]; exact h3.absent k ((AMap.find_none_iff _ _).2 hk)

theorem nodup_loop (limit : Int) (ns : List (ExpMap.Node K)) (m : AMap K (V × Nat))
    (h : (AMap.keys m).Nodup) : (AMap.keys (ExpMap.eraseExpiredLoop limit ns m).2.1).Nodup := by
  induction ns generalizing m with
  | nil => exact h
  | cons n ns ih =>
    simp only [ExpMap.eraseExpiredLoop]
    split
    · exact ih _ (AMap.nodup_erase h _)
    · exact h

theorem nodup_eraseExpired (s : State K V) (now : Int) (h : (AMap.keys s.map).Nodup) :
    (AMap.keys (ExpMap.eraseExpired s now).1.map).Nodup := nodup_loop _ _ _ h

theorem nodup_access (s s' : State K V) (now : Int) (d v : V) (k : K) (h : (AMap.keys s.map).Nodup)
    (ha : ExpMap.access s now d k = some (s', v)) : (AMap.keys s'.map).Nodup := by
  unfold ExpMap.access at ha
  split at ha
  · rename_i hf
    simp only [ExpMap.insertRaw, hf] at ha
    obtain ⟨rfl, _⟩ := Prod.mk.inj (Option.some.inj ha)
    exact AMap.nodup_set h _ _
  · split at ha
    · cases ha
    · rename_i hu
      obtain ⟨rfl, _⟩ := Prod.mk.inj (Option.some.inj ha)
      unfold ExpMap.updateTimestamp at hu
      split at hu
      · cases hu
      · cases hu; exact h

theorem nodup_assign (s s' : State K V) (now : Int) (d v : V) (k : K) (h : (AMap.keys s.map).Nodup)
    (ha : ExpMap.assign s now d k v = some s') : (AMap.keys s'.map).Nodup := by
  unfold ExpMap.assign at ha
  split at ha
  · cases ha
  · rename_i s1 w h1
    have := nodup_access s s1 now d w k h h1
    split at ha
    · cases ha
    · cases ha; exact AMap.nodup_set this _ _

theorem nodup_erase' (s s' : State K V) (k : K) (b : Bool) (h : (AMap.keys s.map).Nodup)
    (ha : ExpMap.erase s k = some (s', b)) : (AMap.keys s'.map).Nodup := by
  unfold ExpMap.erase at ha
  split at ha
  · cases ha; exact h
  · split at ha
    · cases ha; exact AMap.nodup_erase h _
    · cases ha

/-- Erasing expired entries. -/
theorem Tracks.expire {T : Int} {s : State K V} {L : K → Option (V × Int)} {last now : Int}
    (h : Tracks T s L last) (hl : last ≤ now) :
    Tracks T (ExpMap.eraseExpired s now).1 L now ∧
    ∀ k v, ExpMap.lookup (ExpMap.eraseExpired s now).1 k = some v ↔
      ∃ r, L k = some (v, r) ∧ now - T ≤ r := by
  obtain ⟨h1, h2, t, h3, h4⟩ := h
  have hr : Rel (ExpMap.eraseExpired s now).1
      (fun x => match t x with
        | some (v, r) => if r < now - s.timeout then none else some (v, r)
        | none => none) now := by
    by_cases hV : Nonempty V
    · exact h3.eraseExpired hl (Classical.choice hV)
    · have : s.nodes = [] := by
        cases hn : s.nodes with
        | nil => rfl
        | cons n ns =>
          obtain ⟨v, _⟩ := h3.n2m n (by simp [hn])
          exact absurd ⟨v⟩ hV
      have e : (ExpMap.eraseExpired s now).1 = s := by
        simp [ExpMap.eraseExpired, this, ExpMap.eraseExpiredLoop]; cases s; simp_all
      rw [e]
      have e2 : (fun x => match t x with
        | some (v, r) => if r < now - s.timeout then none else some (v, r)
        | none => none) = t := by
        funext x
        cases ht : t x with
        | none => simp
        | some p => exact absurd ⟨p.1⟩ hV
      rw [e2]; exact h3.mono hl
  constructor
  · refine ⟨nodup_eraseExpired s now h1, h2, _, hr, fun k => ?_⟩
    subst h2
    rcases h4 k with h | ⟨h, v, r, hv, hrr⟩
    · simp only [h]
      cases hL : L k with
      | none => simp
      | some p =>
        obtain ⟨v, r⟩ := p
        by_cases hx : r < now - s.timeout
        · right; simp only [hx, if_true, true_and]; exact ⟨v, r, rfl, hx⟩
        · left; simp [hx]
    · right; simp only [h, true_and]; exact ⟨v, r, hv, by omega⟩
  · intro k v
    subst h2
    rw [hr.lookup k]
    rcases h4 k with h | ⟨h, v', r, hv, hrr⟩
    · simp only [h]
      cases hL : L k with
      | none => simp
      | some p =>
        obtain ⟨v', r⟩ := p
        by_cases hx : r < now - s.timeout
        · simp only [hx, if_true, Option.map_none, reduceCtorEq, false_iff, not_exists]
          intro r' ⟨e, hr'⟩
          simp only [Option.some.injEq, Prod.mk.injEq] at e
          omega
        · simp only [hx, if_false, Option.map_some, Option.some.injEq, Prod.mk.injEq]
          constructor
          · rintro rfl; exact ⟨r, ⟨rfl, rfl⟩, by omega⟩
          · rintro ⟨_, ⟨rfl, _⟩, _⟩; rfl
    · simp only [h, Option.map_none, reduceCtorEq, false_iff, not_exists]
      intro r' ⟨e, hr'⟩
      rw [hv] at e
      simp only [Option.some.injEq, Prod.mk.injEq] at e
      omega

/-- Storing an entry. -/
theorem Tracks.put {T : Int} {s : State K V} {L : K → Option (V × Int)} {last now : Int}
    (h : Tracks T s L last) (hl : last ≤ now) (d : V) (k : K) (v : V) :
    ∃ s', Desc.put d s now k v = some s' ∧
      Tracks T s' (fun x => if x = k then some (v, now) else L x) now := by
  obtain ⟨⟨h1, h2, t, h3, h4⟩, _⟩ := h.expire hl
  obtain ⟨s', e, htm, hr⟩ := h3.step (Int.le_refl now) d (.assign k v) (by intro _ _ h; cases h)
  refine ⟨s', e, nodup_assign _ _ _ _ _ _ h1 e, by rw [htm, h2], _, hr, fun x => ?_⟩
  simp only [ExpMap.specStep]
  by_cases hx : x = k
  · simp [hx]
  · simpa [hx] using h4 x

/-- Erasing keys. -/
theorem Tracks.eraseKeys {T : Int} {s : State K V} {L : K → Option (V × Int)} {now : Int}
    (h : Tracks T s L now) (d : V) (ks : List K) :
    ∃ s', Desc.eraseKeys s ks = some s' ∧
      Tracks T s' (fun x => if x ∈ ks then none else L x) now := by
  induction ks generalizing s L with
  | nil => exact ⟨s, rfl, by simpa using h⟩
  | cons k ks ih =>
    obtain ⟨h1, h2, t, h3, h4⟩ := h
    obtain ⟨s1, b, e, hr, _⟩ := h3.erase (timeout := T) (Int.le_refl now) d k
    have htm : s1.timeout = T := by
      unfold ExpMap.erase at e
      split at e
      · cases e; exact h2
      · split at e
        · cases e; exact h2
        · cases e
    have hT : Tracks T s1 (fun x => if x = k then none else L x) now := by
      refine ⟨nodup_erase' _ _ _ _ h1 e, htm, _, hr, fun x => ?_⟩
      simp only [ExpMap.specStep]
      by_cases hx : x = k
      · simp [hx]
      · simpa [hx] using h4 x
    obtain ⟨s', e', hT'⟩ := ih hT
    refine ⟨s', by simp [Desc.eraseKeys, e, e'], ?_⟩
    have : (fun x => if x ∈ k :: ks then none else L x)
        = (fun x => if x ∈ ks then none else if x = k then none else L x) := by
      funext x
      by_cases a : x = k <;> by_cases b : x ∈ ks <;> simp [a, b]
    rw [this]; exact hT'

/-- Membership in the listed entries. -/
theorem mem_map_iff (s : State K V) (h : (AMap.keys s.map).Nodup) (k : K) (v : V) :
    (∃ id, (k, (v, id)) ∈ s.map) ↔ ExpMap.lookup s k = some v := by
  unfold ExpMap.lookup
  constructor
  · rintro ⟨id, hm⟩
    rw [AMap.find_of_mem h hm]; rfl
  · intro hl
    cases hf : AMap.find s.map k with
    | none => simp [hf] at hl
    | some p =>
      obtain ⟨w, id⟩ := p
      simp [hf] at hl
      subst hl
      exact ⟨id, AMap.mem_of_find hf⟩

end Ecal.Desc
