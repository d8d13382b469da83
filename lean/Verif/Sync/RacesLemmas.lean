import Verif.Sync.Races

/-!
# Locks that keep accesses apart

Lemmas about the model of `Verif/Sync/Races.lean`: programs none of whose accesses clash never race, for any number of
threads and every schedule.
-/

namespace Ecal.Sync.Races

variable {L V : Type} [DecidableEq L]

theorem accs_append (h : List (L × Mode)) (p q : List (Act L V)) : accs h (p ++ q) = accs h p ++ accs (after h p) q := by
  induction p generalizing h with
  | nil => rfl
  | cons a r ih => cases a <;> simp [accs, after, ih]

/-- More locks held at the start are more locks held at every access. -/
theorem accs_mono {h h' : List (L × Mode)} (hs : ∀ x ∈ h', x ∈ h) (p : List (Act L V)) :
    ∀ a ∈ accs h p, ∃ b ∈ accs h' p, b.var = a.var ∧ b.write = a.write ∧ ∀ x ∈ b.held, x ∈ a.held := by
  induction p generalizing h h' with
  | nil => intro a ha; cases ha
  | cons c r ih =>
    intro a ha
    cases c with
    | acq l m =>
      refine ih (h := (l, m) :: h) (h' := (l, m) :: h') ?_ a ha
      intro x hx
      rcases List.mem_cons.1 hx with rfl | hx
      · exact List.mem_cons_self
      · exact List.mem_cons_of_mem _ (hs x hx)
    | rel l =>
      refine ih (h := h.filter _) (h' := h'.filter _) ?_ a ha
      intro x hx
      obtain ⟨h1, h2⟩ := List.mem_filter.1 hx
      exact List.mem_filter.2 ⟨hs x h1, h2⟩
    | rd v =>
      rcases List.mem_cons.1 ha with rfl | ha
      · exact ⟨⟨v, false, h'⟩, List.mem_cons_self, rfl, rfl, hs⟩
      · obtain ⟨b, hb, h1⟩ := ih hs a ha
        exact ⟨b, List.mem_cons_of_mem _ hb, h1⟩
    | wr v =>
      rcases List.mem_cons.1 ha with rfl | ha
      · exact ⟨⟨v, true, h'⟩, List.mem_cons_self, rfl, rfl, hs⟩
      · obtain ⟨b, hb, h1⟩ := ih hs a ha
        exact ⟨b, List.mem_cons_of_mem _ hb, h1⟩

/-- An access of a sequence of operations is an access of one of them, with the same locks or more. -/
theorem accs_flatMap {α : Type} (f : α → List (Act L V)) (xs : List α) (h : List (L × Mode)) :
    ∀ a ∈ accs h (xs.flatMap f), ∃ x ∈ xs, ∃ b ∈ accs [] (f x), b.var = a.var ∧ b.write = a.write ∧ ∀ y ∈ b.held, y ∈ a.held := by
  induction xs generalizing h with
  | nil => intro a ha; cases ha
  | cons x r ih =>
    intro a ha
    rw [List.flatMap_cons, accs_append] at ha
    rcases List.mem_append.1 ha with ha | ha
    · obtain ⟨b, hb, h1⟩ := accs_mono (h' := []) (by intro y hy; cases hy) _ a ha
      exact ⟨x, List.mem_cons_self, b, hb, h1⟩
    · obtain ⟨y, hy, b, hb, h1⟩ := ih _ a ha
      exact ⟨y, List.mem_cons_of_mem _ hy, b, hb, h1⟩

theorem apart_iff (h k : List (L × Mode)) :
    apart h k = true ↔ ∃ l m n, (l, m) ∈ h ∧ (l, n) ∈ k ∧ m.compat n = false := by
  unfold apart
  simp only [List.any_eq_true, Bool.and_eq_true, beq_iff_eq, Bool.not_eq_true']
  constructor
  · rintro ⟨⟨l, m⟩, h1, ⟨l', n⟩, h2, h3, h4⟩
    obtain rfl : l = l' := h3
    exact ⟨l, m, n, h1, h2, h4⟩
  · rintro ⟨l, m, n, h1, h2, h3⟩
    exact ⟨(l, m), h1, (l, n), h2, rfl, h3⟩

theorem compat_comm (m n : Mode) : m.compat n = n.compat m := by cases m <;> cases n <;> rfl

theorem apart_comm (h k : List (L × Mode)) : apart h k = apart k h := by
  have e : ∀ h k : List (L × Mode), apart h k = true → apart k h = true := by
    intro h k hk
    obtain ⟨l, m, n, h1, h2, h3⟩ := (apart_iff h k).1 hk
    exact (apart_iff k h).2 ⟨l, n, m, h2, h1, by rw [compat_comm]; exact h3⟩
  cases h1 : apart h k <;> cases h2 : apart k h <;> first | rfl | (have := e _ _ h1; simp [h2] at this) | (have := e _ _ h2; simp [h1] at this)

/-- What holds in every state that can be reached. -/
structure Inv (ps : List (List (Act L V))) (s : Sys L V) : Prop where
  len : s.length = ps.length
  sub : ∀ (i : Nat) t p, s[i]? = some t → ps[i]? = some p → ∀ a ∈ accs t.held t.rest, a ∈ accs [] p
  ok : ∀ (i j : Nat) (t u : Thread L V), i ≠ j → s[i]? = some t → s[j]? = some u → apart t.held u.held = false

theorem inv_start (ps : List (List (Act L V))) : Inv ps (start ps) where
  len := by simp [start]
  sub := by
    intro i t p ht hp a ha
    unfold start at ht
    rw [List.getElem?_map, hp] at ht
    obtain rfl := Option.some.inj ht
    exact ha
  ok := by
    intro i j t u _ ht hu
    unfold start at ht
    rw [List.getElem?_map] at ht
    cases h : ps[i]? with
    | none => simp [h] at ht
    | some p =>
      rw [h] at ht
      obtain rfl := Option.some.inj ht
      rfl

theorem act_cases {us : Sys L V} {t t' : Thread L V} (h : act us t = some t') :
    (∃ l m r, t.rest = .acq l m :: r ∧ t' = { held := (l, m) :: t.held, rest := r } ∧ ∀ u ∈ us, u.conflicts l m = false) ∨
    (∃ l r, t.rest = .rel l :: r ∧ t' = { held := t.held.filter (fun h => h.1 != l), rest := r }) ∨
    (∃ v r, (t.rest = .rd v :: r ∨ t.rest = .wr v :: r) ∧ t' = { held := t.held, rest := r }) := by
  unfold act at h
  split at h
  · cases h
  · rename_i l m r hr
    split at h
    · rename_i hc
      refine .inl ⟨l, m, r, hr, (Option.some.inj h).symm, ?_⟩
      simp only [Bool.and_eq_true, List.all_eq_true, Bool.not_eq_true'] at hc
      exact hc.2
    · cases h
  · rename_i l r hr
    exact .inr (.inl ⟨l, r, hr, (Option.some.inj h).symm⟩)
  · rename_i v r hr
    exact .inr (.inr ⟨v, r, .inl hr, (Option.some.inj h).symm⟩)
  · rename_i v r hr
    exact .inr (.inr ⟨v, r, .inr hr, (Option.some.inj h).symm⟩)

theorem mem_eraseIdx_of {α : Type} {s : List α} {i j : Nat} {u : α} (hij : i ≠ j) (hu : s[j]? = some u) : u ∈ s.eraseIdx i := by
  by_cases h : j < i
  · exact List.mem_of_getElem? (i := j) (by rw [List.getElem?_eraseIdx, if_pos h]; exact hu)
  · have h2 : i < j := by omega
    refine List.mem_of_getElem? (i := j - 1) ?_
    rw [List.getElem?_eraseIdx, if_neg (by omega)]
    have : j - 1 + 1 = j := by omega
    rw [this]
    exact hu

/-- The locks of a thread after its step are apart from those of every other one. -/
theorem act_ok {us : Sys L V} {t t' : Thread L V} (h : act us t = some t') {u : Thread L V} (hu : u ∈ us)
    (ha : apart t.held u.held = false) : apart t'.held u.held = false := by
  rcases act_cases h with ⟨l, m, r, _, rfl, hc⟩ | ⟨l, r, _, rfl⟩ | ⟨v, r, _, rfl⟩
  · have hc := hc u hu
    false_or_by_contra
    rename_i hx
    rw [Bool.not_eq_false] at hx
    obtain ⟨l', m', n, h1, h2, h3⟩ := (apart_iff _ _).1 hx
    rcases List.mem_cons.1 h1 with h1 | h1
    · obtain ⟨rfl, rfl⟩ := Prod.mk.inj h1
      have : u.conflicts l' m' = true := by
        unfold Thread.conflicts
        rw [List.any_eq_true]
        refine ⟨(l', n), h2, ?_⟩
        have h4 : n.compat m' = false := by rw [compat_comm]; exact h3
        simp [h4]
      rw [this] at hc
      cases hc
    · have : apart t.held u.held = true := (apart_iff _ _).2 ⟨l', m', n, h1, h2, h3⟩
      rw [this] at ha
      cases ha
  · false_or_by_contra
    rename_i hx
    rw [Bool.not_eq_false] at hx
    obtain ⟨l', m', n, h1, h2, h3⟩ := (apart_iff _ _).1 hx
    have : apart t.held u.held = true := (apart_iff _ _).2 ⟨l', m', n, (List.mem_filter.1 h1).1, h2, h3⟩
    rw [this] at ha
    cases ha
  · exact ha

theorem step_cases {s s' : Sys L V} {i : Nat} (h : step s i = some s') :
    ∃ t t', s[i]? = some t ∧ act (s.eraseIdx i) t = some t' ∧ s' = s.set i t' := by
  unfold step at h
  split at h
  · cases h
  · rename_i t ht
    split at h
    · cases h
    · rename_i t' ht'
      exact ⟨t, t', ht, ht', (Option.some.inj h).symm⟩

theorem inv_step {ps : List (List (Act L V))} {s s' : Sys L V} {i : Nat} (hi : Inv ps s) (h : step s i = some s') : Inv ps s' := by
  obtain ⟨t, t', ht, ha, rfl⟩ := step_cases h
  have hlt : i < s.length := by
    false_or_by_contra
    rename_i hx
    rw [List.getElem?_eq_none (by omega)] at ht
    cases ht
  have get : ∀ (j : Nat) u, (s.set i t')[j]? = some u → (j = i ∧ u = t') ∨ (j ≠ i ∧ s[j]? = some u) := by
    intro j u hu
    by_cases hj : j = i
    · subst hj
      rw [List.getElem?_set_self hlt] at hu
      exact .inl ⟨rfl, (Option.some.inj hu).symm⟩
    · rw [List.getElem?_set_ne (Ne.symm hj)] at hu
      exact .inr ⟨hj, hu⟩
  constructor
  · rw [List.length_set]; exact hi.len
  · intro j u p hu hp a haa
    rcases get j u hu with ⟨rfl, rfl⟩ | ⟨hj, hu⟩
    · refine hi.sub j t p ht hp a ?_
      rcases act_cases ha with ⟨l, m, r, hr, rfl, _⟩ | ⟨l, r, hr, rfl⟩ | ⟨v, r, hr | hr, rfl⟩
      · rw [hr]; exact haa
      · rw [hr]; exact haa
      · rw [hr]; exact List.mem_cons_of_mem _ haa
      · rw [hr]; exact List.mem_cons_of_mem _ haa
    · exact hi.sub j u p hu hp a haa
  · intro j k u w hjk hu hw
    rcases get j u hu with ⟨rfl, rfl⟩ | ⟨hj, hu'⟩
    · rcases get k w hw with ⟨rfl, rfl⟩ | ⟨hk, hw⟩
      · exact absurd rfl hjk
      · exact act_ok ha (mem_eraseIdx_of hjk hw) (hi.ok j k t w hjk ht hw)
    · rcases get k w hw with ⟨rfl, rfl⟩ | ⟨hk, hw⟩
      · rw [apart_comm]
        exact act_ok ha (mem_eraseIdx_of (Ne.symm hjk) hu') (by rw [apart_comm]; exact hi.ok j k u t hjk hu' ht)
      · exact hi.ok j k u w hjk hu' hw

theorem inv_run {ps : List (List (Act L V))} (tr : List Nat) {s s' : Sys L V} (hi : Inv ps s) (h : run s tr = some s') : Inv ps s' := by
  induction tr generalizing s with
  | nil =>
    obtain rfl := Option.some.inj h
    exact hi
  | cons i r ih =>
    unfold run at h
    split at h
    · cases h
    · rename_i s1 h1
      exact ih (inv_step hi h1) h

variable [DecidableEq V]

/-- Two threads at a race make accesses that nothing keeps apart. -/
theorem raceOn_clash {ps : List (List (Act L V))} {s : Sys L V} {v : V} (hi : Inv ps s) (h : RaceOn s v) :
    ∃ (i j : Nat) (p q : List (Act L V)), i ≠ j ∧ ps[i]? = some p ∧ ps[j]? = some q ∧
      ∃ a ∈ accs [] p, ∃ b ∈ accs [] q, a.var = v ∧ a.clash b = true := by
  obtain ⟨i, j, t, u, hij, ht, hu, hw, hx⟩ := h
  have idx : ∀ (k : Nat) (w : Thread L V), s[k]? = some w → ∃ p, ps[k]? = some p := by
    intro k w hk
    have : k < s.length := by
      false_or_by_contra
      rename_i hx
      rw [List.getElem?_eq_none (by omega)] at hk
      cases hk
    rw [hi.len] at this
    exact ⟨_, List.getElem?_eq_getElem this⟩
  obtain ⟨p, hp⟩ := idx i t ht
  obtain ⟨q, hq⟩ := idx j u hu
  have ha : (⟨v, true, t.held⟩ : Access L V) ∈ accs [] p := by
    refine hi.sub i t p ht hp _ ?_
    unfold Thread.writes at hw
    obtain ⟨r, hr⟩ := List.head?_eq_some_iff.1 hw
    rw [hr]
    exact List.mem_cons_self
  have hok := hi.ok i j t u hij ht hu
  refine ⟨i, j, p, q, hij, hp, hq, _, ha, ?_⟩
  rcases hx with hx | hx
  · obtain ⟨r, hr⟩ := List.head?_eq_some_iff.1 hx
    refine ⟨⟨v, false, u.held⟩, hi.sub j u q hu hq _ (by rw [hr]; exact List.mem_cons_self), rfl, ?_⟩
    simp [Access.clash, hok]
  · obtain ⟨r, hr⟩ := List.head?_eq_some_iff.1 hx
    refine ⟨⟨v, true, u.held⟩, hi.sub j u q hu hq _ (by rw [hr]; exact List.mem_cons_self), rfl, ?_⟩
    simp [Access.clash, hok]

/-- Fewer locks keep less apart. -/
theorem clash_weaken {a b a' b' : Access L V} (h : a.clash b = true)
    (ha : a'.var = a.var ∧ a'.write = a.write ∧ ∀ x ∈ a'.held, x ∈ a.held)
    (hb : b'.var = b.var ∧ b'.write = b.write ∧ ∀ x ∈ b'.held, x ∈ b.held) : a'.clash b' = true := by
  unfold Access.clash at h ⊢
  simp only [Bool.and_eq_true, beq_iff_eq, Bool.not_eq_true'] at h ⊢
  refine ⟨⟨by rw [ha.1, hb.1]; exact h.1.1, by rw [ha.2.1, hb.2.1]; exact h.1.2⟩, ?_⟩
  have h := h.2
  false_or_by_contra
  rename_i hx
  rw [Bool.not_eq_false] at hx
  obtain ⟨l, m, n, h1, h2, h3⟩ := (apart_iff _ _).1 hx
  rw [(apart_iff _ _).2 ⟨l, m, n, ha.2.2 _ h1, hb.2.2 _ h2, h3⟩] at h
  cases h

/-- Threads that make sequences of operations: at a race on `v` two operations of different threads clash on `v`. -/
theorem raceOn_ops {α : Type} (f : α → List (Act L V)) (ts : List (List α)) (tr : List Nat) {s : Sys L V} {v : V}
    (h : run (start (ts.map (fun ops => ops.flatMap f))) tr = some s) (hr : RaceOn s v) :
    ∃ (i j : Nat) (os qs : List α), i ≠ j ∧ ts[i]? = some os ∧ ts[j]? = some qs ∧ ∃ o ∈ os, ∃ q ∈ qs, clashOn v (f o) (f q) = true := by
  obtain ⟨i, j, p, q, hij, hp, hq, a, ha, b, hb, hv, hc⟩ := raceOn_clash (inv_run tr (inv_start _) h) hr
  have get : ∀ (k : Nat) p, (ts.map (fun ops => ops.flatMap f))[k]? = some p → ∃ os, ts[k]? = some os ∧ p = os.flatMap f := by
    intro k p hk
    rw [List.getElem?_map] at hk
    cases he : ts[k]? with
    | none => simp [he] at hk
    | some os =>
      rw [he] at hk
      exact ⟨os, rfl, (Option.some.inj hk).symm⟩
  obtain ⟨os, hos, rfl⟩ := get i p hp
  obtain ⟨qs, hqs, rfl⟩ := get j q hq
  obtain ⟨o, ho, a', ha', hx⟩ := accs_flatMap f os [] a ha
  obtain ⟨q, hq, b', hb', hy⟩ := accs_flatMap f qs [] b hb
  refine ⟨i, j, os, qs, hij, hos, hqs, o, ho, q, hq, ?_⟩
  unfold clashOn
  simp only [List.any_eq_true, Bool.and_eq_true, beq_iff_eq]
  exact ⟨a', ha', b', hb', by rw [hx.1, hv], clash_weaken hc hx hy⟩

theorem clash_of_clashOn {v : V} {p q : List (Act L V)} (h : clashOn v p q = true) : clash p q = true := by
  unfold clashOn at h
  unfold clash
  simp only [List.any_eq_true, Bool.and_eq_true, beq_iff_eq] at h ⊢
  obtain ⟨a, ha, b, hb, _, hc⟩ := h
  exact ⟨a, ha, b, hb, hc⟩

/-- Threads whose operations do not clash with those of the others never race. -/
theorem no_race {α : Type} (f : α → List (Act L V)) (ts : List (List α))
    (hc : ∀ (i j : Nat) (os qs : List α), i ≠ j → ts[i]? = some os → ts[j]? = some qs → ∀ o ∈ os, ∀ q ∈ qs, clash (f o) (f q) = false)
    (tr : List Nat) {s : Sys L V} (h : run (start (ts.map (fun ops => ops.flatMap f))) tr = some s) : ¬ Race s := by
  rintro ⟨v, hv⟩
  obtain ⟨i, j, os, qs, hij, hos, hqs, o, ho, q, hq, h1⟩ := raceOn_ops f ts tr h hv
  have := hc i j os qs hij hos hqs o ho q hq
  rw [clash_of_clashOn h1] at this
  cases this

/-- A variable that is touched only with one lock held exclusively is never raced for. -/
theorem no_race_on {α : Type} (f : α → List (Act L V)) (v : V) (l : L)
    (hl : ∀ o, ∀ x ∈ accs [] (f o), x.var = v → (l, Mode.excl) ∈ x.held) (ts : List (List α))
    (tr : List Nat) {s : Sys L V} (h : run (start (ts.map (fun ops => ops.flatMap f))) tr = some s) : ¬ RaceOn s v := by
  intro hv
  obtain ⟨i, j, os, qs, hij, hos, hqs, o, ho, q, hq, h1⟩ := raceOn_ops f ts tr h hv
  unfold clashOn at h1
  simp only [List.any_eq_true, Bool.and_eq_true, beq_iff_eq] at h1
  obtain ⟨a, ha, b, hb, e, hc⟩ := h1
  unfold Access.clash at hc
  simp only [Bool.and_eq_true, beq_iff_eq, Bool.not_eq_true'] at hc
  have : apart a.held b.held = true :=
    (apart_iff _ _).2 ⟨l, .excl, .excl, hl o a ha e, hl q b hb (by rw [← hc.1.1]; exact e), rfl⟩
  rw [this] at hc
  exact absurd hc.2 (by decide)

/-! ## Finding a race of two threads -/

/-- The variable of the race after the first thread alone for `n` steps, then the second alone for `m`. -/
def raceAt (p q : List (Act L V)) (n m : Nat) : Option V :=
  match run (start [p, q]) (List.replicate n 0 ++ List.replicate m 1) with
  | some [t, u] =>
    match t.rest, u.rest with
    | .wr v :: _, .rd w :: _ => if v = w then some v else none
    | .wr v :: _, .wr w :: _ => if v = w then some v else none
    | .rd v :: _, .wr w :: _ => if v = w then some v else none
    | _, _ => none
  | _ => none

theorem raceAt_sound {p q : List (Act L V)} {n m : Nat} {x : V} (h : raceAt p q n m = some x) :
    ∃ tr s, run (start [p, q]) tr = some s ∧ RaceOn s x := by
  unfold raceAt at h
  split at h
  · rename_i t u hr
    refine ⟨_, _, hr, ?_⟩
    split at h
    · rename_i v r w r' h1 h2
      split at h
      · rename_i e
        subst e
        obtain rfl := Option.some.inj h
        exact ⟨0, 1, t, u, by decide, rfl, rfl, by unfold Thread.writes; rw [h1]; rfl, .inl (by rw [h2]; rfl)⟩
      · cases h
    · rename_i v r w r' h1 h2
      split at h
      · rename_i e
        subst e
        obtain rfl := Option.some.inj h
        exact ⟨0, 1, t, u, by decide, rfl, rfl, by unfold Thread.writes; rw [h1]; rfl, .inr (by rw [h2]; rfl)⟩
      · cases h
    · rename_i v r w r' h1 h2
      split at h
      · rename_i e
        subst e
        obtain rfl := Option.some.inj h
        exact ⟨1, 0, u, t, by decide, rfl, rfl, by unfold Thread.writes; rw [h2]; rfl, .inl (by rw [h1]; rfl)⟩
      · cases h
    · cases h
  · cases h

/-- The accesses of a program with their positions. -/
def accsAt : Nat → List (L × Mode) → List (Act L V) → List (Nat × Access L V)
  | _, _, [] => []
  | n, h, .acq l m :: r => accsAt (n + 1) ((l, m) :: h) r
  | n, h, .rel l :: r => accsAt (n + 1) (h.filter (fun x => x.1 != l)) r
  | n, h, .rd v :: r => (n, ⟨v, false, h⟩) :: accsAt (n + 1) h r
  | n, h, .wr v :: r => (n, ⟨v, true, h⟩) :: accsAt (n + 1) h r

/-- A search for a race among the accesses that clash. -/
def racesB (p q : List (Act L V)) : Bool :=
  (accsAt 0 [] p).any (fun a => (accsAt 0 [] q).any (fun b => a.2.clash b.2 && (raceAt p q a.1 b.1).isSome))

theorem racesB_sound {p q : List (Act L V)} (h : racesB p q = true) : ∃ tr s, run (start [p, q]) tr = some s ∧ Race s := by
  unfold racesB at h
  simp only [List.any_eq_true, Bool.and_eq_true] at h
  obtain ⟨a, _, b, _, _, h⟩ := h
  obtain ⟨x, hx⟩ := Option.isSome_iff_exists.1 h
  obtain ⟨tr, s, h1, h2⟩ := raceAt_sound hx
  exact ⟨tr, s, h1, x, h2⟩

/-- The same for one variable. -/
def racesOnB (v : V) (p q : List (Act L V)) : Bool :=
  (accsAt 0 [] p).any (fun a => (accsAt 0 [] q).any (fun b => a.2.var == v && a.2.clash b.2 && (raceAt p q a.1 b.1 == some v)))

theorem racesOnB_sound {v : V} {p q : List (Act L V)} (h : racesOnB v p q = true) :
    ∃ tr s, run (start [p, q]) tr = some s ∧ RaceOn s v := by
  unfold racesOnB at h
  simp only [List.any_eq_true, Bool.and_eq_true, beq_iff_eq] at h
  obtain ⟨a, _, b, _, _, h⟩ := h
  exact raceAt_sound h

end Ecal.Sync.Races
