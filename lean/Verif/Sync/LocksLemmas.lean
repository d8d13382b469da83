import Verif.Sync.Locks

/-! # Locks taken in a fixed order never deadlock -/

namespace Ecal.Sync.Locks

variable {L : Type} [DecidableEq L]

/-- The actions take locks only upwards in the order `rank`, release what is held, and end with nothing held. -/
def Ordered (rank : L → Nat) : List (L × Mode) → List (Act L) → Prop
  | held, [] => held = []
  | held, .acq l m :: r => (∀ h ∈ held, rank h.1 < rank l) ∧ Ordered rank ((l, m) :: held) r
  | held, .rel l :: r => Ordered rank (held.filter (fun h => h.1 != l)) r

/-- All threads take their locks in the order. -/
def AllOrdered (rank : L → Nat) (s : Sys L) : Prop := ∀ t ∈ s, Ordered rank t.held t.rest

theorem act_ordered (rank : L → Nat) (pref : Bool) (us : Sys L) (t t' : Thread L) (h : Ordered rank t.held t.rest)
    (ha : act pref us t = some t') : Ordered rank t'.held t'.rest := by
  obtain ⟨held, rest⟩ := t
  unfold act at ha
  cases rest with
  | nil => cases ha
  | cons a r =>
    cases a with
    | acq l m =>
      simp only at ha
      by_cases hf : free pref us ⟨held, .acq l m :: r⟩ l m
      · rw [if_pos hf] at ha; cases ha; exact h.2
      · rw [if_neg hf] at ha; cases ha
    | rel l => simp only at ha; cases ha; exact h

theorem step_some (pref : Bool) (s s' : Sys L) (i : Nat) (h : step pref s i = some s') :
    ∃ t t', s[i]? = some t ∧ act pref (s.eraseIdx i) t = some t' ∧ s' = s.set i t' := by
  unfold step at h
  cases ht : s[i]? with
  | none => rw [ht] at h; cases h
  | some t =>
    rw [ht] at h
    simp only at h
    cases ha : act pref (s.eraseIdx i) t with
    | none => rw [ha] at h; cases h
    | some t' => rw [ha] at h; cases h; exact ⟨t, t', rfl, ha, rfl⟩

theorem step_ordered (rank : L → Nat) (pref : Bool) (s s' : Sys L) (i : Nat) (h : AllOrdered rank s)
    (hs : step pref s i = some s') : AllOrdered rank s' := by
  obtain ⟨t, t', ht, ha, rfl⟩ := step_some pref s s' i hs
  intro u hu
  rcases List.mem_or_eq_of_mem_set hu with hu | rfl
  · exact h u hu
  · exact act_ordered rank pref _ t _ (h t (List.mem_of_getElem? ht)) ha

theorem run_ordered (rank : L → Nat) (pref : Bool) (s s' : Sys L) (is : List Nat) (h : AllOrdered rank s)
    (hs : run pref s is = some s') : AllOrdered rank s' := by
  induction is generalizing s with
  | nil => cases hs; exact h
  | cons i r ih =>
    simp only [run] at hs
    cases h1 : step pref s i with
    | none => rw [h1] at hs; cases hs
    | some s1 => rw [h1] at hs; exact ih s1 (step_ordered rank pref s s1 i h h1) hs

/-! ## Progress -/

/-- The lock a thread asks for next. -/
def want (t : Thread L) : Option L :=
  match t.rest with
  | .acq l _ :: _ => some l
  | _ => none

omit [DecidableEq L] in
/-- Among the threads with a wish there is one with the highest wish. -/
theorem exists_highest (rank : L → Nat) (s : Sys L) (t0 : Thread L) (h0 : t0 ∈ s) (l0 : L) (hw : want t0 = some l0) :
    ∃ t ∈ s, ∃ l, want t = some l ∧ ∀ u ∈ s, ∀ k, want u = some k → rank k ≤ rank l := by
  induction s generalizing t0 l0 with
  | nil => cases h0
  | cons a r ih =>
    by_cases hr : ∃ u ∈ r, ∃ k, want u = some k
    · obtain ⟨u, hu, k, hk⟩ := hr
      obtain ⟨t, ht, l, hl, hmax⟩ := ih u hu k hk
      cases ha : want a with
      | none =>
        refine ⟨t, List.mem_cons_of_mem _ ht, l, hl, ?_⟩
        intro v hv k' hk'
        rcases List.mem_cons.1 hv with rfl | hv
        · rw [ha] at hk'; cases hk'
        · exact hmax v hv k' hk'
      | some la =>
        rcases Nat.lt_or_ge (rank l) (rank la) with hlt | hge
        · refine ⟨a, List.mem_cons_self, la, ha, ?_⟩
          intro v hv k' hk'
          rcases List.mem_cons.1 hv with rfl | hv
          · rw [ha] at hk'; cases hk'; exact Nat.le_refl _
          · exact Nat.le_trans (hmax v hv k' hk') (Nat.le_of_lt hlt)
        · refine ⟨t, List.mem_cons_of_mem _ ht, l, hl, ?_⟩
          intro v hv k' hk'
          rcases List.mem_cons.1 hv with rfl | hv
          · rw [ha] at hk'; cases hk'; exact hge
          · exact hmax v hv k' hk'
    · have hno : ∀ v ∈ r, want v = none := by
        intro v hv
        cases hv' : want v with
        | none => rfl
        | some k => exact absurd ⟨v, hv, k, hv'⟩ hr
      have h0a : t0 = a := by
        rcases List.mem_cons.1 h0 with h | h
        · exact h
        · rw [hno t0 h] at hw; cases hw
      subst h0a
      refine ⟨t0, List.mem_cons_self, l0, hw, ?_⟩
      intro v hv k' hk'
      rcases List.mem_cons.1 hv with rfl | hv
      · rw [hw] at hk'; cases hk'; exact Nat.le_refl _
      · rw [hno v hv] at hk'; cases hk'

/-- A thread that holds a lock has not come to its end, and it asks only for higher locks. -/
theorem want_above (rank : L → Nat) (s : Sys L) (pref : Bool) (hs : ∀ i, step pref s i = none) (h : AllOrdered rank s)
    (u : Thread L) (hu : u ∈ s) (l : L) (m : Mode) (hl : (l, m) ∈ u.held) :
    ∃ k, want u = some k ∧ rank l < rank k := by
  have ho := h u hu
  cases hr : u.rest with
  | nil => rw [hr] at ho; simp only [Ordered] at ho; rw [ho] at hl; cases hl
  | cons a r =>
    rw [hr] at ho
    cases a with
    | acq k m' => exact ⟨k, by simp [want, hr], ho.1 _ hl⟩
    | rel k =>
      obtain ⟨i, hi, rfl⟩ := List.mem_iff_getElem.1 hu
      have := hs i
      simp [step, List.getElem?_eq_getElem hi, act, hr] at this

theorem not_free_blocker (pref : Bool) (us : Sys L) (t : Thread L) (l : L) (m : Mode) (hh : t.holds l = false)
    (hf : free pref us t l m = false) : ∃ u ∈ us, u.blocks pref l m = true := by
  unfold free at hf
  rw [hh] at hf
  simp only [Bool.not_false, Bool.true_and] at hf
  rw [List.all_eq_false] at hf
  obtain ⟨u, hu, hb⟩ := hf
  refine ⟨u, hu, ?_⟩
  cases h : u.blocks pref l m
  · rw [h] at hb; simp at hb
  · rfl

theorem conflicts_holds (u : Thread L) (l : L) (m : Mode) (h : u.conflicts l m = true) : ∃ m', (l, m') ∈ u.held := by
  unfold Thread.conflicts at h
  rw [List.any_eq_true] at h
  obtain ⟨x, hx, hc⟩ := h
  simp only [Bool.and_eq_true, beq_iff_eq] at hc
  exact ⟨x.2, by rw [← hc.1]; exact hx⟩

theorem ordered_not_holds (rank : L → Nat) (t : Thread L) (l : L) (m : Mode) (r : List (Act L)) (hr : t.rest = .acq l m :: r)
    (h : Ordered rank t.held t.rest) : t.holds l = false := by
  rw [hr] at h
  unfold Thread.holds
  rw [List.any_eq_false]
  intro x hx he
  simp only [beq_iff_eq] at he
  have := h.1 x hx
  rw [he] at this
  exact Nat.lt_irrefl _ this

/-- **Threads that take their locks in the order of a rank never deadlock**, for every number of threads and with or
without preference for writers. -/
theorem ordered_not_deadlocked (rank : L → Nat) (pref : Bool) (s : Sys L) (h : AllOrdered rank s) : ¬ Deadlocked pref s := by
  rintro ⟨hn, hs⟩
  -- a thread with work left asks for a lock
  have hwant : ∀ t ∈ s, t.rest ≠ [] → ∃ l, want t = some l := by
    intro t ht hr
    cases hrest : t.rest with
    | nil => exact absurd hrest hr
    | cons a r =>
      cases a with
      | acq l m => exact ⟨l, by simp [want, hrest]⟩
      | rel k =>
        obtain ⟨i, hi, rfl⟩ := List.mem_iff_getElem.1 ht
        have := hs i
        simp [step, List.getElem?_eq_getElem hi, act, hrest] at this
  have : ∃ t0 ∈ s, t0.rest ≠ [] := by
    false_or_by_contra
    rename_i hc
    apply hn
    intro t ht
    false_or_by_contra
    rename_i hne
    exact hc ⟨t, ht, hne⟩
  obtain ⟨t0, ht0, hne⟩ := this
  obtain ⟨l0, hl0⟩ := hwant t0 ht0 hne
  obtain ⟨t, ht, l, hl, hmax⟩ := exists_highest rank s t0 ht0 l0 hl0
  -- nobody holds the lock that is asked for highest
  have hnobody : ∀ u ∈ s, ∀ m, (l, m) ∉ u.held := by
    intro u hu m hm
    obtain ⟨k, hk, hlt⟩ := want_above rank s pref hs h u hu l m hm
    have := hmax u hu k hk
    omega
  -- a thread that asks for it exclusively gets it
  have hexcl : ∀ u ∈ s, ∀ r, u.rest ≠ .acq l .excl :: r := by
    intro u hu r hr
    obtain ⟨i, hi, rfl⟩ := List.mem_iff_getElem.1 hu
    have hstep := hs i
    have hself := ordered_not_holds rank _ l .excl r hr (h _ hu)
    cases hf : free pref (s.eraseIdx i) s[i] l .excl with
    | true => simp [step, List.getElem?_eq_getElem hi, act, hr, hf] at hstep
    | false =>
      obtain ⟨v, hv, hb⟩ := not_free_blocker pref _ _ l .excl hself hf
      unfold Thread.blocks at hb
      simp at hb
      obtain ⟨m', hm'⟩ := conflicts_holds v l _ hb
      exact hnobody v (List.mem_of_mem_eraseIdx hv) m' hm'
  -- so does the thread that was chosen
  cases hrest : t.rest with
  | nil => simp [want, hrest] at hl
  | cons a r =>
    cases a with
    | rel k => simp [want, hrest] at hl
    | acq k m =>
      simp only [want, hrest, Option.some.injEq] at hl
      subst hl
      obtain ⟨i, hi, rfl⟩ := List.mem_iff_getElem.1 ht
      have hstep := hs i
      have hself := ordered_not_holds rank _ k m r hrest (h _ ht)
      cases hf : free pref (s.eraseIdx i) s[i] k m with
      | true => simp [step, List.getElem?_eq_getElem hi, act, hrest, hf] at hstep
      | false =>
        obtain ⟨v, hv, hb⟩ := not_free_blocker pref _ _ k m hself hf
        have hvs := List.mem_of_mem_eraseIdx hv
        unfold Thread.blocks at hb
        rw [Bool.or_eq_true] at hb
        rcases hb with hb | hb
        · obtain ⟨m', hm'⟩ := conflicts_holds v k _ hb
          exact hnobody v hvs m' hm'
        · simp only [Bool.and_eq_true, Thread.waitsExcl, beq_iff_eq] at hb
          cases hvr : v.rest with
          | nil => simp [hvr] at hb
          | cons b r' =>
            rw [hvr] at hb
            simp only [List.head?_cons, Option.some.injEq] at hb
            exact hexcl v hvs r' (by rw [hvr, hb.2])

/-! ## Every execution comes to its end -/

/-- Actions that are left. -/
def left (s : Sys L) : Nat := (s.map (fun t => t.rest.length)).sum

theorem act_left (pref : Bool) (us : Sys L) (t t' : Thread L) (h : act pref us t = some t') : t'.rest.length + 1 = t.rest.length := by
  obtain ⟨held, rest⟩ := t
  unfold act at h
  cases rest with
  | nil => cases h
  | cons a r =>
    cases a with
    | acq l m =>
      simp only at h
      by_cases hf : free pref us ⟨held, .acq l m :: r⟩ l m
      · rw [if_pos hf] at h; cases h; rfl
      · rw [if_neg hf] at h; cases h
    | rel l => simp only at h; cases h; rfl

omit [DecidableEq L] in
theorem left_set (s : Sys L) (i : Nat) (t t' : Thread L) (h : s[i]? = some t) (hl : t'.rest.length + 1 = t.rest.length) :
    left (s.set i t') + 1 = left s := by
  induction s generalizing i with
  | nil => simp at h
  | cons a r ih =>
    cases i with
    | zero =>
      simp only [List.getElem?_cons_zero, Option.some.injEq] at h
      subst h
      simp only [left, List.set_cons_zero, List.map_cons, List.sum_cons]
      omega
    | succ i =>
      simp only [List.getElem?_cons_succ] at h
      have := ih i h
      simp only [left, List.set_cons_succ, List.map_cons, List.sum_cons] at this ⊢
      omega

theorem step_left (pref : Bool) (s s' : Sys L) (i : Nat) (h : step pref s i = some s') : left s' + 1 = left s := by
  obtain ⟨t, t', ht, ha, rfl⟩ := step_some pref s s' i h
  exact left_set s i t t' ht (act_left pref _ t t' ha)

theorem run_left (pref : Bool) (s s' : Sys L) (is : List Nat) (h : run pref s is = some s') : left s' + is.length = left s := by
  induction is generalizing s with
  | nil => cases h; rfl
  | cons i r ih =>
    simp only [run] at h
    cases h1 : step pref s i with
    | none => rw [h1] at h; cases h
    | some s1 =>
      rw [h1] at h
      have := ih s1 h
      have := step_left pref s s1 i h1
      simp only [List.length_cons]
      omega

omit [DecidableEq L] in
theorem left_zero (s : Sys L) (h : left s = 0) : Finished s := by
  induction s with
  | nil => intro t ht; cases ht
  | cons a r ih =>
    simp only [left, List.map_cons, List.sum_cons] at h ih
    intro t ht
    rcases List.mem_cons.1 ht with rfl | ht
    · exact List.eq_nil_of_length_eq_zero (by omega)
    · exact ih (by omega) t ht

theorem run_append (pref : Bool) (s : Sys L) (a b : List Nat) :
    run pref s (a ++ b) = (run pref s a).bind (fun s' => run pref s' b) := by
  induction a generalizing s with
  | nil => rfl
  | cons i r ih =>
    simp only [List.cons_append, run]
    cases step pref s i with
    | none => rfl
    | some s1 => exact ih s1

/-- From every state in which all threads keep the order, everything that has begun can be finished. -/
theorem ordered_completes (rank : L → Nat) (pref : Bool) (s : Sys L) (h : AllOrdered rank s) :
    ∃ is s', run pref s is = some s' ∧ Finished s' := by
  induction hn : left s generalizing s with
  | zero => exact ⟨[], s, rfl, left_zero s hn⟩
  | succ n ih =>
    by_cases hf : Finished s
    · exact ⟨[], s, rfl, hf⟩
    · have hnd := ordered_not_deadlocked rank pref s h
      have : ∃ i s1, step pref s i = some s1 := by
        false_or_by_contra
        rename_i hc
        apply hnd
        refine ⟨hf, ?_⟩
        intro i
        cases hi : step pref s i with
        | none => rfl
        | some s1 => exact absurd ⟨i, s1, hi⟩ hc
      obtain ⟨i, s1, hi⟩ := this
      have hl := step_left pref s s1 i hi
      obtain ⟨is, s', hr, hfin⟩ := ih s1 (step_ordered rank pref s s1 i h hi) (by omega)
      exact ⟨i :: is, s', by simp [run, hi, hr], hfin⟩

/-- A run that cannot be continued has finished everything. -/
theorem ordered_maximal_finished (rank : L → Nat) (pref : Bool) (s s' : Sys L) (is : List Nat) (h : AllOrdered rank s)
    (hr : run pref s is = some s') (hend : ∀ i, step pref s' i = none) : Finished s' := by
  false_or_by_contra
  rename_i hc
  exact ordered_not_deadlocked rank pref s' (run_ordered rank pref s s' is h hr) ⟨hc, hend⟩

end Ecal.Sync.Locks
