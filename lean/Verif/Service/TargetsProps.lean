import Verif.Service.Targets
import Verif.ExpMap.Lemmas
import Std.Data.String.ToInt

/-!
# Properties of the targets of service calls (C95)
-/

namespace Ecal.Service.Targets

open Ecal ExpMap

/-! ## Specification: what the registrations seen so far say -/

/-- The registrations of a history, with the time of their arrival. -/
def regsOf : List Step → List (Int × Reg)
  | [] => []
  | .register now r :: es => (now, r) :: regsOf es
  | _ :: es => regsOf es

/-- The clock does not go back. -/
def Ordered (regs : List (Int × Reg)) : Prop := regs.Pairwise (fun a b => a.1 ≤ b.1)

/-- `r`, received at `t`, is the last registration with key `k`, and no registration of any service arrived more than
5000 ms after it. -/
def LiveAt (regs : List (Int × Reg)) (k : String) (r : Reg) (t : Int) : Prop :=
  ∃ pre post, regs = pre ++ (t, r) :: post ∧ key r = k ∧ (∀ p ∈ post, key p.2 ≠ k) ∧ ∀ p ∈ post, p.1 ≤ t + 5000

theorem regsOf_append (a b : List Step) : regsOf (a ++ b) = regsOf a ++ regsOf b := by
  induction a with
  | nil => rfl
  | cons e a ih => cases e <;> simp [regsOf, ih]

theorem snoc_cases {α : Type} {xs pre post : List α} {x y : α} (h : xs ++ [x] = pre ++ y :: post) :
    (post = [] ∧ pre = xs ∧ y = x) ∨ ∃ post', post = post' ++ [x] ∧ xs = pre ++ y :: post' := by
  rcases List.eq_nil_or_concat post with hp | ⟨q, z, hp⟩
  · subst hp
    have := List.append_inj' h rfl
    exact .inl ⟨rfl, this.1.symm, by simpa using this.2.symm⟩
  · subst hp
    right
    have h' : xs ++ [x] = (pre ++ y :: q) ++ [z] := by simpa using h
    have := List.append_inj' h' rfl
    exact ⟨q, by simpa using this.2.symm, this.1⟩

theorem liveAt_snoc (regs : List (Int × Reg)) (p : Int × Reg) (k : String) (r : Reg) (t : Int) :
    LiveAt (regs ++ [p]) k r t ↔
      (key p.2 = k ∧ p = (t, r)) ∨ (key p.2 ≠ k ∧ LiveAt regs k r t ∧ p.1 ≤ t + 5000) := by
  constructor
  · rintro ⟨pre, post, h, hk, hn, ht⟩
    rcases snoc_cases h with ⟨_, _, rfl⟩ | ⟨post', rfl, rfl⟩
    · exact .inl ⟨hk, rfl⟩
    · right
      refine ⟨hn p (by simp), ⟨pre, post', rfl, hk, fun q hq => hn q (by simp [hq]), fun q hq => ht q (by simp [hq])⟩,
        ht p (by simp)⟩
  · rintro (⟨hk, rfl⟩ | ⟨hk, ⟨pre, post, rfl, hk', hn, ht⟩, hp⟩)
    · exact ⟨regs, [], rfl, hk, by simp, by simp⟩
    · refine ⟨pre, post ++ [p], by simp, hk', fun q hq => ?_, fun q hq => ?_⟩
      · rcases List.mem_append.1 hq with hq | hq
        · exact hn q hq
        · simp at hq; subst hq; exact hk
      · rcases List.mem_append.1 hq with hq | hq
        · exact ht q hq
        · simp at hq; subst hq; exact hp

/-! ## The invariant -/

structure Inv (s : State) (regs : List (Int × Reg)) (last : Int) : Prop where
  table : ∃ T, Rel s.servers T last ∧ ∀ k r t, T k = some (r, t) ↔ LiveAt regs k r t
  limit : s.servers.timeout = 5000
  nodup : (AMap.keys s.servers.map).Nodup
  sess  : ∀ k x, s.sessions.find k = some x → ∃ p ∈ regs, key p.2 = k ∧ x = connectTo p.2 ∧ p.2.sname = s.name
  dom   : ∀ m, s.methods.find m = none ↔ s.counts.find m = none

theorem assign_nodup {s s' : ExpMap.State String Reg} {now : Int} {d w : Reg} {k : String}
    (h : ExpMap.assign s now d k w = some s') (hn : (AMap.keys s.map).Nodup) : (AMap.keys s'.map).Nodup := by
  unfold ExpMap.assign ExpMap.access at h
  split at h
  · simp at h
  rename_i s1 _ hs
  have h1 : (AMap.keys s1.map).Nodup := by
    split at hs
    · cases hs
      unfold ExpMap.insertRaw
      split
      · exact AMap.nodup_set hn _ _
      · exact hn
    · split at hs
      · simp at hs
      · rename_i hu
        cases hs
        unfold ExpMap.updateTimestamp at hu
        split at hu
        · simp at hu
        · cases hu; exact hn
  split at h
  · simp at h
  · cases h; exact AMap.nodup_set h1 _ _

theorem loop_nodup (limit : Int) (ns : List (Node String)) (m : AMap String (Reg × Nat)) (hn : (AMap.keys m).Nodup) :
    (AMap.keys (eraseExpiredLoop limit ns m).2.1).Nodup := by
  induction ns generalizing m with
  | nil => exact hn
  | cons n ns ih =>
    unfold eraseExpiredLoop
    split
    · exact ih _ (AMap.nodup_erase hn _)
    · exact hn

theorem start_sets {α : Type} (f : String → α) (ds : List String) (m : AMap String α) (x : String) :
    (ds.foldl (fun m x => m.set x (f x)) m).find x = none ↔ x ∉ ds ∧ m.find x = none := by
  induction ds generalizing m with
  | nil => simp
  | cons d ds ih =>
    rw [List.foldl_cons, ih, AMap.find_set]
    by_cases h : d = x
    · simp [h]
    · simp [h, Ne.symm h]

theorem inv_start (name : String) (ds : List String) (last : Int) : Inv (start name ds) [] last := by
  refine ⟨⟨fun _ => none, Rel.init 5000 last, ?_⟩, rfl, ?_, ?_, ?_⟩
  · intro k r t
    simp [LiveAt]
  · simp [start, ExpMap.init]
  · intro k x h; simp [start] at h
  · intro m
    simp only [start]
    rw [start_sets (fun _ => ()) ds [] m, start_sets (fun _ => 0) ds [] m]
    simp

theorem inv_register {s : State} {regs : List (Int × Reg)} {last now : Int} (hi : Inv s regs last) (hl : last ≤ now)
    (r : Reg) : ∃ s', register s now r = some s' ∧ Inv s' (regs ++ [(now, r)]) now ∧ s'.name = s.name ∧
      s'.host = s.host ∧ s'.sessions = s.sessions := by
  obtain ⟨⟨T, hr, hT⟩, hlim, hnd, hse, hdom⟩ := hi
  obtain ⟨m, h1, ht, h2⟩ := hr.step hl default (.assign (key r) r) (by simp)
  simp only [ExpMap.step] at h1
  have h3 := h2.eraseExpired (Int.le_refl now) default
  refine ⟨{ s with servers := (ExpMap.eraseExpired m now).1 }, by simp [register, h1], ⟨⟨_, h3, ?_⟩, ?_, ?_, ?_, ?_⟩,
    rfl, rfl, rfl⟩
  · intro k x t
    rw [liveAt_snoc, ← hT]
    simp only [specStep]
    have hmt : m.timeout = 5000 := by rw [ht, hlim]
    rw [hmt]
    by_cases hk : k = key r
    · subst hk
      simp
      constructor
      · rintro ⟨_, h1, h2⟩
        exact ⟨h2, h1⟩
      · rintro ⟨h1, h2⟩
        exact ⟨by omega, h2, h1⟩
    · simp only [if_neg hk, Ne.symm hk, false_and, false_or, ne_eq, not_false_eq_true, true_and]
      cases hTk : T k with
      | none => simp
      | some q =>
        obtain ⟨v, u⟩ := q
        simp only [Option.some.injEq, Prod.mk.injEq]
        constructor
        · intro h
          split at h
          · simp at h
          · simp at h
            exact ⟨h, by omega⟩
        · rintro ⟨⟨rfl, rfl⟩, h⟩
          rw [if_neg (by omega)]
  · show m.timeout = 5000
    rw [ht, hlim]
  · exact loop_nodup _ _ _ (assign_nodup h1 hnd)
  · intro k x h
    obtain ⟨p, hp, h⟩ := hse k x h
    exact ⟨p, by simp [hp], h⟩
  · exact hdom

/-- The servers of the table. -/
theorem mem_attrs {s : State} {regs : List (Int × Reg)} {last : Int} (hi : Inv s regs last) (k : String) (r : Reg) :
    (k, r) ∈ attrs s ↔ (∃ t, LiveAt regs k r t) ∧ r.sname = s.name := by
  obtain ⟨T, hr, hT⟩ := hi.table
  have hlook : s.servers.map.find k = none ↔ T k = none := by
    have := hr.lookup k
    unfold ExpMap.lookup at this
    cases h1 : s.servers.map.find k <;> cases h2 : T k <;> simp_all
  have hval : ∀ v id, s.servers.map.find k = some (v, id) → ∃ t, T k = some (v, t) := by
    intro v id h
    have := hr.lookup k
    unfold ExpMap.lookup at this
    rw [h] at this
    cases h2 : T k with
    | none => simp [h2] at this
    | some q => obtain ⟨a, b⟩ := q; simp [h2] at this; exact ⟨b, by rw [this]⟩
  simp only [attrs, List.mem_map, List.mem_filter, decide_eq_true_eq]
  constructor
  · rintro ⟨⟨k', v, id⟩, ⟨hm, hs⟩, he⟩
    simp only [Prod.mk.injEq] at he
    obtain ⟨rfl, rfl⟩ := he
    obtain ⟨t, ht⟩ := hval _ _ (AMap.find_of_mem hi.nodup hm)
    exact ⟨⟨t, (hT _ _ _).1 ht⟩, hs⟩
  · rintro ⟨⟨t, ht⟩, hs⟩
    have hTk := (hT k r t).2 ht
    cases hf : s.servers.map.find k with
    | none => rw [hlook.1 hf] at hTk; simp at hTk
    | some q =>
      obtain ⟨v, id⟩ := q
      obtain ⟨u, hu⟩ := hval v id hf
      rw [hTk] at hu
      simp only [Option.some.injEq, Prod.mk.injEq] at hu
      obtain ⟨rfl, rfl⟩ := hu
      exact ⟨(k, r, id), ⟨AMap.mem_of_find hf, hs⟩, rfl⟩

theorem liveAt_mem {regs : List (Int × Reg)} {k : String} {r : Reg} {t : Int} (h : LiveAt regs k r t) :
    (t, r) ∈ regs ∧ key r = k := by
  obtain ⟨pre, post, rfl, hk, _⟩ := h
  exact ⟨by simp, hk⟩

/-- What `CheckForNewServices` leaves. -/
theorem foldl_checkNew (l : List (String × Reg)) (m : AMap String Session) (k : String) :
    (∀ x, m.find k = some x → (l.foldl checkNew m).find k = some x) ∧
    ((∃ r, (k, r) ∈ l) → ((l.foldl checkNew m).find k).isSome = true) ∧
    (∀ x, (l.foldl checkNew m).find k = some x → m.find k = some x ∨ ∃ r, (k, r) ∈ l ∧ x = connectTo r) := by
  induction l generalizing m with
  | nil => simp
  | cons e l ih =>
    obtain ⟨h1, h2, h3⟩ := ih (checkNew m e)
    have hc : ∀ x, m.find k = some x → (checkNew m e).find k = some x := by
      intro x hx
      unfold checkNew
      split
      · rename_i hn
        rw [AMap.find_set_ne _ _ _ _ (by rintro rfl; rw [hx] at hn; simp at hn)]
        exact hx
      · exact hx
    have hs : e.1 = k → ((checkNew m e).find k).isSome = true := by
      rintro rfl
      unfold checkNew
      split
      · simp
      · rename_i h; simp [h]
    refine ⟨fun x hx => ?_, ?_, fun x hx => ?_⟩
    · exact h1 x (hc x hx)
    · rintro ⟨r, hr⟩
      rcases List.mem_cons.1 hr with hr | hr
      · have := hs (by rw [← hr])
        obtain ⟨x, hx⟩ := Option.isSome_iff_exists.1 this
        rw [List.foldl_cons, h1 x hx]; rfl
      · exact h2 ⟨r, hr⟩
    · rcases h3 x hx with h | ⟨r, hr, rfl⟩
      · unfold checkNew at h
        split at h
        · rw [AMap.find_set] at h
          split at h
          · rename_i he
            cases h
            exact .inr ⟨e.2, by simp [← he], rfl⟩
          · exact .inl h
        · exact .inl h
      · exact .inr ⟨r, by simp [hr], rfl⟩

theorem inv_check {s : State} {regs : List (Int × Reg)} {last : Int} (hi : Inv s regs last) :
    Inv (check s) regs last := by
  refine ⟨hi.table, hi.limit, hi.nodup, fun k x h => ?_, hi.dom⟩
  rcases (foldl_checkNew (attrs s) s.sessions k).2.2 x h with h | ⟨r, hr, rfl⟩
  · exact hi.sess k x h
  · obtain ⟨⟨t, ht⟩, hs⟩ := (mem_attrs hi k r).1 hr
    obtain ⟨hm, hk⟩ := liveAt_mem ht
    exact ⟨(t, r), hm, hk, rfl, hs⟩

theorem increment_some {s : State} {regs : List (Int × Reg)} {last : Int} (hi : Inv s regs last) (m : String) :
    ∃ s', increment s m = some s' ∧ Inv s' regs last ∧ s'.name = s.name ∧ s'.host = s.host ∧
      (∀ x, (s'.counts.find x).getD 0 = (s.counts.find x).getD 0 + if x = m then 1 else 0) := by
  unfold increment
  cases hm : s.methods.find m with
  | none =>
    have hc := (hi.dom m).1 hm
    simp only [AMap.find_set_self]
    refine ⟨_, rfl, ⟨hi.table, hi.limit, hi.nodup, hi.sess, fun x => ?_⟩, rfl, rfl, fun x => ?_⟩
    · simp only [AMap.find_set]
      have := hi.dom x
      by_cases h : m = x <;> simp [h, this]
    · simp only [AMap.find_set]
      by_cases h : m = x
      · subst h; simp [hc]
      · simp [h, Ne.symm h]
  | some u =>
    cases hc : s.counts.find m with
    | none => rw [(hi.dom m).2 hc] at hm; simp at hm
    | some n =>
      simp only [hc]
      refine ⟨_, rfl, ⟨hi.table, hi.limit, hi.nodup, hi.sess, fun x => ?_⟩, rfl, rfl, fun x => ?_⟩
      · simp only [AMap.find_set]
        have := hi.dom x
        by_cases h : m = x
        · subst h; simp [hm]
        · simp [h, this]
      · simp only [AMap.find_set]
        by_cases h : m = x
        · subst h; simp [hc]
        · simp [h, Ne.symm h]

theorem incrementBy_some {s : State} {regs : List (Int × Reg)} {last : Int} (hi : Inv s regs last) (m : String) (n : Nat) :
    ∃ s', incrementBy s m n = some s' ∧ Inv s' regs last ∧ s'.name = s.name ∧ s'.host = s.host ∧
      (∀ x, (s'.counts.find x).getD 0 = (s.counts.find x).getD 0 + if x = m then n else 0) := by
  induction n generalizing s with
  | zero => exact ⟨s, rfl, hi, rfl, rfl, fun x => by simp⟩
  | succ n ih =>
    obtain ⟨s1, h1, hi1, a1, b1, c1⟩ := increment_some hi m
    obtain ⟨s2, h2, hi2, a2, b2, c2⟩ := ih hi1
    refine ⟨s2, by simp [incrementBy, h1, h2], hi2, a2.trans a1, b2.trans b1, fun x => ?_⟩
    rw [c2, c1]
    split <;> omega

/-- What a call does. -/
theorem call_some {s : State} {regs : List (Int × Reg)} {last : Int} (hi : Inv s regs last) (m : String)
    (accept : String → Bool) :
    ∃ s', call s m accept = some (targets (check s), s') ∧ Inv s' regs last ∧ s'.name = s.name ∧ s'.host = s.host ∧
      (∀ x, (s'.counts.find x).getD 0 = (s.counts.find x).getD 0 +
        if x = m then ((targets (check s)).filter (fun t => accept t.1)).length else 0) := by
  obtain ⟨s', h, hi', a, b, c⟩ := incrementBy_some (inv_check hi) m
    ((targets (check s)).filter (fun t => accept t.1)).length
  exact ⟨s', by simp [call, h], hi', a, b, c⟩

/-- The time of the last registration. -/
def lastTime (t0 : Int) : List (Int × Reg) → Int
  | [] => t0
  | p :: ps => lastTime p.1 ps

theorem inv_run {s : State} {regs : List (Int × Reg)} {last : Int} (es : List Step) (hi : Inv s regs last)
    (ho : Ordered (regsOf es)) (hl : ∀ p ∈ regsOf es, last ≤ p.1) :
    ∃ s', run s es = some s' ∧ Inv s' (regs ++ regsOf es) (lastTime last (regsOf es)) ∧ s'.name = s.name := by
  induction es generalizing s regs last with
  | nil => exact ⟨s, rfl, by simpa [regsOf, lastTime] using hi, rfl⟩
  | cons e es ih =>
    cases e with
    | register now r =>
      obtain ⟨s1, h1, hi1, hn1, _⟩ := inv_register hi (hl (now, r) (by simp [regsOf])) r
      simp only [regsOf, Ordered, List.pairwise_cons] at ho
      obtain ⟨s2, h2, hi2, hn2⟩ := ih hi1 ho.2 (fun p hp => ho.1 p hp)
      refine ⟨s2, by simp [run, step, h1, h2], ?_, hn2.trans hn1⟩
      simpa [regsOf, lastTime] using hi2
    | setHost h =>
      obtain ⟨s2, h2, hi2, hn2⟩ := ih (s := { s with host := if h = "*" then "" else h })
        ⟨hi.table, hi.limit, hi.nodup, hi.sess, hi.dom⟩ ho hl
      exact ⟨s2, by simp [run, step, h2], hi2, hn2⟩
    | cycle =>
      obtain ⟨s2, h2, hi2, hn2⟩ := ih (inv_check hi) ho hl
      exact ⟨s2, by simp [run, step, h2], hi2, hn2⟩
    | call m accept =>
      by_cases hm : m = "" ∨ s.name = ""
      · obtain ⟨s2, h2, hi2, hn2⟩ := ih hi ho hl
        exact ⟨s2, by simp [run, step, hm, h2], hi2, hn2⟩
      · obtain ⟨s1, h1, hi1, hn1, _⟩ := call_some hi m accept
        obtain ⟨s2, h2, hi2, hn2⟩ := ih hi1 ho hl
        exact ⟨s2, by simp [run, step, hm, h1, h2], hi2, hn2.trans hn1⟩

/-- The state after a history. -/
theorem inv_hist (name : String) (ds : List String) (es : List Step) (ho : Ordered (regsOf es)) :
    ∃ s last, run (start name ds) es = some s ∧ Inv s (regsOf es) last ∧ s.name = name := by
  obtain ⟨t0, ht⟩ : ∃ t0 : Int, ∀ p ∈ regsOf es, t0 ≤ p.1 := by
    cases hr : regsOf es with
    | nil => exact ⟨0, by simp⟩
    | cons q qs =>
      rw [hr, Ordered, List.pairwise_cons] at ho
      refine ⟨q.1, fun p hp => ?_⟩
      rcases List.mem_cons.1 hp with rfl | hp
      · exact Int.le_refl _
      · exact ho.1 p hp
  obtain ⟨s, h, hi, hn⟩ := inv_run es (inv_start name ds t0) ho ht
  exact ⟨s, _, h, by simpa using hi, hn⟩

/-! ## The targets of a call -/

theorem mem_targets {s : State} {regs : List (Int × Reg)} {last : Int} (hi : Inv s regs last) (k : String) :
    (∃ x, (k, x) ∈ targets (check s)) ↔
      ∃ r t, LiveAt regs k r t ∧ r.sname = s.name ∧ (s.host = "" ∨ s.host = r.hname) := by
  have hia := inv_check hi
  simp only [targets, List.mem_filterMap]
  constructor
  · rintro ⟨x, ⟨k', r⟩, hm, h⟩
    split at h
    · rename_i hh
      cases hf : AMap.find (check s).sessions k' with
      | none => rw [hf] at h; simp at h
      | some y =>
        rw [hf] at h
        simp at h
        obtain ⟨rfl, _⟩ := h
        obtain ⟨⟨t, ht⟩, hs⟩ := (mem_attrs hia k' r).1 hm
        exact ⟨r, t, ht, hs, hh⟩
    · simp at h
  · rintro ⟨r, t, ht, hs, hh⟩
    have hm : (k, r) ∈ attrs s := (mem_attrs hi k r).2 ⟨⟨t, ht⟩, hs⟩
    have hse := (foldl_checkNew (attrs s) s.sessions k).2.1 ⟨r, hm⟩
    obtain ⟨x, hx⟩ := Option.isSome_iff_exists.1 hse
    refine ⟨x, (k, r), hm, ?_⟩
    have hx' : (check s).sessions.find k = some x := hx
    have hh' : (check s).host = "" ∨ (check s).host = r.hname := hh
    simp [hh', hx']

theorem nodup_targets {s : State} {regs : List (Int × Reg)} {last : Int} (hi : Inv s regs last) :
    ((targets s).map Prod.fst).Nodup := by
  have h1 : ((attrs s).map Prod.fst).Nodup := by
    have : (attrs s).map Prod.fst = (s.servers.map.filter (fun e => e.2.1.sname = s.name)).map Prod.fst := by
      simp [attrs, Function.comp_def]
    rw [this]
    exact (List.filter_sublist.map Prod.fst).nodup hi.nodup
  have h2 : ∀ (l : List (String × Reg)) (f : String × Reg → Option (String × Session)),
      (∀ e y, f e = some y → y.1 = e.1) → (l.map Prod.fst).Nodup → ((l.filterMap f).map Prod.fst).Nodup := by
    intro l f hf hn
    induction l with
    | nil => simp
    | cons e l ih =>
      rw [List.map_cons, List.nodup_cons] at hn
      rw [List.filterMap_cons]
      split
      · exact ih hn.2
      · rename_i y hy
        rw [List.map_cons, List.nodup_cons]
        refine ⟨fun hm => hn.1 ?_, ih hn.2⟩
        obtain ⟨z, hz, hz1⟩ := List.mem_map.1 hm
        obtain ⟨e', he', hfe⟩ := List.mem_filterMap.1 hz
        have a := hf _ _ hfe
        have b := hf _ _ hy
        exact List.mem_map.2 ⟨e', he', by rw [← a, hz1, b]⟩
  refine h2 _ _ ?_ h1
  intro e y h
  split at h
  · cases hf : AMap.find s.sessions e.1 with
    | none => rw [hf] at h; simp at h
    | some x => rw [hf] at h; simp at h; rw [← h]
  · simp at h

/-- **A call goes, once each, to exactly those servers whose last registration is not overtaken**: servers of the
client's service whose host passes the filter and whose last registration was not followed, more than 5000 ms later,
by a registration of any server of any service. -/
theorem C95_call_targets (name : String) (ds : List String) (es : List Step) (ho : Ordered (regsOf es)) (m : String)
    (accept : String → Bool) (s : State) (h : run (start name ds) es = some s) :
    ∃ ts s', call s m accept = some (ts, s') ∧ (ts.map Prod.fst).Nodup ∧
      ∀ k, (k ∈ ts.map Prod.fst ↔
        ∃ r t, LiveAt (regsOf es) k r t ∧ r.sname = name ∧ (s.host = "" ∨ s.host = r.hname)) := by
  obtain ⟨s0, last, h0, hi, hn⟩ := inv_hist name ds es ho
  rw [h] at h0
  cases h0
  obtain ⟨s', hc, _⟩ := call_some hi m accept
  refine ⟨_, s', hc, nodup_targets (inv_check hi), fun k => ?_⟩
  rw [← hn, ← mem_targets hi k]
  simp [List.mem_map]

/-- Two servers of the service "calc", one of them on another host. -/
def srvA : Reg := { sname := "calc", sid := "17", pid := 100, hname := "box", version := 1, portV0 := 4000, portV1 := 4001 }
def srvB : Reg := { sname := "calc", sid := "18", pid := 200, hname := "car", version := 1, portV0 := 5000, portV1 := 5001 }

example : ∃ s s', run (start "calc" []) [.register 0 srvA, .register 1000 srvB, .setHost "car"] = some s ∧
    call s "add" (fun _ => true) =
      some ([("calc:18@200@car", { protocol := 1, port := 5001, hosts := ["car", "car.local"] })], s') :=
  ⟨_, _, rfl, rfl⟩

/-- A call or a registration of the client never throws, whatever came before. -/
theorem C95_never_throws (name : String) (ds : List String) (es : List Step) (ho : Ordered (regsOf es)) :
    (run (start name ds) es).isSome = true := by
  obtain ⟨s, _, h, _⟩ := inv_hist name ds es ho
  simp [h]

/-- A server that registers again at least every 5000 ms is called from its first registration on.  (`quiet`: the time
since its last registration, measured at the last registration of anybody, is at most 5000 ms.)  Missing for the
full property: a configured timeout above 5000 ms, see the violation below. -/
theorem C95_refreshed_server_called_partial (name : String) (ds : List String) (es : List Step)
    (ho : Ordered (regsOf es)) (r : Reg) (t : Int) (pre post : List (Int × Reg))
    (hs : regsOf es = pre ++ (t, r) :: post) (hlast : ∀ p ∈ post, key p.2 ≠ key r)
    (quiet : ∀ p ∈ post, p.1 ≤ t + 5000) (hname : r.sname = name) (m : String) (accept : String → Bool) (s : State)
    (h : run (start name ds) es = some s) (hhost : s.host = "" ∨ s.host = r.hname) :
    ∃ ts s', call s m accept = some (ts, s') ∧ key r ∈ ts.map Prod.fst := by
  obtain ⟨ts, s', hc, _, hm⟩ := C95_call_targets name ds es ho m accept s h
  exact ⟨ts, s', hc, (hm _).2 ⟨r, t, ⟨pre, post, hs, rfl, hlast, quiet⟩, hname, hhost⟩⟩

/-- Violated: **a living server is not called if it registers less often than every five seconds**, even though the
configured registration timeout may be much longer.  For every interval `d` above 5000 ms: the server registers at
`t`, another service registers more than 5000 ms and less than `d` later, and a call in that moment reaches nobody. -/
theorem C95_violated_slow_registration (r q : Reg) (t u d : Int) (hd : t + 5000 < u) (_hu : u < t + d)
    (hq : q.sname ≠ r.sname) (m : String) (accept : String → Bool) :
    ∃ s s', run (start r.sname []) [.register t r, .register u q] = some s ∧ call s m accept = some ([], s') := by
  have ho : Ordered (regsOf [Step.register t r, .register u q]) := by
    simp [regsOf, Ordered]; omega
  obtain ⟨s, last, h, hi, hn⟩ := inv_hist r.sname [] _ ho
  obtain ⟨ts, s', hc, _, hm⟩ := C95_call_targets r.sname [] _ ho m accept s h
  refine ⟨s, s', h, ?_⟩
  have : ts = [] := by
    cases ts with
    | nil => rfl
    | cons x ts =>
      obtain ⟨r', t', hl, hs', _⟩ := (hm x.1).1 (by simp)
      have hl' : LiveAt ([(t, r)] ++ [(u, q)]) x.1 r' t' := hl
      rw [liveAt_snoc] at hl'
      rcases hl' with ⟨_, he⟩ | ⟨_, hl', hb⟩
      · simp only [Prod.mk.injEq] at he
        rw [← he.2] at hs'
        exact absurd hs' hq
      · have hl' : LiveAt ([] ++ [(t, r)]) x.1 r' t' := hl'
        rw [liveAt_snoc] at hl'
        rcases hl' with ⟨_, he⟩ | ⟨_, ⟨pre, post, hp, _⟩, _⟩
        · simp only [Prod.mk.injEq] at he
          have := he.1
          simp only at hb
          omega
        · simp at hp
  rw [hc, this]

example : ((0 : Int) + 5000 < 6000) ∧ ((6000 : Int) < 0 + 8000) ∧ ({ srvB with sname := "other" } : Reg).sname ≠ srvA.sname :=
  ⟨by decide, by decide, by decide⟩

/-- Violated: **a server that is gone is called for ever**.  Neither its unregistration nor the passing of time removes a
server from the table; only a later registration of some service does.  If none arrives, every call at any later time
is still handed to the session of the vanished server. -/
theorem C95_violated_dead_server_called (r : Reg) (t : Int) (later : List Step) (hl : regsOf later = [])
    (hh : ∀ h, Step.setHost h ∉ later) (m : String) (accept : String → Bool) :
    ∃ s ts s', run (start r.sname []) (.register t r :: later) = some s ∧ call s m accept = some (ts, s') ∧
      key r ∈ ts.map Prod.fst := by
  have hr : regsOf (.register t r :: later) = [] ++ (t, r) :: [] := by simp [regsOf, hl]
  have ho : Ordered (regsOf (.register t r :: later)) := by rw [hr]; simp [Ordered]
  obtain ⟨s, last, h, hi, hn⟩ := inv_hist r.sname [] _ ho
  have hhost : ∀ (es : List Step) (s s' : State), (∀ h, Step.setHost h ∉ es) → run s es = some s' → s'.host = s.host := by
    intro es
    induction es with
    | nil => intro s s' _ h; cases h; rfl
    | cons e es ih =>
      intro s s' hn h
      simp only [run] at h
      split at h
      · simp at h
      · rename_i s1 h1
        rw [ih s1 s' (fun x hx => hn x (by simp [hx])) h]
        cases e with
        | register now r =>
          simp only [step, register] at h1
          split at h1
          · simp at h1
          · cases h1; rfl
        | setHost x => exact absurd (by simp) (hn x)
        | cycle => cases h1; rfl
        | call m accept =>
          simp only [step] at h1
          split at h1
          · cases h1; rfl
          · simp only [call] at h1
            have hib : ∀ (n : Nat) (a b : State), incrementBy a m n = some b → b.host = a.host := by
              intro n
              induction n with
              | zero => intro a b h; cases h; rfl
              | succ n ihn =>
                intro a b h
                simp only [incrementBy] at h
                split at h
                · simp at h
                · rename_i c hc
                  rw [ihn c b h]
                  unfold increment at hc
                  simp only at hc
                  split at hc
                  · simp at hc
                  · cases hc
                    split <;> rfl
            split at h1
            · simp at h1
            · rename_i hb
              cases h1
              exact hib _ (check s) _ hb
  have hhs : s.host = "" := hhost _ _ _ (fun x hx => by
    rcases List.mem_cons.1 hx with hx | hx
    · cases hx
    · exact hh x hx) h
  obtain ⟨ts, s', hc, hm⟩ := C95_refreshed_server_called_partial r.sname [] _ ho r t [] [] hr (by simp) (by simp) rfl m
    accept s h (.inl hhs)
  exact ⟨s, ts, s', h, hc, hm⟩

/-! ## Keys -/

/-- `a ++ c :: b` with a separator that does not occur in `b`. -/
theorem split_last {a a' b b' : List Char} {c : Char} (hb : c ∉ b) (hb' : c ∉ b') (h : a ++ c :: b = a' ++ c :: b') :
    a = a' ∧ b = b' := by
  induction a generalizing a' with
  | nil =>
    cases a' with
    | nil => simp at h; exact ⟨rfl, h⟩
    | cons x a' =>
      simp at h
      exact absurd (by rw [h.2]; simp) hb
  | cons x a ih =>
    cases a' with
    | nil =>
      simp at h
      exact absurd (by rw [← h.2]; simp) hb'
    | cons y a' =>
      simp only [List.cons_append, List.cons.injEq] at h
      obtain ⟨h1, h2⟩ := ih h.2
      exact ⟨by rw [h.1, h1], h2⟩

theorem digits_no_at (n : Nat) (c : Char) (hc : c.isDigit = false) : c ∉ (toString n).toList := by
  intro h
  have hd : (toString n).toList = Nat.toDigits 10 n := by
    show (String.ofList (Nat.toDigits 10 n)).toList = _
    simp
  rw [hd] at h
  have := Nat.isDigit_of_mem_toDigits (by decide) (by decide) h
  rw [this] at hc
  simp at hc

theorem int_no_at (z : Int) (c : Char) (hc : c.isDigit = false) (hm : c ≠ '-') : c ∉ (toString z).toList := by
  cases z with
  | ofNat n => exact digits_no_at n c hc
  | negSucc n =>
    show c ∉ ("-" ++ toString (n + 1)).toList
    rw [String.toList_append]
    intro h
    rcases List.mem_append.1 h with h | h
    · simp at h; exact hm h
    · exact digits_no_at _ c hc h

/-- Servers that differ in service, id, process or host have different keys, so that no server hides another one —
whatever characters the service name contains, if ids contain no colon (they are numbers) and host names no at sign. -/
theorem C95_keys_distinct_partial (r q : Reg) (h1 : ':' ∉ r.sid.toList) (h2 : ':' ∉ q.sid.toList)
    (h3 : '@' ∉ r.hname.toList) (h4 : '@' ∉ q.hname.toList) (h : key r = key q) :
    r.sname = q.sname ∧ r.sid = q.sid ∧ r.pid = q.pid ∧ r.hname = q.hname := by
  have hl := congrArg String.toList h
  simp only [key, String.toList_append] at hl
  have e1 : ("@" : String).toList = ['@'] := rfl
  have e2 : (":" : String).toList = [':'] := rfl
  rw [e1, e2] at hl
  simp only [List.append_assoc, List.singleton_append] at hl
  have hl' : (r.sname.toList ++ ':' :: (r.sid.toList ++ '@' :: (toString r.pid).toList)) ++ '@' :: r.hname.toList =
      (q.sname.toList ++ ':' :: (q.sid.toList ++ '@' :: (toString q.pid).toList)) ++ '@' :: q.hname.toList := by
    simpa using hl
  obtain ⟨ha, hh⟩ := split_last h3 h4 hl'
  have ha' : (r.sname.toList ++ ':' :: r.sid.toList) ++ '@' :: (toString r.pid).toList =
      (q.sname.toList ++ ':' :: q.sid.toList) ++ '@' :: (toString q.pid).toList := by
    simpa using ha
  obtain ⟨hb, hp⟩ := split_last (int_no_at _ _ (by decide) (by decide)) (int_no_at _ _ (by decide) (by decide)) ha'
  obtain ⟨hs, hi⟩ := split_last h1 h2 hb
  exact ⟨String.toList_inj.1 hs, String.toList_inj.1 hi, Int.repr_injective (String.toList_inj.1 hp),
    String.toList_inj.1 hh⟩

example : ':' ∉ srvA.sid.toList ∧ '@' ∉ srvA.hname.toList ∧ key srvA ≠ key srvB := by
  refine ⟨by decide +kernel, by decide +kernel, by decide +kernel⟩

/-- Without the condition on ids it fails (ids of foreign implementations): two services share one key. -/
theorem C95_violated_ambiguous_key :
    ∃ r q : Reg, r.sname ≠ q.sname ∧ r.pid = q.pid ∧ r.hname = q.hname ∧ key r = key q :=
  ⟨{ srvA with sname := "a", sid := "b:1" }, { srvA with sname := "a:b", sid := "1" }, by decide +kernel, rfl, rfl,
    by decide +kernel⟩

/-! ## Sessions -/

/-- Every session a call uses was opened for a registration of exactly this server, of the client's service. -/
theorem C95_session_belongs_to_server (name : String) (ds : List String) (es : List Step) (ho : Ordered (regsOf es))
    (m : String) (accept : String → Bool) (s s' : State) (ts : List (String × Session))
    (h : run (start name ds) es = some s) (hc : call s m accept = some (ts, s')) (k : String) (x : Session)
    (hm : (k, x) ∈ ts) : ∃ p ∈ regsOf es, key p.2 = k ∧ x = connectTo p.2 ∧ p.2.sname = name := by
  obtain ⟨s0, last, h0, hi, hnm⟩ := inv_hist name ds es ho
  rw [h] at h0
  cases h0
  rw [← hnm]
  obtain ⟨s2, hc2, _⟩ := call_some hi m accept
  rw [hc] at hc2
  simp only [Option.some.injEq, Prod.mk.injEq] at hc2
  obtain ⟨rfl, _⟩ := hc2
  simp only [targets, List.mem_filterMap] at hm
  obtain ⟨e, _, he⟩ := hm
  split at he
  · cases hf : AMap.find (check s).sessions e.1 with
    | none => rw [hf] at he; simp at he
    | some y =>
      rw [hf] at he
      simp at he
      obtain ⟨rfl, rfl⟩ := he
      exact (inv_check hi).sess _ _ hf
  · simp at he

/-- The protocol fits the port: with version numbers below 256 the new protocol is spoken exactly to the new port, and
the old one to the old port. -/
theorem C95_protocol_fits_port_partial (r : Reg) (hv : r.version < 256) :
    (connectTo r).protocol = 0 ∧ (connectTo r).port = r.portV0 ∧ (r.portV1 = 0 ∨ r.version = 0) ∨
    (connectTo r).protocol = r.version ∧ (connectTo r).protocol ≠ 0 ∧ (connectTo r).port = r.portV1 ∧ r.portV1 ≠ 0 := by
  by_cases hp : r.portV1 = 0
  · left; simp [connectTo, hp]
  · by_cases h0 : r.version = 0
    · left; simp [connectTo, h0]
    · right
      have : r.version % 256 = r.version := Nat.mod_eq_of_lt hv
      simp [connectTo, hp, h0, this]

/-- Violated: a version number that is a multiple of 256 (a server announcing it has to exist) makes the client talk the
old protocol to the port of the new one: the cast to eight bits comes after the choice of the port. -/
theorem C95_violated_version_wraps (r : Reg) (n : Nat) (hv : r.version = 256 * (n + 1)) (hp : r.portV1 ≠ 0) :
    (connectTo r).protocol = 0 ∧ (connectTo r).port = r.portV1 := by
  have h0 : r.version ≠ 0 := by omega
  have h1 : r.version % 256 = 0 := by omega
  simp [connectTo, hp, h0, h1]

/-! ## Counting -/

/-- The calls of a method that the client reports. -/
def reported (s : State) (m : String) : Nat := (s.counts.find m).getD 0

theorem sample_some {s : State} (l : AMap String Unit) (h : ∀ e ∈ l, ∃ n, s.counts.find e.1 = some n) :
    l.foldr (fun e acc => match acc, s.counts.find e.1 with
      | some l, some n => some ((e.1, n) :: l)
      | _, _ => none) (some []) = some (l.map (fun e => (e.1, reported s e.1))) := by
  induction l with
  | nil => rfl
  | cons e l ih =>
    rw [List.foldr_cons, ih (fun e he => h e (by simp [he]))]
    obtain ⟨n, hn⟩ := h e (by simp)
    simp [hn, reported]

/-- The registration of the client lists every described or called method with the number of calls that were taken by a
session; building it never throws, and each call adds the number of sessions that took it to its own method only. -/
theorem C95_call_counts (name : String) (ds : List String) (es : List Step) (ho : Ordered (regsOf es)) (m : String)
    (accept : String → Bool) (s : State) (h : run (start name ds) es = some s) :
    ∃ ts s', call s m accept = some (ts, s') ∧
      sample s' = some (s'.methods.map (fun e => (e.1, reported s' e.1))) ∧
      ∀ x, reported s' x = reported s x + if x = m then (ts.filter (fun t => accept t.1)).length else 0 := by
  obtain ⟨s0, last, h0, hi, _⟩ := inv_hist name ds es ho
  rw [h] at h0
  cases h0
  obtain ⟨s', hc, hi', _, _, hcnt⟩ := call_some hi m accept
  refine ⟨_, s', hc, ?_, hcnt⟩
  unfold sample
  refine sample_some _ (fun e he => ?_)
  cases hf : s'.counts.find e.1 with
  | some n => exact ⟨n, rfl⟩
  | none =>
    have := (hi'.dom e.1).2 hf
    rw [AMap.find_none_iff] at this
    exact absurd (List.mem_map.2 ⟨e, he, rfl⟩) this

example : ∃ s ts s', run (start "calc" ["add"]) [.register 0 srvA, .register 1000 srvB] = some s ∧
    call s "add" (fun _ => true) = some (ts, s') ∧ sample s' = some [("add", 2)] := ⟨_, _, _, rfl, rfl, rfl⟩

end Ecal.Service.Targets
