import Verif.Mon.Monitor
import Verif.ExpMap.Props

/-! # C45: monitoring lists every entity separately -/

namespace Ecal.Mon

open Ecal.ExpMap

/-! ### Specification: a table keyed by the full identity -/

/-- Registered entities with the time of the last registration. -/
abbrev Spec := Ident → Option (Entity × Int)

def specStep (timeout : Int) (t : Spec) (now : Int) : MOp → Spec
  | .register e => fun i => if i = e.ident then some (e, now) else t i
  | .unregister j => fun i => if i = j then none else t i
  | .snapshot => fun i => match t i with
      | some (e, r) => if r < now - timeout then none else some (e, r)
      | none => none

def specRun (timeout : Int) : Spec → List (Int × MOp) → Spec
  | t, [] => t
  | t, (now, op) :: h => specRun timeout (specStep timeout t now op) h

/-- Times do not decrease. -/
def Monotone : Int → List (Int × MOp) → Prop
  | _, [] => True
  | t0, (now, _) :: h => t0 ≤ now ∧ Monotone now h

/-- Identities occurring in a history. -/
def idents : List (Int × MOp) → List Ident
  | [] => []
  | (_, .register e) :: h => e.ident :: idents h
  | (_, .unregister i) :: h => i :: idents h
  | (_, .snapshot) :: h => idents h

/-- No two different identities in `u` share a key. -/
def Separate (k : Kind) (u : List Ident) : Prop := ∀ i ∈ u, ∀ j ∈ u, key k i = key k j → i = j

/-- The key table and the identity table correspond on the universe `u`. -/
structure Corr (k : Kind) (u : List Ident) (t : ExpMap.Table (List Char) Entity) (s : Spec) : Prop where
  fwd  : ∀ i ∈ u, t (key k i) = s i
  only : ∀ x p, t x = some p → ∃ i ∈ u, key k i = x
  out  : ∀ i p, s i = some p → i ∈ u ∧ p.1.ident = i

theorem corr_step {k : Kind} {u : List Ident} {t : ExpMap.Table (List Char) Entity} {s : Spec}
    (hs : Separate k u) (h : Corr k u t s) (timeout now : Int) (op : MOp)
    (hu : ∀ i ∈ idents [(now, op)], i ∈ u) :
    Corr k u (ExpMap.specStep timeout blank t now (toOp k op)) (specStep timeout s now op) := by
  cases op with
  | register e =>
    have he : e.ident ∈ u := hu _ (by simp [idents])
    refine ⟨?_, ?_, ?_⟩
    · intro i hi
      simp only [toOp, ExpMap.specStep, specStep]
      by_cases hie : i = e.ident
      · rw [if_pos hie, if_pos (by rw [hie])]
      · rw [if_neg hie, if_neg (fun hk => hie (hs i hi e.ident he hk))]
        exact h.fwd i hi
    · intro x p hx
      simp only [toOp, ExpMap.specStep] at hx
      by_cases hxe : x = key k e.ident
      · exact ⟨e.ident, he, hxe.symm⟩
      · rw [if_neg hxe] at hx; exact h.only x p hx
    · intro i p hi
      simp only [specStep] at hi
      by_cases hie : i = e.ident
      · rw [if_pos hie] at hi
        simp only [Option.some.injEq] at hi
        subst hi
        exact ⟨by rw [hie]; exact he, hie.symm⟩
      · rw [if_neg hie] at hi; exact h.out i p hi
  | unregister j =>
    have hj : j ∈ u := hu _ (by simp [idents])
    refine ⟨?_, ?_, ?_⟩
    · intro i hi
      simp only [toOp, ExpMap.specStep, specStep]
      by_cases hie : i = j
      · rw [if_pos hie, if_pos (by rw [hie])]
      · rw [if_neg hie, if_neg (fun hk => hie (hs i hi j hj hk))]
        exact h.fwd i hi
    · intro x p hx
      simp only [toOp, ExpMap.specStep] at hx
      by_cases hxe : x = key k j
      · rw [if_pos hxe] at hx; cases hx
      · rw [if_neg hxe] at hx; exact h.only x p hx
    · intro i p hi
      simp only [specStep] at hi
      by_cases hie : i = j
      · rw [if_pos hie] at hi; cases hi
      · rw [if_neg hie] at hi; exact h.out i p hi
  | snapshot =>
    refine ⟨?_, ?_, ?_⟩
    · intro i hi
      simp only [toOp, ExpMap.specStep, specStep]
      rw [h.fwd i hi]
      cases s i with
      | none => rfl
      | some p => rfl
    · intro x p hx
      simp only [toOp, ExpMap.specStep] at hx
      cases ht : t x with
      | none => rw [ht] at hx; cases hx
      | some q => exact h.only x q ht
    · intro i p hi
      simp only [specStep] at hi
      cases ht : s i with
      | none => rw [ht] at hi; cases hi
      | some q =>
        rw [ht] at hi
        simp only at hi
        by_cases hq : q.2 < now - timeout
        · rw [if_pos hq] at hi; cases hi
        · rw [if_neg hq] at hi
          simp only [Option.some.injEq] at hi
          have := h.out i q ht
          rw [← hi]; exact this

theorem corr_run {k : Kind} {u : List Ident} (hs : Separate k u) (timeout : Int) (h : List (Int × MOp)) :
    ∀ (t : ExpMap.Table (List Char) Entity) (s : Spec), Corr k u t s → (∀ i ∈ idents h, i ∈ u) →
      Corr k u (ExpMap.specRun timeout blank t (h.map (fun p => (p.1, toOp k p.2)))) (specRun timeout s h) := by
  induction h with
  | nil => intro t s hc _; exact hc
  | cons p h ih =>
    obtain ⟨now, op⟩ := p
    intro t s hc hu
    have h1 : ∀ i ∈ idents [(now, op)], i ∈ u := by
      intro i hi
      apply hu
      cases op with
      | register e => simp [idents] at hi ⊢; exact Or.inl hi
      | unregister j => simp [idents] at hi ⊢; exact Or.inl hi
      | snapshot => simp [idents] at hi
    have h2 : ∀ i ∈ idents h, i ∈ u := by
      intro i hi
      apply hu
      cases op with
      | register e => simp [idents]; exact Or.inr hi
      | unregister j => simp [idents]; exact Or.inr hi
      | snapshot => simpa [idents] using hi
    exact ih _ _ (corr_step hs hc timeout now op h1) h2

theorem toOp_monotone (k : Kind) (h : List (Int × MOp)) : ∀ t0, Monotone t0 h →
    MonotoneFrom t0 (h.map (fun p => (p.1, toOp k p.2))) := by
  induction h with
  | nil => intro _ _; trivial
  | cons p h ih => intro t0 hm; exact ⟨hm.1, ih _ hm.2⟩

theorem toOp_noReinsert (k : Kind) (timeout : Int) (h : List (Int × MOp)) : ∀ t,
    NoReinsert timeout blank t (h.map (fun p => (p.1, toOp k p.2))) := by
  induction h with
  | nil => intro _; trivial
  | cons p h ih =>
    intro t
    refine ⟨?_, ih _⟩
    intro x v hx
    obtain ⟨now, op⟩ := p
    cases op <;> cases hx

theorem monotone_append {now : Int} (h : List (Int × MOp)) : ∀ t0, Monotone t0 h →
    (∀ p ∈ h, p.1 ≤ now) → t0 ≤ now → Monotone t0 (h ++ [(now, .snapshot)]) := by
  induction h with
  | nil => intro t0 _ _ ht; exact ⟨ht, trivial⟩
  | cons p h ih =>
    intro t0 hm hp _
    exact ⟨hm.1, ih _ hm.2 (fun q hq => hp q (List.mem_cons_of_mem _ hq)) (hp p (List.mem_cons_self ..))⟩

theorem expRun_append (h : List (Int × ExpMap.Op (List Char) Entity)) (now : Int)
    (op : ExpMap.Op (List Char) Entity) : ∀ s : Table,
    ExpMap.run blank s (h ++ [(now, op)]) = (ExpMap.run blank s h).bind (fun s' => ExpMap.step blank s' now op) := by
  induction h with
  | nil =>
    intro s
    simp only [List.nil_append, ExpMap.run, Option.bind_some]
    cases ExpMap.step blank s now op <;> rfl
  | cons p h ih =>
    intro s
    simp only [List.cons_append, ExpMap.run]
    cases ExpMap.step blank s p.1 p.2 with
    | none => rfl
    | some s' => simp only [Option.bind_some]; exact ih s'

theorem idents_append (h : List (Int × MOp)) (now : Int) : idents (h ++ [(now, .snapshot)]) = idents h := by
  induction h with
  | nil => rfl
  | cons p h ih =>
    obtain ⟨t, op⟩ := p
    cases op <;> simp [idents, ih]

theorem specRun_append (timeout : Int) (h : List (Int × MOp)) (now : Int) (op : MOp) : ∀ t,
    specRun timeout t (h ++ [(now, op)]) = specStep timeout (specRun timeout t h) now op := by
  induction h with
  | nil => intro t; rfl
  | cons p h ih => intro t; exact ih _

/-- **C45** If no two different entities of the history share a key, the listing at time `now` contains
exactly the entities whose last registration is not older than the time-out and that were not
unregistered since: nobody hides or is hidden by another entity. -/
theorem C45_listing_exact_partial (k : Kind) (timeout t0 now : Int) (h : List (Int × MOp))
    (hsep : Separate k (idents h)) (hm : Monotone t0 h) (hnow : ∀ p ∈ h, p.1 ≤ now) (h0 : t0 ≤ now) :
    ∃ s, mrun k (ExpMap.init _ _ timeout) h = some s ∧
      ∀ e : Entity, e ∈ listing s now ↔
        ∃ r, specRun timeout (fun _ => none) h e.ident = some (e, r) ∧ now - timeout ≤ r := by
  have hm' := monotone_append h t0 hm hnow h0
  obtain ⟨s', h1, h2⟩ := ExpMap.C01_refines_expiring_table timeout t0 blank
    ((h ++ [(now, MOp.snapshot)]).map (fun p => (p.1, toOp k p.2)))
    (toOp_monotone k _ t0 hm') (toOp_noReinsert k timeout _ _)
  rw [List.map_append, List.map_cons, List.map_nil, expRun_append] at h1
  cases hs : ExpMap.run blank (ExpMap.init (List Char) Entity timeout) (h.map (fun p => (p.1, toOp k p.2))) with
  | none => rw [hs] at h1; cases h1
  | some s =>
    rw [hs] at h1
    simp only [Option.bind_some, toOp, ExpMap.step, Option.some.injEq] at h1
    refine ⟨s, hs, ?_⟩
    have hcorr := corr_run hsep timeout (h ++ [(now, .snapshot)]) (fun _ => none) (fun _ => none)
      ⟨fun _ _ => rfl, fun x p hx => by simp at hx, fun i p hi => by simp at hi⟩
      (by intro i hi; rw [idents_append] at hi; exact hi)
    intro e
    have hl : e ∈ listing s now ↔ ∃ x, ExpMap.lookup s' x = some e := by
      unfold listing
      simp only [h1, List.mem_filterMap]
      constructor
      · rintro ⟨x, _, hx⟩; exact ⟨x, hx⟩
      · rintro ⟨x, hx⟩
        refine ⟨x, ?_, hx⟩
        apply Classical.byContradiction
        intro hn
        have := (AMap.find_none_iff (x := x) (m := s'.map)).mpr hn
        simp [ExpMap.lookup, this] at hx
    rw [hl]
    have hlook : ∀ x, ExpMap.lookup s' x = some e ↔
        ∃ r, ExpMap.specRun timeout blank (fun _ => none)
          ((h ++ [(now, MOp.snapshot)]).map (fun p => (p.1, toOp k p.2))) x = some (e, r) := by
      intro x
      rw [h2 x]
      constructor
      · intro hx
        cases hq : ExpMap.specRun timeout blank (fun _ => none)
          ((h ++ [(now, MOp.snapshot)]).map (fun p => (p.1, toOp k p.2))) x with
        | none => rw [hq] at hx; cases hx
        | some q =>
          rw [hq] at hx
          simp only [Option.map_some, Option.some.injEq] at hx
          exact ⟨q.2, by rw [← hx]⟩
      · rintro ⟨r, hr⟩; rw [hr]; rfl
    have hfin : ∀ i r, specRun timeout (fun _ => none) (h ++ [(now, .snapshot)]) i = some (e, r) ↔
        (specRun timeout (fun _ => none) h i = some (e, r) ∧ now - timeout ≤ r) := by
      intro i r
      rw [specRun_append]
      simp only [specStep]
      cases hq : specRun timeout (fun _ => none) h i with
      | none => simp
      | some q =>
        simp only
        by_cases hlt : q.2 < now - timeout
        · rw [if_pos hlt]
          simp only [Option.some.injEq, reduceCtorEq, false_iff, not_and]
          intro hqe
          rw [hqe] at hlt
          simp only at hlt
          omega
        · rw [if_neg hlt]
          simp only [Option.some.injEq]
          constructor
          · intro hqe
            have hqe' : q = (e, r) := hqe
            refine ⟨hqe', ?_⟩
            rw [hqe'] at hlt; simp only at hlt; omega
          · exact fun hx => hx.1
    constructor
    · rintro ⟨x, hx⟩
      obtain ⟨r, hr⟩ := (hlook x).mp hx
      obtain ⟨i, hi, hk⟩ := hcorr.only x _ hr
      have hf := hcorr.fwd i hi
      rw [hk, hr] at hf
      have hid := (hcorr.out i _ hf.symm).2
      simp only at hid
      rw [hid]
      exact ⟨r, (hfin i r).mp hf.symm⟩
    · rintro ⟨r, hr⟩
      have hf := (hfin e.ident r).mpr hr
      have hin := (hcorr.out e.ident _ hf).1
      refine ⟨key k e.ident, (hlook _).mpr ⟨r, ?_⟩⟩
      rw [hcorr.fwd _ hin]; exact hf

example : (mrun .publisher (ExpMap.init _ _ 5000)
    [(0, .register ⟨⟨['a'], ['t'], ['1'], 1⟩, 1⟩), (1, .register ⟨⟨['a'], ['t'], ['2'], 1⟩, 2⟩),
     (3000, .register ⟨⟨['a'], ['t'], ['1'], 1⟩, 3⟩)]).map (fun s => (listing s 4000, listing s 6000)) =
    some ([⟨⟨['a'], ['t'], ['1'], 1⟩, 3⟩, ⟨⟨['a'], ['t'], ['2'], 1⟩, 2⟩], [⟨⟨['a'], ['t'], ['1'], 1⟩, 3⟩]) := by
  decide +kernel

/-! ### When are the keys separate? -/

def isDigit (c : Char) : Bool := 48 ≤ c.toNat && c.toNat ≤ 57

theorem digit_isDigit (n : Nat) : isDigit (digit n) = true := by
  have h : n % 10 < 10 := Nat.mod_lt _ (by decide)
  unfold digit
  generalize n % 10 = m at h
  have : m = 0 ∨ m = 1 ∨ m = 2 ∨ m = 3 ∨ m = 4 ∨ m = 5 ∨ m = 6 ∨ m = 7 ∨ m = 8 ∨ m = 9 := by omega
  rcases this with rfl | rfl | rfl | rfl | rfl | rfl | rfl | rfl | rfl | rfl <;> decide

theorem digit_inj {a b : Nat} (h : digit a = digit b) : a % 10 = b % 10 := by
  have ha : a % 10 < 10 := Nat.mod_lt _ (by decide)
  have hb : b % 10 < 10 := Nat.mod_lt _ (by decide)
  unfold digit at h
  generalize a % 10 = m at *
  generalize b % 10 = n at *
  have hm : m = 0 ∨ m = 1 ∨ m = 2 ∨ m = 3 ∨ m = 4 ∨ m = 5 ∨ m = 6 ∨ m = 7 ∨ m = 8 ∨ m = 9 := by omega
  have hn : n = 0 ∨ n = 1 ∨ n = 2 ∨ n = 3 ∨ n = 4 ∨ n = 5 ∨ n = 6 ∨ n = 7 ∨ n = 8 ∨ n = 9 := by omega
  rcases hm with rfl | rfl | rfl | rfl | rfl | rfl | rfl | rfl | rfl | rfl <;>
    rcases hn with rfl | rfl | rfl | rfl | rfl | rfl | rfl | rfl | rfl | rfl <;>
    first | rfl | (revert h; decide)

theorem toDec_digits (n : Nat) : ∀ c ∈ toDec n, isDigit c = true := by
  induction n using Nat.strongRecOn with
  | _ n ih =>
    intro c hc
    rw [toDec] at hc
    by_cases h : n < 10
    · rw [dif_pos h] at hc
      simp only [List.mem_singleton] at hc
      rw [hc]; exact digit_isDigit n
    · rw [dif_neg h] at hc
      rcases List.mem_append.mp hc with hc | hc
      · exact ih (n / 10) (by omega) c hc
      · simp only [List.mem_singleton] at hc
        rw [hc]; exact digit_isDigit n

theorem toDec_ne_nil (n : Nat) : toDec n ≠ [] := by
  rw [toDec]; split <;> simp

theorem toDec_inj : ∀ (n m : Nat), toDec n = toDec m → n = m := by
  intro n
  induction n using Nat.strongRecOn with
  | _ n ih =>
    intro m h
    rw [toDec, toDec.eq_1 m] at h
    by_cases hn : n < 10 <;> by_cases hm : m < 10
    · rw [dif_pos hn, dif_pos hm] at h
      simp only [List.cons.injEq, and_true] at h
      have := digit_inj h
      omega
    · rw [dif_pos hn, dif_neg hm] at h
      have h1 := congrArg List.length h
      have h2 : (toDec (m / 10)).length ≠ 0 := fun hh => toDec_ne_nil (m / 10) (List.length_eq_zero_iff.mp hh)
      rw [List.length_append, List.length_singleton, List.length_singleton] at h1
      omega
    · rw [dif_neg hn, dif_pos hm] at h
      have h1 := congrArg List.length h
      have h2 : (toDec (n / 10)).length ≠ 0 := fun hh => toDec_ne_nil (n / 10) (List.length_eq_zero_iff.mp hh)
      rw [List.length_append, List.length_singleton, List.length_singleton] at h1
      omega
    · rw [dif_neg hn, dif_neg hm] at h
      have h1 := (List.append_inj' h rfl).1
      have h2 := (List.append_inj' h rfl).2
      simp only [List.cons.injEq, and_true] at h2
      have e1 := ih (n / 10) (by omega) (m / 10) h1
      have e2 := digit_inj h2
      omega

/-- The name does not end with a digit (an empty name does not either). -/
def NoTrailingDigit (s : List Char) : Prop := ∀ c, s.getLast? = some c → isDigit c = false

/-- Two texts followed by digits: if the texts do not end in digits, the parts are determined. -/
theorem split_digits {a b x y : List Char} (ha : NoTrailingDigit a) (hb : NoTrailingDigit b)
    (hx : ∀ c ∈ x, isDigit c = true) (hy : ∀ c ∈ y, isDigit c = true) (h : a ++ x = b ++ y) :
    a = b ∧ x = y := by
  rcases List.append_eq_append_iff.mp h with ⟨c, h1, h2⟩ | ⟨c, h1, h2⟩
  · -- b = a ++ c, x = c ++ y
    cases hc : c with
    | nil => subst hc; simp at h1 h2; exact ⟨h1.symm, h2⟩
    | cons d l =>
      have hne : c ≠ [] := by rw [hc]; simp
      have hlast : b.getLast? = some (c.getLast hne) := by
        rw [h1, List.getLast?_append, List.getLast?_eq_some_getLast hne]; rfl
      have h3 := hb _ hlast
      have h4 := hx (c.getLast hne) (by rw [h2]; exact List.mem_append_left _ (List.getLast_mem hne))
      rw [h3] at h4; cases h4
  · cases hc : c with
    | nil => subst hc; simp at h1 h2; exact ⟨h1, h2.symm⟩
    | cons d l =>
      have hne : c ≠ [] := by rw [hc]; simp
      have hlast : a.getLast? = some (c.getLast hne) := by
        rw [h1, List.getLast?_append, List.getLast?_eq_some_getLast hne]; rfl
      have h3 := ha _ hlast
      have h4 := hy (c.getLast hne) (by rw [h2]; exact List.mem_append_left _ (List.getLast_mem hne))
      rw [h3] at h4; cases h4

/-- **C45** The keys are separate for entities of one host whose names do not end in a digit and whose ids
are digit strings of one length (and, for topics, ids that determine the process). -/
theorem C45_keys_separate_partial (k : Kind) (u : List Ident) (len : Nat)
    (hhost : ∀ i ∈ u, ∀ j ∈ u, i.host = j.host)
    (hname : ∀ i ∈ u, NoTrailingDigit i.name)
    (hid : ∀ i ∈ u, (∀ c ∈ i.id, isDigit c = true) ∧ i.id.length = len)
    (hproc : k = .process → ∀ i ∈ u, i.id = [])
    (htopic : k = .publisher ∨ k = .subscriber → ∀ i ∈ u, ∀ j ∈ u, i.id = j.id → i.pid = j.pid) :
    Separate k u := by
  intro i hi j hj hk
  have hd : ∀ i ∈ u, ∀ c ∈ i.id ++ toDec i.pid, isDigit c = true := by
    intro i hi c hc
    rcases List.mem_append.mp hc with hc | hc
    · exact (hid i hi).1 c hc
    · exact toDec_digits _ c hc
  have fin : i.name = j.name → i.id = j.id → i.pid = j.pid → i = j := by
    intro h1 h2 h3
    have h4 := hhost i hi j hj
    obtain ⟨a, b, c, d⟩ := i
    obtain ⟨a', b', c', d'⟩ := j
    simp only at h1 h2 h3 h4
    subst h1 h2 h3 h4
    rfl
  have srv : i.name ++ i.id ++ toDec i.pid = j.name ++ j.id ++ toDec j.pid → i = j := by
    intro hk
    rw [List.append_assoc, List.append_assoc] at hk
    obtain ⟨h1, h2⟩ := split_digits (hname i hi) (hname j hj) (hd i hi) (hd j hj) hk
    obtain ⟨h3, h4⟩ := List.append_inj h2 (by rw [(hid i hi).2, (hid j hj).2])
    exact fin h1 h3 (toDec_inj _ _ h4)
  have top : (k = .publisher ∨ k = .subscriber) → i.name ++ i.id = j.name ++ j.id → i = j := by
    intro hkk hk
    obtain ⟨h1, h2⟩ := split_digits (hname i hi) (hname j hj) (hid i hi).1 (hid j hj).1 hk
    exact fin h1 h2 (htopic hkk i hi j hj h2)
  cases k with
  | process =>
    obtain ⟨h1, h2⟩ := split_digits (hname i hi) (hname j hj) (toDec_digits _) (toDec_digits _) hk
    exact fin h1 (by rw [hproc rfl i hi, hproc rfl j hj]) (toDec_inj _ _ h2)
  | publisher => exact top (Or.inl rfl) hk
  | subscriber => exact top (Or.inr rfl) hk
  | server => exact srv hk
  | client => exact srv hk

example : Separate .server [⟨['h'], ['s'], ['1', '2'], 7⟩, ⟨['h'], ['s'], ['1', '3'], 17⟩] := by
  intro i hi j hj
  simp only [List.mem_cons, List.not_mem_nil, or_false] at hi hj
  rcases hi with rfl | rfl <;> rcases hj with rfl | rfl <;> decide +kernel

/-! ### Violations -/

/-- **C45, violation**: the host is not part of the key: equal process names with equal process ids on two
hosts (e.g. process 1 in two containers) share one entry. -/
theorem C45_violated_two_hosts :
    (mrun .process (ExpMap.init _ _ 5000)
        [(0, .register ⟨⟨['a'], ['p'], [], 1⟩, 1⟩), (1, .register ⟨⟨['b'], ['p'], [], 1⟩, 2⟩)]).map
      (fun s => listing s 2) = some [⟨⟨['b'], ['p'], [], 1⟩, 2⟩] := by
  decide +kernel

/-- **C45, violation**: leaving of `p1`/2 removes the entry of the running process `p`/12. -/
theorem C45_violated_unregister :
    (mrun .process (ExpMap.init _ _ 5000)
        [(0, .register ⟨⟨['a'], ['p', '1'], [], 2⟩, 1⟩), (1, .register ⟨⟨['a'], ['p'], [], 12⟩, 2⟩),
         (2, .unregister ⟨['a'], ['p', '1'], [], 2⟩)]).map (fun s => listing s 3) = some [] := by
  decide +kernel

/-- **C45, violation**: process `p1` with id 2 and process `p` with id 12 share one entry. -/
theorem C45_violated_digits :
    key .process ⟨['h'], ['p', '1'], [], 2⟩ = key .process ⟨['h'], ['p'], [], 12⟩ ∧
    key .publisher ⟨['h'], ['t', '1'], ['2'], 5⟩ = key .publisher ⟨['h'], ['t'], ['1', '2'], 5⟩ ∧
    key .server ⟨['h'], ['s', '1'], ['2', '1'], 2⟩ = key .server ⟨['h'], ['s'], ['1', '2'], 12⟩ := by
  decide +kernel

end Ecal.Mon
