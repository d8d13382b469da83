import Verif.Mon.MonitorProps

/-! # C45: what a listing contains, without conditions on the names -/

namespace Ecal.Mon

open Ecal.ExpMap

/-- The call registers or unregisters an entity with the key `x`. -/
def Hits (k : Kind) (x : List Char) : MOp → Prop
  | .register e => key k e.ident = x
  | .unregister i => key k i = x
  | .snapshot => False

/-- Nothing in `h` touches the key `x`, and no listing in `h` is so late that an entry of time `r` is expired. -/
def Calm (k : Kind) (timeout : Int) (x : List Char) (r : Int) (h : List (Int × MOp)) : Prop :=
  ∀ p ∈ h, ¬ Hits k x p.2 ∧ (p.2 = .snapshot → p.1 - timeout ≤ r)

theorem spec_iff (k : Kind) (timeout : Int) (x : List Char) (e : Entity) (r : Int) (h : List (Int × MOp)) :
    ∀ t : ExpMap.Table (List Char) Entity,
    ExpMap.specRun timeout blank t (h.map (fun p => (p.1, toOp k p.2))) x = some (e, r) ↔
      (∃ h1 h2, h = h1 ++ (r, .register e) :: h2 ∧ key k e.ident = x ∧ Calm k timeout x r h2) ∨
      (t x = some (e, r) ∧ Calm k timeout x r h) := by
  induction h with
  | nil => intro t; simp [ExpMap.specRun, Calm]
  | cons p h ih =>
    intro t
    obtain ⟨now, op⟩ := p
    rw [List.map_cons, ExpMap.specRun, ih]
    have hsplit : (∃ h1 h2, (now, op) :: h = h1 ++ (r, .register e) :: h2 ∧ key k e.ident = x ∧ Calm k timeout x r h2) ↔
        (∃ h1 h2, h = h1 ++ (r, .register e) :: h2 ∧ key k e.ident = x ∧ Calm k timeout x r h2) ∨
        (now = r ∧ op = .register e ∧ key k e.ident = x ∧ Calm k timeout x r h) := by
      constructor
      · rintro ⟨h1, h2, he, hk, hc⟩
        cases h1 with
        | nil =>
          simp only [List.nil_append, List.cons.injEq, Prod.mk.injEq] at he
          obtain ⟨⟨a, b⟩, c⟩ := he
          exact .inr ⟨a, b, hk, by rw [c]; exact hc⟩
        | cons q h1 =>
          simp only [List.cons_append, List.cons.injEq] at he
          exact .inl ⟨h1, h2, he.2, hk, hc⟩
      · rintro (⟨h1, h2, he, hk, hc⟩ | ⟨a, b, hk, hc⟩)
        · exact ⟨(now, op) :: h1, h2, by rw [he]; rfl, hk, hc⟩
        · exact ⟨[], h, by rw [a, b]; rfl, hk, hc⟩
    rw [hsplit, or_assoc]
    refine or_congr_right ?_
    have hcons : Calm k timeout x r ((now, op) :: h) ↔
        (¬ Hits k x op ∧ (op = .snapshot → now - timeout ≤ r)) ∧ Calm k timeout x r h := by
      simp [Calm]
    rw [hcons]
    cases op with
    | register f =>
      simp only [toOp, ExpMap.specStep, Hits, MOp.register.injEq, reduceCtorEq, false_imp_iff, and_true]
      by_cases hx : x = key k f.ident
      · subst hx
        simp only [if_pos, Option.some.injEq, Prod.mk.injEq, not_true_eq_false, false_and, and_false, or_false]
        constructor
        · rintro ⟨⟨rfl, rfl⟩, hc⟩; exact ⟨rfl, rfl, rfl, hc⟩
        · rintro ⟨rfl, rfl, -, hc⟩; exact ⟨⟨rfl, rfl⟩, hc⟩
      · rw [if_neg hx]
        constructor
        · rintro ⟨a, hc⟩; exact .inr ⟨a, fun hh => hx hh.symm, hc⟩
        · rintro (⟨-, rfl, hk, -⟩ | ⟨a, -, hc⟩)
          · exact absurd hk.symm hx
          · exact ⟨a, hc⟩
    | unregister j =>
      simp only [toOp, ExpMap.specStep, Hits, reduceCtorEq, false_imp_iff, and_true, false_and, and_false, false_or]
      by_cases hx : x = key k j
      · subst hx; simp
      · rw [if_neg hx]
        constructor
        · rintro ⟨a, hc⟩; exact ⟨a, fun hh => hx hh.symm, hc⟩
        · rintro ⟨a, -, hc⟩; exact ⟨a, hc⟩
    | snapshot =>
      simp only [toOp, ExpMap.specStep, Hits, reduceCtorEq, not_false_eq_true, true_and, false_and, and_false, false_or,
        true_imp_iff]
      cases ht : t x with
      | none => simp
      | some q =>
        obtain ⟨v, r'⟩ := q
        simp only [Option.some.injEq, Prod.mk.injEq]
        by_cases hlt : r' < now - timeout
        · rw [if_pos hlt]
          simp only [reduceCtorEq, false_and, false_iff]
          rintro ⟨⟨-, rfl⟩, h2, -⟩
          omega
        · rw [if_neg hlt]
          simp only [Option.some.injEq, Prod.mk.injEq]
          constructor
          · rintro ⟨⟨a, rfl⟩, hc⟩; exact ⟨⟨a, rfl⟩, by omega, hc⟩
          · rintro ⟨a, -, hc⟩; exact ⟨a, hc⟩

/-- The listing in terms of the expiring table by keys. -/
theorem listing_table (k : Kind) (timeout t0 now : Int) (h : List (Int × MOp)) (hm : Monotone t0 h)
    (hnow : ∀ p ∈ h, p.1 ≤ now) (h0 : t0 ≤ now) :
    ∃ s, mrun k (ExpMap.init _ _ timeout) h = some s ∧
      ∀ e : Entity, e ∈ listing s now ↔ ∃ x r, ExpMap.specRun timeout blank (fun _ => none)
        ((h ++ [(now, MOp.snapshot)]).map (fun p => (p.1, toOp k p.2))) x = some (e, r) := by
  have hm' := monotone_append h t0 hm hnow h0
  obtain ⟨s', h1, h2⟩ := ExpMap.C01_refines_expiring_table timeout t0 blank
    ((h ++ [(now, MOp.snapshot)]).map (fun p => (p.1, toOp k p.2)))
    (toOp_monotone k _ t0 hm') (toOp_noReinsert k timeout _ _)
  have h1' := h1
  rw [List.map_append, List.map_cons, List.map_nil, expRun_append] at h1'
  cases hs : ExpMap.run blank (ExpMap.init (List Char) Entity timeout) (h.map (fun p => (p.1, toOp k p.2))) with
  | none => rw [hs] at h1'; cases h1'
  | some s =>
    rw [hs] at h1'
    simp only [Option.bind_some, toOp, ExpMap.step, Option.some.injEq] at h1'
    refine ⟨s, hs, ?_⟩
    intro e
    have hl : e ∈ listing s now ↔ ∃ x, ExpMap.lookup s' x = some e := by
      unfold listing
      simp only [h1', List.mem_filterMap]
      constructor
      · rintro ⟨x, _, hx⟩; exact ⟨x, hx⟩
      · rintro ⟨x, hx⟩
        refine ⟨x, ?_, hx⟩
        apply Classical.byContradiction
        intro hn
        have := (AMap.find_none_iff (x := x) (m := s'.map)).mpr hn
        simp [ExpMap.lookup, this] at hx
    rw [hl]
    refine exists_congr fun x => ?_
    rw [h2 x]
    cases ExpMap.specRun timeout blank (fun _ => none)
      ((h ++ [(now, MOp.snapshot)]).map (fun p => (p.1, toOp k p.2))) x with
    | none => simp
    | some q =>
      obtain ⟨v, r⟩ := q
      simp

/-- **C45, exact form**: for any history of registrations, unregistrations and listings, whatever the names are, an entity is
listed exactly if its last registration is not older than the timeout and nothing with the same key was registered or
unregistered since. -/
theorem C45_listing_iff (k : Kind) (timeout t0 now : Int) (h : List (Int × MOp)) (hm : Monotone t0 h)
    (hnow : ∀ p ∈ h, p.1 ≤ now) (h0 : t0 ≤ now) :
    ∃ s, mrun k (ExpMap.init _ _ timeout) h = some s ∧
      ∀ e : Entity, e ∈ listing s now ↔
        ∃ h1 r h2, h = h1 ++ (r, .register e) :: h2 ∧ now - timeout ≤ r ∧
          ∀ p ∈ h2, (∀ f, p.2 = .register f → key k f.ident ≠ key k e.ident) ∧
            (∀ i, p.2 = .unregister i → key k i ≠ key k e.ident) := by
  obtain ⟨s, hs, hl⟩ := listing_table k timeout t0 now h hm hnow h0
  refine ⟨s, hs, fun e => ?_⟩
  rw [hl e]
  simp only [spec_iff, reduceCtorEq, false_and, or_false]
  constructor
  · rintro ⟨x, r, h1, h2, he, hk, hc⟩
    subst hk
    rcases List.eq_nil_or_concat h2 with h2e | ⟨h2', z, h2e⟩
    · subst h2e
      have := List.append_inj_right' he rfl
      simp at this
    · rw [List.concat_eq_append] at h2e
      subst h2e
      have e1 : h = h1 ++ (r, .register e) :: h2' ∧ z = (now, .snapshot) := by
        have e2 : h ++ [(now, MOp.snapshot)] = (h1 ++ (r, .register e) :: h2') ++ [z] := by rw [he]; simp
        have a := List.append_inj_left' e2 rfl
        have b := List.append_inj_right' e2 rfl
        simp only [List.cons.injEq, and_true] at b
        exact ⟨a, b.symm⟩
      obtain ⟨e1, rfl⟩ := e1
      refine ⟨h1, r, h2', e1, (hc (now, .snapshot) (by simp)).2 rfl, ?_⟩
      intro p hp
      have := (hc p (by simp [hp])).1
      constructor
      · intro f hf hk; rw [hf] at this; exact this hk
      · intro i hi hk; rw [hi] at this; exact this hk
  · rintro ⟨h1, r, h2, he, hr, hc⟩
    refine ⟨key k e.ident, r, h1, h2 ++ [(now, .snapshot)], by rw [he]; simp, rfl, ?_⟩
    intro p hp
    rw [List.mem_append, List.mem_singleton] at hp
    rcases hp with hp | rfl
    · refine ⟨?_, fun _ => ?_⟩
      · obtain ⟨a, b⟩ := hc p hp
        cases hop : p.2 with
        | register f => exact a f hop
        | unregister i => exact b i hop
        | snapshot => exact id
      · have := hnow p (by rw [he]; simp [hp]); omega
    · exact ⟨id, fun _ => hr⟩

example : (mrun .publisher (ExpMap.init _ _ 5000) [(1, .register ⟨⟨[], ['t'], ['1'], 1⟩, 7⟩), (2, .snapshot)]).map (fun s => listing s 5001) =
    some [⟨⟨[], ['t'], ['1'], 1⟩, 7⟩] := by decide +kernel

end Ecal.Mon
