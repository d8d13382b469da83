import Verif.Sync.Shutdown

/-! # C49: a shutdown request is seen -/

namespace Ecal.Sync.Shutdown

open Ecal

/-- The shutdown flag the target looks at is set. -/
def Flagged (st : State) : Prop := ∃ o, st.target = some o ∧ st.objs[o]? = some true

theorem flagged_step (st : State) (a : Step) (ha : a ≠ .ok) (h : Flagged st) : Flagged (step st a).1 := by
  obtain ⟨o, ht, ho⟩ := h
  have hb : o < st.objs.length := (List.getElem?_eq_some_iff.mp ho).1
  cases a with
  | ok => exact absurd rfl ha
  | rOpen r =>
    simp only [step]
    cases hr : st.reqs.find r with
    | some x => exact ⟨o, ht, ho⟩
    | none =>
      simp only [openOrCreate]
      cases hl : st.link with
      | some x => exact ⟨o, ht, ho⟩
      | none =>
        refine ⟨o, ht, ?_⟩
        simp only [List.getElem?_append_left hb]; exact ho
  | rSet r =>
    simp only [step]
    cases hr : st.reqs.find r with
    | none => exact ⟨o, ht, ho⟩
    | some x =>
      refine ⟨o, ht, ?_⟩
      by_cases hx : x = o
      · subst hx; simp only [List.getElem?_set_self hb]
      · simp only [List.getElem?_set_ne hx]; exact ho
  | rClose r =>
    simp only [step]
    cases hr : st.reqs.find r with
    | none => exact ⟨o, ht, ho⟩
    | some x => exact ⟨o, ht, ho⟩

/-- **C49** A request set on the object the target uses is seen by the target's next `Ok()`, whatever
other requesters do in between. -/
theorem C49_request_seen_by_next_ok_partial (st : State) (r o : Nat) (others : List Step)
    (hoth : Step.ok ∉ others) (hr : st.reqs.find r = some o) (ht : st.target = some o)
    (hb : o < st.objs.length) :
    (run st (.rSet r :: others ++ [.ok])).2 = [false] := by
  have h1 : (run st (.rSet r :: others ++ [.ok])).2 = (run (step st (.rSet r)).1 (others ++ [.ok])).2 := by
    show (step st (.rSet r)).2.toList ++ _ = _
    have : (step st (.rSet r)).2 = none := by simp only [step]; split <;> rfl
    rw [this]; rfl
  rw [h1]
  have hf : Flagged (step st (.rSet r)).1 := by
    refine ⟨o, by simp only [step, hr]; exact ht, ?_⟩
    simp only [step, hr, List.getElem?_set_self hb]
  clear h1 hr ht hb
  generalize (step st (.rSet r)).1 = s at hf
  clear st
  induction others generalizing s with
  | nil =>
    obtain ⟨o, ht, ho⟩ := hf
    simp [run, step, ht, ho]
  | cons a l ih =>
    have ha : a ≠ .ok := by rintro rfl; exact hoth (List.mem_cons_self ..)
    have hn : (step s a).2 = none := by
      cases a with
      | ok => exact absurd rfl ha
      | rOpen x => simp only [step]; split <;> rfl
      | rSet x => simp only [step]; split <;> rfl
      | rClose x => simp only [step]; split <;> rfl
    have h2 : (run s (a :: l ++ [.ok])).2 = (step s a).2.toList ++ (run (step s a).1 (l ++ [.ok])).2 := rfl
    rw [h2, hn, ih (fun hh => hoth (List.mem_cons_of_mem _ hh)) _ (flagged_step s a ha hf)]
    rfl

/-- A first request, issued after the target's first `Ok()`, opens the object the target uses. -/
example : let st := (run {} [.ok, .rOpen 1]).1
    st.reqs.find 1 = some 0 ∧ st.target = some 0 ∧ 0 < st.objs.length := by decide +kernel

def isSet : Step → Bool
  | .rSet _ => true
  | _ => false

/-- Number of raised flags. -/
def raised (l : List Bool) : Nat := (l.filter id).length

def falses (l : List Bool) : Nat := (l.filter (fun b => !b)).length

theorem raised_set_true (l : List Bool) (i : Nat) : raised (l.set i true) ≤ raised l + 1 := by
  induction l generalizing i with
  | nil => simp [raised]
  | cons a l ih =>
    cases i with
    | zero =>
      simp only [List.set_cons_zero, raised, List.filter_cons]
      cases a <;> simp
    | succ i =>
      have := ih i
      simp only [raised] at this
      simp only [List.set_cons_succ, raised, List.filter_cons]
      cases a <;> simp <;> omega

theorem raised_set_false (l : List Bool) (i : Nat) (h : l[i]? = some true) :
    raised (l.set i false) + 1 = raised l := by
  induction l generalizing i with
  | nil => simp at h
  | cons a l ih =>
    cases i with
    | zero =>
      simp only [List.getElem?_cons_zero, Option.some.injEq] at h
      subst h
      simp [raised, List.filter_cons]
    | succ i =>
      simp only [List.getElem?_cons_succ] at h
      have := ih i h
      simp only [raised] at this
      simp only [List.set_cons_succ, raised, List.filter_cons]
      cases a <;> simp <;> omega

theorem raised_append_false (l : List Bool) : raised (l ++ [false]) = raised l := by simp [raised]

theorem openOrCreate_raised (st : State) : raised (openOrCreate st).1.objs = raised st.objs := by
  unfold openOrCreate
  split
  · rfl
  · exact raised_append_false _

theorem count_step (st : State) (a : Step) :
    falses (step st a).2.toList + raised (step st a).1.objs ≤ raised st.objs + (if isSet a then 1 else 0) := by
  cases a with
  | ok =>
    have key : ∀ (s : State) (o : Nat), raised s.objs = raised st.objs →
        falses ((if (s.objs[o]?).getD false then
          (({ s with target := some o, objs := s.objs.set o false } : State), some false)
          else ({ s with target := some o }, some true)).2.toList) +
        raised ((if (s.objs[o]?).getD false then
          (({ s with target := some o, objs := s.objs.set o false } : State), some false)
          else ({ s with target := some o }, some true)).1.objs) ≤ raised st.objs := by
      intro s o hs
      by_cases h : (s.objs[o]?).getD false = true
      · rw [if_pos h]
        have h' : s.objs[o]? = some true := by
          cases hh : s.objs[o]? with
          | none => rw [hh] at h; cases h
          | some b => rw [hh] at h; simp only [Option.getD_some] at h; rw [h]
        have := raised_set_false s.objs o h'
        simp only [falses, Option.toList]
        simp
        omega
      · rw [if_neg h]
        simp [falses, hs]
    simp only [step, isSet]
    cases ht : st.target with
    | some o => exact key st o rfl
    | none => exact key _ _ (openOrCreate_raised st)
  | rOpen r =>
    simp only [step]
    cases hr : st.reqs.find r with
    | some x => simp [falses, isSet]
    | none =>
      have := openOrCreate_raised st
      simp only [falses, isSet]
      simp [this]
  | rSet r =>
    simp only [step]
    cases hr : st.reqs.find r with
    | none => simp [falses]
    | some x =>
      have := raised_set_true st.objs x
      simp [falses, isSet]; omega
  | rClose r =>
    simp only [step]
    cases hr : st.reqs.find r with
    | some x => simp [falses, isSet]
    | none => simp [falses]

theorem count_run (steps : List Step) : ∀ st : State,
    falses (run st steps).2 + raised (run st steps).1.objs ≤ raised st.objs + (steps.filter isSet).length := by
  induction steps with
  | nil => intro st; simp [run, falses]
  | cons a l ih =>
    intro st
    have h1 := count_step st a
    have h2 := ih (step st a).1
    have h3 : (run st (a :: l)).2 = (step st a).2.toList ++ (run (step st a).1 l).2 := rfl
    have h4 : (run st (a :: l)).1 = (run (step st a).1 l).1 := rfl
    have h5 : ∀ a b : List Bool, falses (a ++ b) = falses a + falses b := by intro a b; simp [falses]
    rw [h3, h4, h5, List.filter_cons]
    split
    · rename_i h; simp only [h, if_true] at h1; simp only [List.length_cons]; omega
    · rename_i h; simp only [h] at h1; simp at h1; omega

/-- **C49** `Ok()` never reports a shutdown nobody requested: in every history it returns false at most
as often as a request was set. -/
theorem C49_no_spurious_shutdown (steps : List Step) :
    falses (run {} steps).2 ≤ (steps.filter isSet).length := by
  have := count_run steps {}
  have h0 : raised ({} : State).objs = 0 := rfl
  rw [h0] at this
  omega

/-! ### Violations -/

/-- **C49, violation**: `Ok()` returns false once and true again afterwards. -/
theorem C49_violated_ok_again :
    (run {} [.ok, .rOpen 1, .rSet 1, .rClose 1, .ok, .ok]).2 = [true, false, true] := by decide +kernel

/-- **C49, violation**: a request issued before the target's first `Ok()` is lost. -/
theorem C49_violated_early_request :
    (run {} [.rOpen 1, .rSet 1, .rClose 1, .ok, .ok]).2 = [true, true] := by decide +kernel

/-- **C49, violation**: a second request is lost. -/
theorem C49_violated_second_request :
    (run {} [.ok, .rOpen 1, .rSet 1, .rClose 1, .ok, .rOpen 2, .rSet 2, .rClose 2, .ok]).2 =
      [true, false, true] := by decide +kernel

/-- The target's object is out of reach: unset, not linked, and not open at any requester. -/
structure Lost (st : State) (o : Nat) : Prop where
  target : st.target = some o
  unset  : st.objs[o]? = some false
  link   : st.link ≠ some o
  reqs   : ∀ r x, st.reqs.find r = some x → x ≠ o

theorem lost_step {st : State} {o : Nat} (h : Lost st o) (a : Step) :
    Lost (step st a).1 o ∧ ((step st a).2 = none ∨ (step st a).2 = some true) := by
  have hb : o < st.objs.length := (List.getElem?_eq_some_iff.mp h.unset).1
  have hooc : (openOrCreate st).1.target = some o ∧ (openOrCreate st).1.objs[o]? = some false ∧
      (openOrCreate st).1.link ≠ some o ∧ (openOrCreate st).2 ≠ o ∧
      (openOrCreate st).1.reqs = st.reqs := by
    unfold openOrCreate
    cases hl : st.link with
    | some x =>
      have := h.link
      rw [hl] at this
      exact ⟨h.target, h.unset, h.link, fun e => this (congrArg some e), rfl⟩
    | none =>
      refine ⟨h.target, ?_, ?_, ?_, rfl⟩
      · simp only [List.getElem?_append_left hb]; exact h.unset
      · simp only [ne_eq, Option.some.injEq]; omega
      · simp only [ne_eq]; omega
  cases a with
  | ok =>
    simp only [step, h.target, h.unset]
    refine ⟨⟨rfl, h.unset, h.link, h.reqs⟩, Or.inr rfl⟩
  | rOpen r =>
    simp only [step]
    cases hr : st.reqs.find r with
    | some x => exact ⟨h, Or.inl rfl⟩
    | none =>
      obtain ⟨h1, h2, h3, h4, h5⟩ := hooc
      refine ⟨⟨h1, h2, h3, ?_⟩, Or.inl rfl⟩
      intro k x hk
      simp only [h5, AMap.find_set] at hk
      by_cases hrk : r = k
      · rw [if_pos hrk] at hk
        simp only [Option.some.injEq] at hk
        rw [← hk]; exact h4
      · rw [if_neg hrk] at hk; exact h.reqs k x hk
  | rSet r =>
    simp only [step]
    cases hr : st.reqs.find r with
    | none => exact ⟨h, Or.inl rfl⟩
    | some x =>
      refine ⟨⟨h.target, ?_, h.link, h.reqs⟩, Or.inl rfl⟩
      simp only [List.getElem?_set_ne (h.reqs r x hr)]; exact h.unset
  | rClose r =>
    simp only [step]
    cases hr : st.reqs.find r with
    | none => exact ⟨h, Or.inl rfl⟩
    | some x =>
      refine ⟨⟨h.target, h.unset, by simp, ?_⟩, Or.inl rfl⟩
      intro k y hk
      simp only [AMap.find_erase] at hk
      by_cases hrk : r = k
      · rw [if_pos hrk] at hk; cases hk
      · rw [if_neg hrk] at hk; exact h.reqs k y hk

/-- **C49, violation (general)**: once a request has been served, no later request, however many and in
whatever interleaving, is ever seen: all further `Ok()` return true. -/
theorem C49_violated_deaf_for_ever (steps : List Step) :
    ∀ (st : State) (o : Nat), Lost st o → ∀ b ∈ (run st steps).2, b = true := by
  induction steps with
  | nil => intro st o _ b hb; simp [run] at hb
  | cons a l ih =>
    intro st o h b hb
    obtain ⟨h1, h2⟩ := lost_step h a
    have h3 : (run st (a :: l)).2 = (step st a).2.toList ++ (run (step st a).1 l).2 := rfl
    rw [h3] at hb
    rcases List.mem_append.mp hb with hb | hb
    · rcases h2 with h2 | h2 <;> rw [h2] at hb <;> simp at hb
      exact hb
    · exact ih _ o h1 b hb

/-- That state is what one complete request leaves behind. -/
example : Lost (run {} [.ok, .rOpen 1, .rSet 1, .rClose 1, .ok]).1 0 := by
  have h : (run {} [.ok, .rOpen 1, .rSet 1, .rClose 1, .ok]).1.reqs = [] := by decide +kernel
  refine ⟨by decide +kernel, by decide +kernel, by decide +kernel, ?_⟩
  intro r x hr
  rw [h] at hr
  cases hr

end Ecal.Sync.Shutdown
