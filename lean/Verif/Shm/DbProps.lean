import Verif.Shm.Db

/-! # C21: shared memory segments live as long as someone uses them -/

namespace Ecal.Shm.Db

open Ecal

/-! ## Specification: the set of users of each segment -/

structure Sp where
  users : List (Nat × Nat) := []      -- (handle, name)
  asked : List Nat := []              -- names whose removal has been asked for
  rel   : List Release := []

def usersOf (users : List (Nat × Nat)) (n : Nat) : List (Nat × Nat) :=
  users.filter (fun p => p.2 == n)

def spOpen (sp : Sp) (h n : Nat) : Sp :=
  if sp.users.any (fun p => p.1 == h) then sp else { sp with users := sp.users ++ [(h, n)] }

def spClose (sp : Sp) (h : Nat) (remove : Bool) : Sp :=
  match sp.users.find? (fun p => p.1 == h) with
  | none => sp
  | some p =>
    let users := sp.users.filter (fun q => q.1 != h)
    let asked := if remove then p.2 :: sp.asked else sp.asked
    if usersOf users p.2 = [] then
      { users := users, asked := asked.filter (fun n => n != p.2)
        rel := sp.rel ++ [⟨p.2, decide (p.2 ∈ asked)⟩] }
    else { sp with users := users, asked := asked }

def spStep (sp : Sp) : Step → Sp
  | .open h n _ => spOpen sp h n
  | .close h r => spClose sp h r
  | .check _ _ => sp

def spRun (sp : Sp) (steps : List Step) : Sp := steps.foldl spStep sp

/-- Traces without remapping: a segment is never opened with a larger size than it has, and a size
check finds a current private copy and a sufficient size. -/
def Allowed (st : State) : Step → Prop
  | .open _ n len => ∀ i, st.entries.find n = some i → len ≤ i.size
  | .close _ _ => True
  | .check h len => ∀ n i, st.handles.find h = some (n, i) →
      st.entries.find n = some i ∧ len ≤ i.size

def AllAllowed : State → List Step → Prop
  | _, [] => True
  | st, a :: l => Allowed st a ∧ AllAllowed (step st a) l

/-! ## Invariant -/

structure Inv (st : State) (sp : Sp) : Prop where
  users  : sp.users = st.handles.map (fun p => (p.1, p.2.1))
  nodup  : (AMap.keys st.handles).Nodup
  unused : ∀ n, usersOf sp.users n = [] → st.entries.find n = none ∧ n ∉ sp.asked
  used   : ∀ n, usersOf sp.users n ≠ [] → ∃ i, st.entries.find n = some i ∧
    i.refcnt = (usersOf sp.users n).length ∧ i.remove = decide (n ∈ sp.asked)
  copies : ∀ h n j, st.handles.find h = some (n, j) → ∃ i, st.entries.find n = some i ∧ j.addr = i.addr
  addrs  : ∀ n i, st.entries.find n = some i → i.addr ∈ st.mapped ∧ i.addr < st.next ∧
    i.addr ∉ st.unmapped
  apart  : ∀ n m i j, st.entries.find n = some i → st.entries.find m = some j → n ≠ m →
    i.addr ≠ j.addr
  once   : st.unmapped.Nodup
  old    : ∀ a ∈ st.unmapped, a < st.next
  rel    : st.releases = sp.rel

theorem map_set_new (m : AMap Nat (Nat × Info)) (h : Nat) (v : Nat × Info) (hn : m.find h = none) :
    (m.set h v).map (fun p => (p.1, p.2.1)) = m.map (fun p => (p.1, p.2.1)) ++ [(h, v.1)] := by
  induction m with
  | nil => rfl
  | cons p m ih =>
    obtain ⟨k, w⟩ := p
    rw [AMap.find_cons] at hn
    by_cases hk : k = h
    · rw [if_pos hk] at hn; cases hn
    · rw [if_neg hk] at hn
      simp only [AMap.set, if_neg hk, List.map_cons, List.cons_append]
      rw [ih hn]

theorem map_erase (m : AMap Nat (Nat × Info)) (h : Nat) :
    (m.erase h).map (fun p => (p.1, p.2.1)) =
      (m.map (fun p => (p.1, p.2.1))).filter (fun q => q.1 != h) := by
  induction m with
  | nil => rfl
  | cons p m ih =>
    obtain ⟨k, w⟩ := p
    by_cases hk : k = h
    · simp [AMap.erase, hk, ih]
    · simp [AMap.erase, hk, ih]

theorem find_map (m : AMap Nat (Nat × Info)) (h : Nat) :
    (m.map (fun p => (p.1, p.2.1))).find? (fun p => p.1 == h) =
      (m.find h).map (fun v => (h, v.1)) := by
  induction m with
  | nil => rfl
  | cons p m ih =>
    obtain ⟨k, w⟩ := p
    by_cases hk : k = h
    · subst hk; simp [AMap.find_cons]
    · have : (k == h) = false := by simp [hk]
      simp only [List.map_cons, List.find?_cons, this, AMap.find_cons, if_neg hk]
      exact ih

theorem any_map (m : AMap Nat (Nat × Info)) (h : Nat) :
    (m.map (fun p => (p.1, p.2.1))).any (fun p => p.1 == h) = (m.find h).isSome := by
  induction m with
  | nil => rfl
  | cons p m ih =>
    obtain ⟨k, w⟩ := p
    by_cases hk : k = h
    · subst hk; simp [AMap.find_cons]
    · have : (k == h) = false := by simp [hk]
      simp only [List.map_cons, List.any_cons, this, Bool.false_or, AMap.find_cons, if_neg hk]
      exact ih

theorem usersOf_snoc (users : List (Nat × Nat)) (h m n : Nat) :
    usersOf (users ++ [(h, m)]) n = if m = n then usersOf users n ++ [(h, m)] else usersOf users n := by
  by_cases hm : m = n
  · simp [usersOf, hm]
  · simp [usersOf, hm]

/-- Removing one handle: other names are untouched, its own name loses exactly one user. -/
theorem usersOf_remove_other (users : List (Nat × Nat)) (h m n : Nat) (hmn : m ≠ n)
    (hu : ∀ q ∈ users, q.1 = h → q.2 = m) :
    usersOf (users.filter (fun q => q.1 != h)) n = usersOf users n := by
  unfold usersOf
  rw [List.filter_filter]
  apply List.filter_congr
  intro q hq
  by_cases h1 : q.1 = h
  · have := hu q hq h1
    simp [h1, this, hmn]
  · simp [h1]

theorem usersOf_remove_self (users : List (Nat × Nat)) (h m : Nat)
    (hnd : (users.map Prod.fst).Nodup) (hmem : (h, m) ∈ users) :
    (usersOf (users.filter (fun q => q.1 != h)) m).length + 1 = (usersOf users m).length := by
  induction users with
  | nil => cases hmem
  | cons q users ih =>
    obtain ⟨k, w⟩ := q
    simp only [List.map_cons, List.nodup_cons] at hnd
    rcases List.mem_cons.1 hmem with hq | hq
    · cases hq
      have hnot : users.filter (fun q => q.1 != h) = users := by
        rw [List.filter_eq_self]
        intro q hq
        have : q.1 ≠ h := fun e => hnd.1 (e ▸ List.mem_map_of_mem hq)
        simp [this]
      simp [usersOf, hnot]
    · have hkh : k ≠ h := fun e => hnd.1 (e ▸ List.mem_map_of_mem (f := Prod.fst) hq)
      have := ih hnd.2 hq
      by_cases hw : w = m
      · simp only [usersOf, List.filter_cons, hw, beq_self_eq_true, if_true] at this ⊢
        simp only [bne_iff_ne, ne_eq, hkh, not_false_eq_true, if_true, List.filter_cons,
          beq_self_eq_true, List.length_cons]
        omega
      · have hw' : (w == m) = false := by simp [hw]
        simp only [usersOf, List.filter_cons, hw', Bool.false_eq_true, if_false] at this ⊢
        simp only [bne_iff_ne, ne_eq, hkh, not_false_eq_true, if_true, List.filter_cons, hw',
          Bool.false_eq_true, if_false]
        exact this

theorem inv_open {st : State} {sp : Sp} (h : Inv st sp) (hd name len : Nat)
    (hal : Allowed st (.open hd name len)) :
    Inv (step st (.open hd name len)) (spOpen sp hd name) := by
  have hany : sp.users.any (fun p => p.1 == hd) = (st.handles.find hd).isSome := by
    rw [h.users, any_map]
  simp only [step, spOpen, hany]
  cases hf : st.handles.find hd with
  | some p => simpa using h
  | none =>
    simp only [Option.isSome_none, Bool.false_eq_true, if_false]
    have hnd : ∀ v, (AMap.keys (st.handles.set hd v)).Nodup := fun v => AMap.nodup_set h.nodup _ _
    unfold addFile
    cases he : st.entries.find name with
    | none =>
      simp only
      have hempty : usersOf sp.users name = [] := by
        by_cases hu : usersOf sp.users name = []
        · exact hu
        · obtain ⟨i, hi, _⟩ := h.used name hu
          rw [he] at hi; cases hi
      refine { users := ?_, nodup := hnd _, unused := ?_, used := ?_, copies := ?_, addrs := ?_,
               apart := ?_, once := h.once, old := ?_, rel := h.rel }
      · rw [map_set_new _ _ _ hf, h.users]
      · intro n hn
        rw [usersOf_snoc] at hn
        by_cases hnn : name = n
        · rw [if_pos hnn] at hn; simp at hn
        · rw [if_neg hnn] at hn
          rw [AMap.find_set_ne _ _ _ _ hnn]
          exact h.unused n hn
      · intro n hn
        rw [usersOf_snoc] at hn ⊢
        by_cases hnn : name = n
        · subst hnn
          rw [if_pos rfl, hempty]
          refine ⟨_, AMap.find_set_self _ _ _, rfl, ?_⟩
          have := (h.unused name hempty).2
          simp [this]
        · rw [if_neg hnn] at hn ⊢
          rw [AMap.find_set_ne _ _ _ _ hnn]
          exact h.used n hn
      · intro k n j hk
        rw [AMap.find_set] at hk
        by_cases hkk : hd = k
        · rw [if_pos hkk] at hk
          simp only [Option.some.injEq, Prod.mk.injEq] at hk
          obtain ⟨rfl, rfl⟩ := hk
          exact ⟨_, AMap.find_set_self _ _ _, rfl⟩
        · rw [if_neg hkk] at hk
          obtain ⟨i, hi, hij⟩ := h.copies k n j hk
          have hnn : name ≠ n := by rintro rfl; rw [he] at hi; cases hi
          exact ⟨i, by rw [AMap.find_set_ne _ _ _ _ hnn]; exact hi, hij⟩
      · intro n i hi
        rw [AMap.find_set] at hi
        by_cases hnn : name = n
        · rw [if_pos hnn] at hi
          simp only [Option.some.injEq] at hi
          subst hi
          refine ⟨by simp, by show st.next < st.next + 1; omega, ?_⟩
          intro hu
          have : st.next < st.next := h.old _ hu
          omega
        · rw [if_neg hnn] at hi
          obtain ⟨a, b, c⟩ := h.addrs n i hi
          exact ⟨by simp [a], by show i.addr < st.next + 1; omega, c⟩
      · intro n m i j hi hj hnm
        rw [AMap.find_set] at hi hj
        by_cases hnn : name = n
        · rw [if_pos hnn] at hi
          rw [if_neg (by rintro rfl; exact hnm hnn.symm)] at hj
          simp only [Option.some.injEq] at hi
          subst hi
          have := (h.addrs m j hj).2.1
          show st.next ≠ j.addr
          omega
        · rw [if_neg hnn] at hi
          by_cases hmm : name = m
          · rw [if_pos hmm] at hj
            simp only [Option.some.injEq] at hj
            subst hj
            have := (h.addrs n i hi).2.1
            show i.addr ≠ st.next
            omega
          · rw [if_neg hmm] at hj
            exact h.apart n m i j hi hj hnm
      · intro a ha
        have := h.old a ha
        show a < st.next + 1
        omega
    | some i =>
      have hlen : ¬ len > i.size := by have := hal i he; omega
      simp only [osCheck, if_neg hlen]
      have hne : usersOf sp.users name ≠ [] := by
        intro hu
        have := (h.unused name hu).1
        rw [he] at this; cases this
      refine { users := ?_, nodup := hnd _, unused := ?_, used := ?_, copies := ?_, addrs := ?_,
               apart := ?_, once := h.once, old := h.old, rel := h.rel }
      · rw [map_set_new _ _ _ hf, h.users]
      · intro n hn
        rw [usersOf_snoc] at hn
        by_cases hnn : name = n
        · rw [if_pos hnn] at hn; simp at hn
        · rw [if_neg hnn] at hn
          rw [AMap.find_set_ne _ _ _ _ hnn]
          exact h.unused n hn
      · intro n hn
        rw [usersOf_snoc] at hn ⊢
        by_cases hnn : name = n
        · subst hnn
          rw [if_pos rfl]
          obtain ⟨i', hi', hr, hrm⟩ := h.used name hne
          rw [he] at hi'
          simp only [Option.some.injEq] at hi'
          subst hi'
          refine ⟨_, AMap.find_set_self _ _ _, ?_, hrm⟩
          simp [hr]
        · rw [if_neg hnn] at hn ⊢
          rw [AMap.find_set_ne _ _ _ _ hnn]
          exact h.used n hn
      · intro k n j hk
        rw [AMap.find_set] at hk
        by_cases hkk : hd = k
        · rw [if_pos hkk] at hk
          simp only [Option.some.injEq, Prod.mk.injEq] at hk
          obtain ⟨rfl, rfl⟩ := hk
          exact ⟨_, AMap.find_set_self _ _ _, rfl⟩
        · rw [if_neg hkk] at hk
          obtain ⟨i', hi, hij⟩ := h.copies k n j hk
          by_cases hnn : name = n
          · subst hnn
            rw [he] at hi
            simp only [Option.some.injEq] at hi
            subst hi
            exact ⟨_, AMap.find_set_self _ _ _, hij⟩
          · exact ⟨i', by rw [AMap.find_set_ne _ _ _ _ hnn]; exact hi, hij⟩
      · intro n j hj
        rw [AMap.find_set] at hj
        by_cases hnn : name = n
        · rw [if_pos hnn] at hj
          simp only [Option.some.injEq] at hj
          subst hj
          exact h.addrs name i he
        · rw [if_neg hnn] at hj
          exact h.addrs n j hj
      · intro n m x y hx hy hnm
        rw [AMap.find_set] at hx hy
        by_cases hnn : name = n
        · rw [if_pos hnn] at hx
          rw [if_neg (by rintro rfl; exact hnm hnn.symm)] at hy
          simp only [Option.some.injEq] at hx
          subst hx
          exact h.apart name m i y he hy (by rintro rfl; exact hnm hnn.symm)
        · rw [if_neg hnn] at hx
          by_cases hmm : name = m
          · rw [if_pos hmm] at hy
            simp only [Option.some.injEq] at hy
            subst hy
            exact h.apart n name x i hx he (fun e => hnn e.symm)
          · rw [if_neg hmm] at hy
            exact h.apart n m x y hx hy hnm

theorem inv_close {st : State} {sp : Sp} (h : Inv st sp) (hd : Nat) (r : Bool) :
    Inv (step st (.close hd r)) (spClose sp hd r) := by
  have hfind : sp.users.find? (fun p => p.1 == hd) = (st.handles.find hd).map (fun v => (hd, v.1)) := by
    rw [h.users, find_map]
  simp only [step, spClose, hfind]
  cases hf : st.handles.find hd with
  | none => simpa using h
  | some p =>
    obtain ⟨name, j⟩ := p
    simp only [Option.map_some]
    obtain ⟨i, hi, hij⟩ := h.copies hd name j hf
    have hmem : (hd, name) ∈ sp.users := by
      rw [h.users]
      exact List.mem_map.2 ⟨(hd, (name, j)), AMap.mem_of_find hf, rfl⟩
    have hkeys : (sp.users.map Prod.fst).Nodup := by
      rw [h.users, List.map_map]
      exact h.nodup
    have hname : ∀ q ∈ sp.users, q.1 = hd → q.2 = name := by
      intro q hq hqh
      rw [h.users, List.mem_map] at hq
      obtain ⟨⟨k, v⟩, hk, rfl⟩ := hq
      simp only at hqh
      subst hqh
      have := AMap.find_of_mem h.nodup hk
      rw [hf] at this
      simp only [Option.some.injEq] at this
      rw [← this]
    have hne : usersOf sp.users name ≠ [] := by
      intro hu
      have := (h.unused name hu).1
      rw [hi] at this; cases this
    obtain ⟨i', hi', href, hrm⟩ := h.used name hne
    rw [hi] at hi'
    simp only [Option.some.injEq] at hi'
    subst hi'
    have hcount := usersOf_remove_self sp.users hd name hkeys hmem
    have hother : ∀ n, name ≠ n → usersOf (sp.users.filter (fun q => q.1 != hd)) n =
        usersOf sp.users n := fun n hn => usersOf_remove_other sp.users hd name n hn hname
    have husers : sp.users.filter (fun q => q.1 != hd) =
        (st.handles.erase hd).map (fun p => (p.1, p.2.1)) := by rw [map_erase, h.users]
    have hnd : (AMap.keys (st.handles.erase hd)).Nodup := AMap.nodup_erase h.nodup _
    have hasked : ∀ n, name ≠ n → (n ∈ (if r = true then name :: sp.asked else sp.asked) ↔
        n ∈ sp.asked) := by
      intro n hn
      have : n ≠ name := fun e => hn e.symm
      cases r <;> simp [this]
    have hrm' : (i.remove || r) =
        decide (name ∈ (if r = true then name :: sp.asked else sp.asked)) := by
      rw [hrm]; cases r <;> simp
    unfold removeFile
    simp only [hi]
    by_cases hlast : usersOf (sp.users.filter (fun q => q.1 != hd)) name = []
    · have hr1 : i.refcnt - 1 < 1 := by
        rw [hlast] at hcount; simp at hcount; omega
      rw [if_pos hr1, if_pos hlast]
      refine { users := husers, nodup := hnd, unused := ?_, used := ?_, copies := ?_, addrs := ?_,
               apart := ?_, once := ?_, old := ?_, rel := ?_ }
      · intro n hn
        by_cases hnn : name = n
        · subst hnn
          exact ⟨AMap.find_erase_self _ _, by simp⟩
        · rw [show usersOf _ n = _ from hother n hnn] at hn
          rw [AMap.find_erase_ne _ _ _ hnn]
          refine ⟨(h.unused n hn).1, ?_⟩
          intro hmem'
          rw [List.mem_filter] at hmem'
          exact (h.unused n hn).2 ((hasked n hnn).1 hmem'.1)
      · intro n hn
        by_cases hnn : name = n
        · subst hnn; exact absurd hlast hn
        · rw [show usersOf _ n = _ from hother n hnn] at hn
          obtain ⟨x, hx, h1, h2⟩ := h.used n hn
          refine ⟨x, by rw [AMap.find_erase_ne _ _ _ hnn]; exact hx, ?_, ?_⟩
          · rw [h1]
            show _ = ((usersOf (sp.users.filter (fun q => q.1 != hd)) n).length : Int)
            rw [hother n hnn]
          · rw [h2]
            have hnn' : n ≠ name := fun e => hnn e.symm
            have := hasked n hnn
            simp only [List.mem_filter, bne_iff_ne, ne_eq, hnn', not_false_eq_true, and_true, this]
      · intro k n x hk
        rw [AMap.find_erase] at hk
        by_cases hkk : hd = k
        · rw [if_pos hkk] at hk; cases hk
        · rw [if_neg hkk] at hk
          obtain ⟨y, hy, hxy⟩ := h.copies k n x hk
          have hnn : name ≠ n := by
            rintro rfl
            have hm2 : (k, name) ∈ usersOf (sp.users.filter (fun q => q.1 != hd)) name := by
              unfold usersOf
              rw [List.mem_filter, List.mem_filter]
              refine ⟨⟨?_, ?_⟩, ?_⟩
              · rw [h.users]
                exact List.mem_map.2 ⟨(k, (name, x)), AMap.mem_of_find hk, rfl⟩
              · have : k ≠ hd := fun e => hkk e.symm
                simp [this]
              · simp
            rw [hlast] at hm2; cases hm2
          exact ⟨y, by rw [AMap.find_erase_ne _ _ _ hnn]; exact hy, hxy⟩
      · intro n x hx
        rw [AMap.find_erase] at hx
        by_cases hnn : name = n
        · rw [if_pos hnn] at hx; cases hx
        · rw [if_neg hnn] at hx
          obtain ⟨a, b, c⟩ := h.addrs n x hx
          have hne' := h.apart n name x i hx hi (fun e => hnn e.symm)
          refine ⟨?_, b, ?_⟩
          · rw [List.mem_filter]; exact ⟨a, by simp [hne']⟩
          · rw [List.mem_append, List.mem_singleton]
            rintro (hc | hc)
            · exact c hc
            · exact hne' hc
      · intro n m x y hx hy hnm
        rw [AMap.find_erase] at hx hy
        by_cases hnn : name = n
        · rw [if_pos hnn] at hx; cases hx
        · rw [if_neg hnn] at hx
          by_cases hmm : name = m
          · rw [if_pos hmm] at hy; cases hy
          · rw [if_neg hmm] at hy
            exact h.apart n m x y hx hy hnm
      · rw [List.nodup_append]
        refine ⟨h.once, by simp, ?_⟩
        intro a ha b hb hab
        rw [List.mem_singleton] at hb
        exact (h.addrs name i hi).2.2 (by rw [hab, hb] at ha; exact ha)
      · intro a ha
        rw [List.mem_append, List.mem_singleton] at ha
        rcases ha with ha | ha
        · exact h.old a ha
        · rw [ha]; exact (h.addrs name i hi).2.1
      · show st.releases ++ _ = sp.rel ++ _
        rw [h.rel, hrm']
    · have hr1 : ¬ i.refcnt - 1 < 1 := by
        have : 0 < (usersOf (sp.users.filter (fun q => q.1 != hd)) name).length :=
          List.length_pos_iff.2 hlast
        omega
      rw [if_neg hr1, if_neg hlast]
      refine { users := husers, nodup := hnd, unused := ?_, used := ?_, copies := ?_, addrs := ?_,
               apart := ?_, once := h.once, old := h.old, rel := h.rel }
      · intro n hn
        by_cases hnn : name = n
        · subst hnn; exact absurd hn hlast
        · rw [show usersOf _ n = _ from hother n hnn] at hn
          rw [AMap.find_set_ne _ _ _ _ hnn]
          exact ⟨(h.unused n hn).1, fun hm => (h.unused n hn).2 ((hasked n hnn).1 hm)⟩
      · intro n hn
        by_cases hnn : name = n
        · subst hnn
          refine ⟨_, AMap.find_set_self _ _ _, ?_, hrm'⟩
          show i.refcnt - 1 = ((usersOf (sp.users.filter (fun q => q.1 != hd)) name).length : Int)
          omega
        · rw [show usersOf _ n = _ from hother n hnn] at hn
          obtain ⟨x, hx, h1, h2⟩ := h.used n hn
          refine ⟨x, by rw [AMap.find_set_ne _ _ _ _ hnn]; exact hx, ?_, ?_⟩
          · rw [h1]
            show _ = ((usersOf (sp.users.filter (fun q => q.1 != hd)) n).length : Int)
            rw [hother n hnn]
          · rw [h2]
            have := hasked n hnn
            simp only [this]
      · intro k n x hk
        rw [AMap.find_erase] at hk
        by_cases hkk : hd = k
        · rw [if_pos hkk] at hk; cases hk
        · rw [if_neg hkk] at hk
          obtain ⟨y, hy, hxy⟩ := h.copies k n x hk
          by_cases hnn : name = n
          · subst hnn
            rw [hi] at hy
            simp only [Option.some.injEq] at hy
            subst hy
            exact ⟨_, AMap.find_set_self _ _ _, hxy⟩
          · exact ⟨y, by rw [AMap.find_set_ne _ _ _ _ hnn]; exact hy, hxy⟩
      · intro n x hx
        rw [AMap.find_set] at hx
        by_cases hnn : name = n
        · rw [if_pos hnn] at hx
          simp only [Option.some.injEq] at hx
          subst hx
          exact h.addrs name i hi
        · rw [if_neg hnn] at hx
          exact h.addrs n x hx
      · intro n m x y hx hy hnm
        rw [AMap.find_set] at hx hy
        by_cases hnn : name = n
        · rw [if_pos hnn] at hx
          rw [if_neg (by rintro rfl; exact hnm hnn.symm)] at hy
          simp only [Option.some.injEq] at hx
          subst hx
          exact h.apart name m i y hi hy (by rintro rfl; exact hnm hnn.symm)
        · rw [if_neg hnn] at hx
          by_cases hmm : name = m
          · rw [if_pos hmm] at hy
            simp only [Option.some.injEq] at hy
            subst hy
            exact h.apart n name x i hx hi (fun e => hnn e.symm)
          · rw [if_neg hmm] at hy
            exact h.apart n m x y hx hy hnm

/-- Writing back what is already there. -/
theorem set_find {V : Type} (m : AMap Nat V) (k : Nat) (v : V) (h : m.find k = some v) :
    m.set k v = m := by
  induction m with
  | nil => cases h
  | cons p m ih =>
    obtain ⟨a, b⟩ := p
    rw [AMap.find_cons] at h
    by_cases ha : a = k
    · rw [if_pos ha] at h
      simp only [Option.some.injEq] at h
      subst h
      simp [AMap.set, ha]
    · rw [if_neg ha] at h
      simp [AMap.set, ha, ih h]

theorem check_noop (st : State) (hd len : Nat) (hal : Allowed st (.check hd len)) :
    step st (.check hd len) = st := by
  simp only [step]
  cases hf : st.handles.find hd with
  | none => rfl
  | some p =>
    obtain ⟨n, i⟩ := p
    obtain ⟨he, hlen⟩ := hal n i hf
    have hn : ¬ len > i.size := by omega
    simp only [osCheck, if_neg hn, set_find _ _ _ he, set_find _ _ _ hf]

theorem inv_run (steps : List Step) {st : State} {sp : Sp} (h : Inv st sp)
    (hal : AllAllowed st steps) : Inv (run st steps) (spRun sp steps) := by
  induction steps generalizing st sp with
  | nil => exact h
  | cons a l ih =>
    apply ih _ hal.2
    cases a with
    | «open» hd n len => exact inv_open h hd n len hal.1
    | close hd r => exact inv_close h hd r
    | check hd len => rw [check_noop st hd len hal.1]; exact h

theorem inv_init : Inv {} {} where
  users := rfl
  nodup := by simp
  unused := fun n _ => ⟨rfl, by simp⟩
  used := fun n h => absurd rfl h
  copies := fun h n j hk => by cases hk
  addrs := fun n i hi => by cases hi
  apart := fun n m i j hi => by cases hi
  once := by simp
  old := fun a ha => by cases ha
  rel := rfl

/-- **C21 (part).**  For every sequence of opening and closing by any number of users (sizes not
growing, size checks on current copies): a segment has an entry exactly while somebody uses it; every
user's own pointer is a live mapping; no mapping is unmapped twice; and segments are released exactly
when the last user leaves, with removal from the system iff one of the users asked for it. -/
theorem C21_lifetime_partial (steps : List Step) (hal : AllAllowed {} steps) :
    let st := run {} steps
    let sp := spRun {} steps
    (∀ n, (st.entries.find n).isSome ↔ usersOf sp.users n ≠ []) ∧
    (∀ h n i, st.handles.find h = some (n, i) → i.addr ∈ st.mapped ∧ i.addr ∉ st.unmapped) ∧
    st.unmapped.Nodup ∧ st.releases = sp.rel := by
  have h := inv_run steps inv_init hal
  refine ⟨fun n => ⟨?_, ?_⟩, ?_, h.once, h.rel⟩
  · intro hs hu
    rw [(h.unused n hu).1] at hs
    cases hs
  · intro hu
    obtain ⟨i, hi, _⟩ := h.used n hu
    rw [hi]; rfl
  · intro k n i hk
    obtain ⟨j, hj, hij⟩ := h.copies k n i hk
    rw [hij]
    have := h.addrs n j hj
    exact ⟨this.1, this.2.2⟩

/-- The pool and the publishers open and close like this; a publisher and two users of its segment. -/
def sampleSteps : List Step :=
  [.open 1 7 4, .open 2 7 1, .check 2 2, .close 1 true, .open 3 7 1, .close 2 false, .close 3 false,
   .open 4 7 2, .close 4 false]

example : AllAllowed {} sampleSteps := by
  simp only [sampleSteps, AllAllowed, Allowed, step, addFile, removeFile, osCheck]
  simp [AMap.find, AMap.set, AMap.erase]

example : (run {} sampleSteps).releases = [⟨7, true⟩, ⟨7, false⟩] := by decide +kernel

/-! ## Findings -/

/-- **C21 is violated when a second user needs a larger mapping**: the segment is mapped anew and the
first user's pointer dangles. -/
theorem C21_violated_remap_dangles :
    let st := run {} [.open 1 7 1, .open 2 7 4]
    ∃ i, st.handles.find 1 = some (7, i) ∧ i.addr ∉ st.mapped :=
  ⟨⟨1, false, 0, 1⟩, by decide +kernel, by decide +kernel⟩

/-- **C21 is violated by the size check**: it writes back a private copy with an old use count, so
that a close unmaps the segment under a remaining user. -/
theorem C21_violated_stale_count :
    let st := run {} [.open 1 7 2, .open 2 7 2, .check 1 2, .close 1 false]
    (∃ i, st.handles.find 2 = some (7, i) ∧ i.addr ∉ st.mapped) ∧ st.entries.find 7 = none :=
  ⟨⟨⟨2, false, 0, 2⟩, by decide +kernel, by decide +kernel⟩, by decide +kernel⟩

/-- … or that the segment is never unmapped nor removed although its creator asked for it: the user's
size check happens after the creator's close. -/
theorem C21_violated_leak :
    let st := run {} [.open 1 7 2, .open 2 7 2, .close 1 true, .check 2 2, .close 2 false]
    st.handles = [] ∧ (st.entries.find 7).isSome ∧ st.releases = [] := by decide +kernel

/-- **C21** Whatever the others did: after opening, the user's own mapping is at least as large as asked for, and if
it had to be made or remade for that, it is live. -/
theorem C21_open_is_large_enough (st : State) (h name len : Nat) (hn : st.handles.find h = none) :
    ∃ i, (step st (.open h name len)).handles.find h = some (name, i) ∧ len ≤ i.size ∧
      ((∀ j, st.entries.find name = some j → j.size < len) → i.addr ∈ (step st (.open h name len)).mapped) := by
  simp only [step, hn, addFile]
  cases hf : st.entries.find name with
  | none =>
    exact ⟨{ refcnt := 1, remove := false, addr := st.next, size := len }, by simp [AMap.find_set], Nat.le_refl _,
      fun _ => by simp⟩
  | some j =>
    simp only [osCheck]
    by_cases hl : len > j.size
    · simp only [if_pos hl]
      exact ⟨{ j with refcnt := j.refcnt + 1, addr := st.next, size := len }, by simp [AMap.find_set], Nat.le_refl _,
        fun _ => by simp⟩
    · simp only [if_neg hl]
      exact ⟨{ j with refcnt := j.refcnt + 1 }, by simp [AMap.find_set], by simp only; omega,
        fun hj => absurd (hj j rfl) hl⟩

/-- **C21 (every mapping is accounted for).**  Every address the library ever got for a memory file is mapped, or was
unmapped. -/
theorem C21_mapped_or_unmapped (steps : List Step) :
    ∀ a < (run {} steps).next, a ∈ (run {} steps).mapped ∨ a ∈ (run {} steps).unmapped := by
  have hc : ∀ (st : State) (i : Info) (len : Nat), (∀ a < st.next, a ∈ st.mapped ∨ a ∈ st.unmapped) →
      ∀ a < (osCheck st i len).1.next, a ∈ (osCheck st i len).1.mapped ∨ a ∈ (osCheck st i len).1.unmapped := by
    intro st i len h a
    unfold osCheck
    split
    · intro ha
      simp only at ha ⊢
      by_cases h1 : a = st.next
      · simp [h1]
      · rcases h a (by omega) with h2 | h2
        · by_cases h3 : a = i.addr
          · simp [h3]
          · simp [h2, h3]
        · simp [h2]
    · exact h a
  have hs : ∀ (st : State) (x : Step), (∀ a < st.next, a ∈ st.mapped ∨ a ∈ st.unmapped) →
      ∀ a < (step st x).next, a ∈ (step st x).mapped ∨ a ∈ (step st x).unmapped := by
    intro st x h a
    have hrem : ∀ (st : State), (∀ a < st.next, a ∈ st.mapped ∨ a ∈ st.unmapped) → ∀ name r, ∀ a < (removeFile st name r).next,
        a ∈ (removeFile st name r).mapped ∨ a ∈ (removeFile st name r).unmapped := by
      intro st h name r a
      unfold removeFile
      split
      · exact h a
      · rename_i i _
        dsimp only
        split
        · intro ha
          rcases h a ha with h2 | h2
          · by_cases h3 : a = i.addr
            · simp [h3]
            · simp [h2, h3]
          · simp [h2]
        · exact h a
    cases x with
    | «open» h' name len =>
      simp only [step]
      split
      · exact h a
      · simp only [addFile]
        split
        · intro ha
          simp only at ha ⊢
          by_cases h1 : a = st.next
          · simp [h1]
          · rcases h a (by omega) with h2 | h2
            · simp [h2]
            · simp [h2]
        · exact hc _ _ _ h a
    | close h' r =>
      simp only [step]
      split
      · exact h a
      · exact hrem { st with handles := st.handles.erase h' } h _ _ a
    | check h' len =>
      simp only [step]
      repeat' split
      all_goals first
        | exact h a
        | exact hc _ _ _ h a
  have key : ∀ (l : List Step) (st : State), (∀ a < st.next, a ∈ st.mapped ∨ a ∈ st.unmapped) →
      ∀ a < (run st l).next, a ∈ (run st l).mapped ∨ a ∈ (run st l).unmapped := by
    intro l
    induction l with
    | nil => intro st h; exact h
    | cons x l ih => intro st h; exact ih _ (hs st x h)
  exact key steps {} (by intro a h; cases h)

/-- A remapped file: both its addresses are accounted for. -/
example : (run {} [.open 1 5 10, .open 2 5 20]).next = 2 ∧ (run {} [.open 1 5 10, .open 2 5 20]).mapped = [1] ∧
    (run {} [.open 1 5 10, .open 2 5 20]).unmapped = [0] := by decide

end Ecal.Shm.Db
