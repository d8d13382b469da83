import Verif.Msg.DynPub

/-!
# C133: a dynamic publisher announces and sends its message, and lives as long as its object
-/

namespace Ecal.Msg.DynPub

/-! ## Ownership -/

def own (s : St) (o : Nat) : Option Nat := (s.objs o).bind (·.writer)

structure Inv (s : St) : Prop where
  reg    : ∀ o w : Nat, own s o = some w → (s.gate w).isSome = true
  owned  : ∀ w : Nat, (s.gate w).isSome = true → ∃ o : Nat, own s o = some w
  uniq   : ∀ o o' w : Nat, own s o = some w → own s o' = some w → o = o'
  fresh  : ∀ w : Nat, (s.gate w).isSome = true → w < s.next
  flag   : ∀ (o : Nat) (ob : Obj), s.objs o = some ob → (ob.created = true ↔ ob.writer.isSome = true)
  msg    : ∀ (o : Nat) (ob : Obj) (m : Nat), s.objs o = some ob → ob.msg = some m → (s.msgs m).isSome = true

theorem own_set (s : St) (o k : Nat) (ob : Option Obj) : own { s with objs := set s.objs o ob } k = if k = o then ob.bind (·.writer) else own s k := by
  unfold own set
  by_cases h : k = o <;> simp [h]

theorem inv_init : Inv {} := by
  constructor <;> simp [own]

/-- Changes that keep owners and the set of registered writers. -/
theorem inv_same {s s' : St} (h : Inv s) (ho : ∀ o : Nat, own s' o = own s o) (hg : ∀ w : Nat, (s'.gate w).isSome = (s.gate w).isSome)
    (hn : s'.next = s.next) (hf : ∀ (o : Nat) (ob : Obj), s'.objs o = some ob → (ob.created = true ↔ ob.writer.isSome = true))
    (hm : ∀ (o : Nat) (ob : Obj) (m : Nat), s'.objs o = some ob → ob.msg = some m → (s'.msgs m).isSome = true) : Inv s' where
  reg o w h1 := by rw [hg]; exact h.reg o w (by rw [← ho]; exact h1)
  owned w h1 := by
    rw [hg] at h1
    obtain ⟨o, h2⟩ := h.owned w h1
    exact ⟨o, by rw [ho]; exact h2⟩
  uniq o o' w h1 h2 := h.uniq o o' w (by rw [← ho]; exact h1) (by rw [← ho]; exact h2)
  fresh w h1 := by rw [hn]; exact h.fresh w (by rw [← hg]; exact h1)
  flag := hf
  msg := hm

theorem inv_create {s : St} (h : Inv s) (o : Nat) (ob : Obj) (t : Bytes) (info : Option Nat)
    (hfree : ∀ w : Nat, ob.writer = some w → own s o = some w) (hkeep : ∀ w : Nat, own s o = some w → ob.writer = some w)
    (hfl : ob.created = true ↔ ob.writer.isSome = true) (hmsg : ∀ m : Nat, ob.msg = some m → (s.msgs m).isSome = true) :
    Inv (create s o ob t info) := by
  have hsame : Inv { s with objs := set s.objs o (some ob) } := by
    refine inv_same h (fun k => ?_) (fun _ => rfl) rfl (fun k b hk => ?_) (fun k b m hk hm => ?_)
    · rw [own_set]
      by_cases hk : k = o
      · rw [if_pos hk, hk]
        simp only [Option.bind_some]
        cases hw : ob.writer with
        | some w => exact (hfree w hw).symm
        | none =>
          cases hw' : own s o with
          | none => rfl
          | some w => rw [hkeep w hw'] at hw; cases hw
      · rw [if_neg hk]
    · simp only [set] at hk
      by_cases hko : k = o
      · rw [if_pos hko] at hk; cases hk; exact hfl
      · rw [if_neg hko] at hk; exact h.flag k b hk
    · simp only [set] at hk
      by_cases hko : k = o
      · rw [if_pos hko] at hk; cases hk; exact hmsg m hm
      · rw [if_neg hko] at hk; exact h.msg k b m hk hm
  unfold create
  by_cases hc : ob.created = true
  · rw [if_pos hc]; exact hsame
  · rw [if_neg hc]
    by_cases ht : t = []
    · rw [if_pos ht]; exact hsame
    · rw [if_neg ht]
      have hnw : ob.writer = none := by
        cases hw : ob.writer with
        | none => rfl
        | some w => exact absurd (hfl.2 (by rw [hw]; rfl)) hc
      have hno : own s o = none := by
        cases hw : own s o with
        | none => rfl
        | some w => rw [hkeep w hw] at hnw; cases hnw
      have hown : ∀ k : Nat, own { s with objs := set s.objs o (some { ob with created := true, writer := some s.next }), gate := set s.gate s.next (some { topic := t, info := info }), next := s.next + 1 } k =
          if k = o then some s.next else own s k := by
        intro k
        unfold own set
        by_cases hk : k = o <;> simp [hk]
      have hlt : ∀ k w : Nat, own s k = some w → w < s.next := fun k w hw => h.fresh w (h.reg k w hw)
      refine ⟨fun k w hw => ?_, fun w hw => ?_, fun k k' w hk hk' => ?_, fun w hw => ?_, fun k b hk => ?_, fun k b m hk hm => ?_⟩
      · rw [hown] at hw
        simp only [set]
        by_cases hk : k = o
        · rw [if_pos hk] at hw; cases hw; simp
        · rw [if_neg hk] at hw
          by_cases hwn : w = s.next
          · simp [hwn]
          · rw [if_neg hwn]; exact h.reg k w hw
      · simp only [set] at hw
        by_cases hwn : w = s.next
        · exact ⟨o, by rw [hown, if_pos rfl, hwn]⟩
        · rw [if_neg hwn] at hw
          obtain ⟨k, hk⟩ := h.owned w hw
          refine ⟨k, ?_⟩
          rw [hown, if_neg (fun e => by rw [e, hno] at hk; cases hk)]
          exact hk
      · rw [hown] at hk hk'
        by_cases h1 : k = o <;> by_cases h2 : k' = o
        · rw [h1, h2]
        · rw [if_pos h1] at hk; rw [if_neg h2] at hk'; cases hk; exact absurd (hlt _ _ hk') (Nat.lt_irrefl _)
        · rw [if_neg h1] at hk; rw [if_pos h2] at hk'; cases hk'; exact absurd (hlt _ _ hk) (Nat.lt_irrefl _)
        · rw [if_neg h1] at hk; rw [if_neg h2] at hk'; exact h.uniq k k' w hk hk'
      · simp only [set] at hw
        show w < s.next + 1
        by_cases hwn : w = s.next
        · omega
        · rw [if_neg hwn] at hw; have := h.fresh w hw; omega
      · simp only [set] at hk
        by_cases hko : k = o
        · rw [if_pos hko] at hk; cases hk; simp
        · rw [if_neg hko] at hk; exact h.flag k b hk
      · simp only [set] at hk
        by_cases hko : k = o
        · rw [if_pos hko] at hk; cases hk; exact hmsg m hm
        · rw [if_neg hko] at hk; exact h.msg k b m hk hm

/-- What `Destroy` does: afterwards the object owns nothing. -/
theorem destroy_spec {s : St} (h : Inv s) (o : Nat) (ob : Obj) (ho : s.objs o = some ob) :
    destroy s o ob = { s with objs := set s.objs o (some { ob with created := false, writer := none })
                              gate := fun w => if ob.writer = some w then none else s.gate w } := by
  have hf := h.flag o ob ho
  unfold destroy
  by_cases hc : ob.created = true
  · obtain ⟨w, hw⟩ := Option.isSome_iff_exists.1 (hf.1 hc)
    rw [if_neg (by simp [hc])]
    simp only [hw]
    congr 1
    funext i
    simp only [set, Option.some.injEq]
    by_cases hi : i = w
    · simp [hi]
    · have : ¬ w = i := fun e => hi e.symm
      simp [hi, this]
  · have hw : ob.writer = none := by
      cases hw : ob.writer with
      | none => rfl
      | some w => exact absurd (hf.2 (by rw [hw]; rfl)) hc
    have hc' : ob.created = false := by simpa using hc
    rw [if_pos (by simp [hc'])]
    have : ({ ob with created := false, writer := none } : Obj) = ob := by
      cases ob; simp_all
    rw [this]
    have hset : set s.objs o (some ob) = s.objs := by
      funext i
      simp only [set]
      by_cases hi : i = o
      · rw [if_pos hi, hi, ho]
      · rw [if_neg hi]
    rw [hset]
    simp [hw]

theorem inv_destroy {s : St} (h : Inv s) (o : Nat) (ob : Obj) (ho : s.objs o = some ob) : Inv (destroy s o ob) := by
  rw [destroy_spec h o ob ho]
  have hoo : own s o = ob.writer := by simp [own, ho]
  have hown : ∀ k : Nat, own { s with objs := set s.objs o (some { ob with created := false, writer := none }), gate := fun w => if ob.writer = some w then none else s.gate w } k = if k = o then none else own s k := by
    intro k
    unfold own set
    by_cases hk : k = o <;> simp [hk]
  refine ⟨fun k w hw => ?_, fun w hw => ?_, fun k k' w hk hk' => ?_, fun w hw => ?_, fun k b hk => ?_, fun k b m hk hm => ?_⟩
  · rw [hown] at hw
    by_cases hk : k = o
    · rw [if_pos hk] at hw; cases hw
    · rw [if_neg hk] at hw
      show (if ob.writer = some w then none else s.gate w).isSome = true
      rw [if_neg (fun e => hk (h.uniq k o w hw (by rw [hoo, e])))]
      exact h.reg k w hw
  · have hw' : (if ob.writer = some w then none else s.gate w).isSome = true := hw
    by_cases he : ob.writer = some w
    · rw [if_pos he] at hw'; cases hw'
    · rw [if_neg he] at hw'
      obtain ⟨k, hk⟩ := h.owned w hw'
      refine ⟨k, ?_⟩
      rw [hown, if_neg (fun e => he (by rw [← hoo, ← e]; exact hk))]
      exact hk
  · rw [hown] at hk hk'
    by_cases h1 : k = o
    · rw [if_pos h1] at hk; cases hk
    · by_cases h2 : k' = o
      · rw [if_pos h2] at hk'; cases hk'
      · rw [if_neg h1] at hk; rw [if_neg h2] at hk'; exact h.uniq k k' w hk hk'
  · have hw' : (if ob.writer = some w then none else s.gate w).isSome = true := hw
    by_cases he : ob.writer = some w
    · rw [if_pos he] at hw'; cases hw'
    · rw [if_neg he] at hw'; exact h.fresh w hw'
  · simp only [set] at hk
    by_cases hko : k = o
    · rw [if_pos hko] at hk; cases hk; simp
    · rw [if_neg hko] at hk; exact h.flag k b hk
  · simp only [set] at hk
    by_cases hko : k = o
    · rw [if_pos hko] at hk; cases hk; exact h.msg o ob m ho hm
    · rw [if_neg hko] at hk; exact h.msg k b m hk hm

/-- Handing over to an object that owns nothing. -/
theorem inv_move {s : St} (h : Inv s) (d k : Nat) (ob : Obj) (hd : own s d = none) (hdk : d ≠ k) (hk : s.objs k = some ob) :
    Inv { s with objs := set (set s.objs k (some { id := ob.id })) d (some ob) } := by
  have hok : own s k = ob.writer := by simp [own, hk]
  have hkd : ¬ k = d := fun e => hdk e.symm
  have hown : ∀ i : Nat, own { s with objs := set (set s.objs k (some { id := ob.id })) d (some ob) } i =
      if i = d then own s k else if i = k then none else own s i := by
    intro i
    rw [hok]
    unfold own set
    by_cases h1 : i = d
    · simp [h1]
    · by_cases h2 : i = k <;> simp [h1, h2, hkd]
  refine ⟨fun i w hw => ?_, fun w hw => ?_, fun i i' w hi hi' => ?_, fun w hw => h.fresh w hw, fun i b hi => ?_, fun i b m hi hm => ?_⟩
  · rw [hown] at hw
    by_cases h1 : i = d
    · rw [if_pos h1] at hw; exact h.reg k w hw
    · rw [if_neg h1] at hw
      by_cases h2 : i = k
      · rw [if_pos h2] at hw; cases hw
      · rw [if_neg h2] at hw; exact h.reg i w hw
  · obtain ⟨i, hi⟩ := h.owned w hw
    by_cases h2 : i = k
    · exact ⟨d, by rw [hown, if_pos rfl, ← h2]; exact hi⟩
    · refine ⟨i, ?_⟩
      rw [hown, if_neg (fun e => by rw [e, hd] at hi; cases hi), if_neg h2]
      exact hi
  · rw [hown] at hi hi'
    by_cases h1 : i = d <;> by_cases h1' : i' = d
    · rw [h1, h1']
    · rw [if_pos h1] at hi; rw [if_neg h1'] at hi'
      by_cases h2 : i' = k
      · rw [if_pos h2] at hi'; cases hi'
      · rw [if_neg h2] at hi'; exact absurd (h.uniq i' k w hi' hi) h2
    · rw [if_neg h1] at hi; rw [if_pos h1'] at hi'
      by_cases h2 : i = k
      · rw [if_pos h2] at hi; cases hi
      · rw [if_neg h2] at hi; exact absurd (h.uniq i k w hi hi') h2
    · rw [if_neg h1] at hi; rw [if_neg h1'] at hi'
      by_cases h2 : i = k
      · rw [if_pos h2] at hi; cases hi
      · by_cases h2' : i' = k
        · rw [if_pos h2'] at hi'; cases hi'
        · rw [if_neg h2] at hi; rw [if_neg h2'] at hi'; exact h.uniq i i' w hi hi'
  · simp only [set] at hi
    by_cases h1 : i = d
    · rw [if_pos h1] at hi; cases hi; exact h.flag k ob hk
    · rw [if_neg h1] at hi
      by_cases h2 : i = k
      · rw [if_pos h2] at hi; cases hi; simp
      · rw [if_neg h2] at hi; exact h.flag i b hi
  · simp only [set] at hi
    by_cases h1 : i = d
    · rw [if_pos h1] at hi; cases hi; exact h.msg k ob m hk hm
    · rw [if_neg h1] at hi
      by_cases h2 : i = k
      · rw [if_pos h2] at hi; cases hi; cases hm
      · rw [if_neg h2] at hi; exact h.msg i b m hi hm

theorem inv_ub {s : St} (h : Inv s) : Inv { s with ub := true } := inv_same h (fun _ => rfl) (fun _ => rfl) rfl h.flag h.msg

/-- Writers may change as long as they stay. -/
theorem inv_gate {s : St} (h : Inv s) (w : Nat) (x y : W) (hx : s.gate w = some x) (l : List Sample) : Inv { s with gate := set s.gate w (some y), sent := l } := by
  refine inv_same h (fun _ => rfl) (fun i => ?_) rfl h.flag h.msg
  simp only [set]
  by_cases hi : i = w
  · rw [if_pos hi, hi, hx]; rfl
  · rw [if_neg hi]

theorem inv_msgs {s : St} (h : Inv s) (m : Nat) (x : Msg) : Inv { s with msgs := set s.msgs m (some x) } := by
  refine inv_same h (fun _ => rfl) (fun i => rfl) rfl h.flag (fun o ob k ho hk => ?_)
  simp only [set]
  by_cases hi : k = m
  · rw [if_pos hi]; rfl
  · rw [if_neg hi]; exact h.msg o ob k ho hk

theorem inv_step (known : Nat → Bool) {s : St} (h : Inv s) (op : Op) : Inv (step known s op) := by
  unfold step
  by_cases hu : s.ub = true
  · rw [if_pos hu]; exact h
  · rw [if_neg hu]
    cases op with
    | newMsg m ty v =>
      show Inv (if (s.msgs m).isSome = true then s else _)
      by_cases hm : (s.msgs m).isSome = true
      · rw [if_pos hm]; exact h
      · rw [if_neg hm]; exact inv_msgs h _ _
    | edit m v =>
      show Inv (match s.msgs m with | none => s | some x => _)
      cases hm : s.msgs m with
      | none => exact h
      | some x => exact inv_msgs h _ _
    | make o t m =>
      show Inv (if (s.objs o).isSome = true ∨ m.any (fun k => (s.msgs k).isNone) = true then s else _)
      by_cases hm : (s.objs o).isSome = true ∨ m.any (fun k => (s.msgs k).isNone) = true
      · rw [if_pos hm]; exact h
      · rw [if_neg hm]
        rw [not_or] at hm
        have hn : s.objs o = none := by simpa using hm.1
        refine inv_create h _ _ _ _ (fun w hw => by cases hw) (fun w hw => by simp [own, hn] at hw) (by simp) (fun k hk => ?_)
        have hk' : m = some k := hk
        have := hm.2
        rw [hk'] at this
        simpa [Option.isSome_iff_ne_none] using this
    | byName o t ty m =>
      show Inv (if (s.objs o).isSome = true ∨ (s.msgs m).isSome = true ∨ known ty = false then s else _)
      by_cases hm : (s.objs o).isSome = true ∨ (s.msgs m).isSome = true ∨ known ty = false
      · rw [if_pos hm]; exact h
      · rw [if_neg hm]
        rw [not_or] at hm
        have hn : s.objs o = none := by simpa using hm.1
        refine inv_create (inv_msgs h _ _) _ _ _ _ (fun w hw => by cases hw) (fun w hw => by simp [own, hn] at hw) (by simp) (fun k hk => ?_)
        have hk' : m = k := Option.some.inj hk
        simp [set, hk']
    | moveNew d k =>
      show Inv (if (s.objs d).isSome = true then s else match s.objs k with | none => s | some ob => _)
      by_cases hm : (s.objs d).isSome = true
      · rw [if_pos hm]; exact h
      · rw [if_neg hm]
        have hn : s.objs d = none := by simpa using hm
        cases hk : s.objs k with
        | none => exact h
        | some ob => exact inv_move h d k ob (by simp [own, hn]) (fun e => by rw [e, hk] at hn; cases hn) hk
    | moveTo d k =>
      simp only
      cases hd : s.objs d with
      | none => exact h
      | some od =>
        cases hk : s.objs k with
        | none => exact h
        | some ok =>
          simp only
          by_cases hdk : d = k
          · rw [if_pos hdk]; exact inv_destroy h d od hd
          · rw [if_neg hdk]
            have hi := inv_destroy h d od hd
            have hs := destroy_spec h d od hd
            refine inv_move hi d k ok ?_ hdk ?_
            · rw [hs]; simp [own, set]
            · rw [hs]
              have : ¬ k = d := fun e => hdk e.symm
              simp [set, this, hk]
    | create o t info =>
      simp only
      cases ho : s.objs o with
      | none => exact h
      | some ob =>
        exact inv_create h o ob t info (fun w hw => by simp [own, ho, hw]) (fun w hw => by simpa [own, ho] using hw) (h.flag o ob ho)
          (fun m hm => h.msg o ob m ho hm)
    | destroy o =>
      simp only
      cases ho : s.objs o with
      | none => exact h
      | some ob => exact inv_destroy h o ob ho
    | delete o =>
      simp only
      cases ho : s.objs o with
      | none => exact h
      | some ob =>
        have hi := inv_destroy h o ob ho
        have hs := destroy_spec h o ob ho
        have hno : own (destroy s o ob) o = none := by rw [hs]; simp [own, set]
        refine inv_same hi (fun k => ?_) (fun _ => rfl) rfl (fun k b hk => ?_) (fun k b m hk hm => ?_)
        · rw [own_set]
          by_cases hk : k = o
          · rw [if_pos hk, hk, hno]; rfl
          · rw [if_neg hk]
        · simp only [set] at hk
          by_cases hko : k = o
          · rw [if_pos hko] at hk; cases hk
          · rw [if_neg hko] at hk; exact hi.flag k b hk
        · simp only [set] at hk
          by_cases hko : k = o
          · rw [if_pos hko] at hk; cases hk
          · rw [if_neg hko] at hk; exact hi.msg k b m hk hm
    | setId o n =>
      simp only
      cases ho : s.objs o with
      | none => exact h
      | some ob =>
        refine inv_same h (fun k => ?_) (fun _ => rfl) rfl (fun k b hk => ?_) (fun k b m hk hm => ?_)
        · rw [own_set]
          by_cases hk : k = o
          · rw [if_pos hk, hk]; simp [own, ho]
          · rw [if_neg hk]
        · simp only [set] at hk
          by_cases hko : k = o
          · rw [if_pos hko] at hk; cases hk; exact h.flag o ob ho
          · rw [if_neg hko] at hk; exact h.flag k b hk
        · simp only [set] at hk
          by_cases hko : k = o
          · rw [if_pos hko] at hk; cases hk; exact h.msg o ob m ho hm
          · rw [if_neg hko] at hk; exact h.msg k b m hk hm
    | setInfo o info =>
      simp only
      cases ho : s.objs o with
      | none => exact h
      | some ob =>
        simp only
        cases hw : ob.writer with
        | none => exact h
        | some w =>
          simp only
          cases hg : s.gate w with
          | none => exact h
          | some x => exact inv_gate h w x _ hg _
    | send o sub =>
      simp only
      cases ho : s.objs o with
      | none => exact h
      | some ob =>
        simp only
        cases hm : ob.msg with
        | none => exact inv_ub h
        | some m =>
          simp only
          cases hw : ob.writer with
          | none => exact h
          | some w =>
            cases hx : s.msgs m with
            | none => exact h
            | some x =>
              simp only
              cases hg : s.gate w with
              | none => exact h
              | some y => exact inv_gate h w y _ hg _

theorem inv_run (known : Nat → Bool) (h : List Op) : ∀ s : St, Inv s → Inv (run known s h) := by
  induction h with
  | nil => intro s hs; exact hs
  | cons op h ih => intro s hs; exact ih _ (inv_step known hs op)

theorem reach (known : Nat → Bool) (h : List Op) : Inv (run known {} h) := inv_run known h {} inv_init

theorem run_append (known : Nat → Bool) (a b : List Op) : ∀ s : St, run known s (a ++ b) = run known (run known s a) b := by
  induction a with
  | nil => intro s; rfl
  | cons x a ih => intro s; exact ih _

theorem step_ub (known : Nat → Bool) (s : St) (op : Op) (h : s.ub = true) : step known s op = s := by
  unfold step
  rw [if_pos h]

theorem run_ub (known : Nat → Bool) (h : List Op) (s : St) (hu : s.ub = true) : run known s h = s := by
  induction h with
  | nil => rfl
  | cons op h ih => simp only [run, step_ub known s op hu, ih]

/-- The object is moved from or to, destroyed or deleted by the call. -/
def touches (o : Nat) : Op → Prop
  | .moveNew _ k => k = o
  | .moveTo d k => d = o ∨ k = o
  | .destroy k => k = o
  | .delete k => k = o
  | _ => False

theorem create_other (s : St) (o k : Nat) (ob : Obj) (t : Bytes) (info : Option Nat) (hk : k ≠ o) : (create s o ob t info).objs k = s.objs k := by
  unfold create
  by_cases h1 : ob.created = true
  · rw [if_pos h1]; simp [set, hk]
  · rw [if_neg h1]
    by_cases h2 : t = []
    · rw [if_pos h2]; simp [set, hk]
    · rw [if_neg h2]; simp [set, hk]

theorem create_gate (s : St) (o w : Nat) (ob : Obj) (t : Bytes) (info : Option Nat) (hw : w < s.next) : (create s o ob t info).gate w = s.gate w := by
  unfold create
  have : ¬ w = s.next := by omega
  by_cases h1 : ob.created = true
  · rw [if_pos h1]
  · rw [if_neg h1]
    by_cases h2 : t = []
    · rw [if_pos h2]
    · rw [if_neg h2]; simp [set, this]

theorem create_msgs (s : St) (o : Nat) (ob : Obj) (t : Bytes) (info : Option Nat) : (create s o ob t info).msgs = s.msgs := by
  unfold create
  by_cases h1 : ob.created = true
  · rw [if_pos h1]
  · rw [if_neg h1]
    by_cases h2 : t = []
    · rw [if_pos h2]
    · rw [if_neg h2]

theorem create_ub (s : St) (o : Nat) (ob : Obj) (t : Bytes) (info : Option Nat) : (create s o ob t info).ub = s.ub := by
  unfold create
  by_cases h1 : ob.created = true
  · rw [if_pos h1]
  · rw [if_neg h1]
    by_cases h2 : t = []
    · rw [if_pos h2]
    · rw [if_neg h2]

/-- What a call that does not touch a publisher object leaves of it. -/
theorem keep_step (known : Nat → Bool) {s : St} (h : Inv s) (op : Op) (o w : Nat) (ob : Obj) (y : W) (ho : s.objs o = some ob) (hw : ob.writer = some w)
    (hy : s.gate w = some y) (ht : ¬ touches o op) :
    ∃ (ob' : Obj) (y' : W), (step known s op).objs o = some ob' ∧ ob'.writer = some w ∧ ob'.msg = ob.msg ∧ (step known s op).gate w = some y' ∧
      y'.topic = y.topic ∧ ((∀ n : Int, op ≠ .setId o n) → ob'.id = ob.id) ∧ ((∀ i : Option Nat, op ≠ .setInfo o i) → y'.info = y.info) := by
  have same : ∀ s' : St, s'.objs o = some ob → s'.gate w = some y → ∃ (ob' : Obj) (y' : W), s'.objs o = some ob' ∧ ob'.writer = some w ∧ ob'.msg = ob.msg ∧
      s'.gate w = some y' ∧ y'.topic = y.topic ∧ ((∀ n : Int, op ≠ .setId o n) → ob'.id = ob.id) ∧ ((∀ i : Option Nat, op ≠ .setInfo o i) → y'.info = y.info) :=
    fun s' h1 h2 => ⟨ob, y, h1, hw, rfl, h2, rfl, fun _ => rfl, fun _ => rfl⟩
  have hoo : own s o = some w := by simp [own, ho, hw]
  have hlt : w < s.next := h.fresh w (by rw [hy]; rfl)
  have hother : ∀ (k : Nat) (b : Obj), s.objs k = some b → k ≠ o → b.writer ≠ some w := fun k b hk hne e =>
    hne (h.uniq k o w (by simp [own, hk, e]) hoo)
  unfold step
  by_cases hu : s.ub = true
  · rw [if_pos hu]; exact same s ho hy
  · rw [if_neg hu]
    cases op with
    | newMsg m ty v =>
      simp only
      by_cases hm : (s.msgs m).isSome = true
      · rw [if_pos hm]; exact same s ho hy
      · rw [if_neg hm]; exact same _ ho hy
    | edit m v =>
      simp only
      cases hm : s.msgs m with
      | none => exact same s ho hy
      | some x => exact same _ ho hy
    | make k t m =>
      simp only
      by_cases hm : (s.objs k).isSome = true ∨ m.any (fun k => (s.msgs k).isNone) = true
      · rw [if_pos hm]; exact same s ho hy
      · rw [if_neg hm]
        rw [not_or] at hm
        have hne : o ≠ k := fun e => hm.1 (by rw [← e, ho]; rfl)
        exact same _ (by rw [create_other _ _ _ _ _ _ hne]; exact ho) (by rw [create_gate _ _ _ _ _ _ hlt]; exact hy)
    | byName k t ty m =>
      simp only
      by_cases hm : (s.objs k).isSome = true ∨ (s.msgs m).isSome = true ∨ known ty = false
      · rw [if_pos hm]; exact same s ho hy
      · rw [if_neg hm]
        rw [not_or] at hm
        have hne : o ≠ k := fun e => hm.1 (by rw [← e, ho]; rfl)
        exact same _ (by rw [create_other _ _ _ _ _ _ hne]; exact ho) (by rw [create_gate]; exact hy; exact hlt)
    | moveNew d k =>
      simp only
      by_cases hm : (s.objs d).isSome = true
      · rw [if_pos hm]; exact same s ho hy
      · rw [if_neg hm]
        cases hk : s.objs k with
        | none => exact same s ho hy
        | some b =>
          have h1 : o ≠ d := fun e => hm (by rw [← e, ho]; rfl)
          have h2 : o ≠ k := fun e => ht e.symm
          exact same _ (by simp [set, h1, h2, ho]) hy
    | moveTo d k =>
      simp only
      have h1 : o ≠ d := fun e => ht (Or.inl e.symm)
      have h2 : o ≠ k := fun e => ht (Or.inr e.symm)
      cases hd : s.objs d with
      | none => exact same s ho hy
      | some od =>
        cases hk : s.objs k with
        | none => exact same s ho hy
        | some ok =>
          simp only
          rw [destroy_spec h d od hd]
          have hg : (if od.writer = some w then none else s.gate w) = some y := by rw [if_neg (hother d od hd (fun e => h1 e.symm))]; exact hy
          by_cases hdk : d = k
          · rw [if_pos hdk]; exact same _ (by simp [set, h1, ho]) hg
          · rw [if_neg hdk]; exact same _ (by simp [set, h1, h2, ho]) hg
    | create k t info =>
      simp only
      cases hk : s.objs k with
      | none => exact same s ho hy
      | some b =>
        simp only
        refine same _ ?_ (by rw [create_gate _ _ _ _ _ _ hlt]; exact hy)
        by_cases hne : o = k
        · subst hne
          rw [ho] at hk
          cases hk
          unfold create
          rw [if_pos ((h.flag o ob ho).2 (by rw [hw]; rfl))]
          simp [set]
        · rw [create_other _ _ _ _ _ _ hne]; exact ho
    | destroy k =>
      simp only
      have h1 : o ≠ k := fun e => ht e.symm
      cases hk : s.objs k with
      | none => exact same s ho hy
      | some b =>
        simp only
        rw [destroy_spec h k b hk]
        exact same _ (by simp [set, h1, ho]) (show (if b.writer = some w then none else s.gate w) = some y by
          rw [if_neg (hother k b hk (fun e => h1 e.symm))]; exact hy)
    | delete k =>
      simp only
      have h1 : o ≠ k := fun e => ht e.symm
      cases hk : s.objs k with
      | none => exact same s ho hy
      | some b =>
        simp only
        rw [destroy_spec h k b hk]
        exact ⟨ob, y, by simp [set, h1, ho], hw, rfl, show (if b.writer = some w then none else s.gate w) = some y by
          rw [if_neg (hother k b hk (fun e => h1 e.symm))]; exact hy, rfl, fun _ => rfl, fun _ => rfl⟩
    | setId k n =>
      simp only
      cases hk : s.objs k with
      | none => exact same s ho hy
      | some b =>
        simp only
        by_cases hne : o = k
        · subst hne
          rw [ho] at hk
          cases hk
          exact ⟨{ ob with id := n }, y, by simp [set], hw, rfl, hy, rfl, fun hn => absurd rfl (hn n), fun _ => rfl⟩
        · exact ⟨ob, y, by simp [set, hne, ho], hw, rfl, hy, rfl, fun _ => rfl, fun _ => rfl⟩
    | setInfo k info =>
      simp only
      cases hk : s.objs k with
      | none => exact same s ho hy
      | some b =>
        simp only
        cases hb : b.writer with
        | none => exact same s ho hy
        | some w' =>
          simp only
          cases hg : s.gate w' with
          | none => exact same s ho hy
          | some x =>
            simp only
            by_cases hne : o = k
            · subst hne
              rw [ho] at hk
              cases hk
              rw [hw] at hb
              cases hb
              rw [hy] at hg
              cases hg
              exact ⟨ob, { y with info := info }, ho, hw, rfl, by simp [set], rfl, fun _ => rfl, fun hn => absurd rfl (hn info)⟩
            · have : ¬ w = w' := fun e => hother k b hk (fun e => hne e.symm) (by rw [hb, e])
              exact ⟨ob, y, ho, hw, rfl, by simp [set, this, hy], rfl, fun _ => rfl, fun _ => rfl⟩
    | send k sub =>
      simp only
      cases hk : s.objs k with
      | none => exact same s ho hy
      | some b =>
        simp only
        cases hm : b.msg with
        | none => exact same _ ho hy
        | some m =>
          simp only
          cases hb : b.writer with
          | none => exact same s ho hy
          | some w' =>
            cases hx : s.msgs m with
            | none => exact same s ho hy
            | some x =>
              simp only
              cases hg : s.gate w' with
              | none => exact same s ho hy
              | some z =>
                simp only
                by_cases e : w = w'
                · subst e
                  rw [hy] at hg
                  cases hg
                  exact ⟨ob, { y with count := y.count + 1 }, ho, hw, rfl, by simp [set], rfl, fun _ => rfl, fun _ => rfl⟩
                · exact ⟨ob, y, ho, hw, rfl, by simp [set, e, hy], rfl, fun _ => rfl, fun _ => rfl⟩

theorem keep_run (known : Nat → Bool) (h : List Op) (o w : Nat) : ∀ (s : St) (ob : Obj) (y : W), Inv s → s.objs o = some ob → ob.writer = some w → s.gate w = some y →
    (∀ op ∈ h, ¬ touches o op) →
    ∃ (ob' : Obj) (y' : W), (run known s h).objs o = some ob' ∧ ob'.writer = some w ∧ ob'.msg = ob.msg ∧ (run known s h).gate w = some y' ∧
      y'.topic = y.topic ∧ ((∀ n : Int, Op.setId o n ∉ h) → ob'.id = ob.id) ∧ ((∀ i : Option Nat, Op.setInfo o i ∉ h) → y'.info = y.info) := by
  induction h with
  | nil => intro s ob y _ ho hw hy _; exact ⟨ob, y, ho, hw, rfl, hy, rfl, fun _ => rfl, fun _ => rfl⟩
  | cons op h ih =>
    intro s ob y hi ho hw hy ht
    obtain ⟨ob1, y1, a1, a2, a3, a4, a5, a6, a7⟩ := keep_step known hi op o w ob y ho hw hy (ht op List.mem_cons_self)
    obtain ⟨ob2, y2, b1, b2, b3, b4, b5, b6, b7⟩ := ih (step known s op) ob1 y1 (inv_step known hi op) a1 a2 a4
      (fun x hx => ht x (List.mem_cons_of_mem _ hx))
    exact ⟨ob2, y2, b1, b2, b3.trans a3, b4, b5.trans a5,
      fun hn => (b6 (fun n hm => hn n (List.mem_cons_of_mem _ hm))).trans (a6 (fun n e => hn n (by rw [e]; exact List.mem_cons_self))),
      fun hn => (b7 (fun n hm => hn n (List.mem_cons_of_mem _ hm))).trans (a7 (fun n e => hn n (by rw [e]; exact List.mem_cons_self)))⟩

/-- Only `edit` changes a message, and only its value. -/
theorem msg_step (known : Nat → Bool) {s : St} (h : Inv s) (op : Op) (m : Nat) (x : Msg) (hx : s.msgs m = some x) :
    ∃ x' : Msg, (step known s op).msgs m = some x' ∧ x'.type = x.type ∧ ((∀ v : Nat, op ≠ .edit m v) → x' = x) ∧
      (∀ v : Nat, op = .edit m v → s.ub = false → x'.value = v) := by
  have same : ∀ s' : St, s'.msgs m = some x → (∀ v : Nat, op ≠ .edit m v) → ∃ x' : Msg, s'.msgs m = some x' ∧ x'.type = x.type ∧
      ((∀ v : Nat, op ≠ .edit m v) → x' = x) ∧ (∀ v : Nat, op = .edit m v → s.ub = false → x'.value = v) :=
    fun s' h1 h2 => ⟨x, h1, rfl, fun _ => rfl, fun v e => absurd e (h2 v)⟩
  unfold step
  by_cases hu : s.ub = true
  · rw [if_pos hu]; exact ⟨x, hx, rfl, fun _ => rfl, fun v _ e => by rw [hu] at e; cases e⟩
  · rw [if_neg hu]
    cases op with
    | newMsg k ty v =>
      simp only
      by_cases hm : (s.msgs k).isSome = true
      · rw [if_pos hm]; exact same s hx (by simp)
      · rw [if_neg hm]
        have : ¬ m = k := fun e => hm (by rw [← e, hx]; rfl)
        exact same _ (by simp [set, this, hx]) (by simp)
    | edit k v =>
      simp only
      cases hk : s.msgs k with
      | none =>
        have : ¬ k = m := fun e => by rw [e, hx] at hk; cases hk
        exact same s hx (by simp [this])
      | some z =>
        by_cases e : m = k
        · subst e
          rw [hx] at hk
          cases hk
          exact ⟨{ x with value := v }, by simp [set], rfl, fun hn => absurd rfl (hn v), fun u hu _ => by cases hu; rfl⟩
        · have : ¬ k = m := fun h => e h.symm
          exact same _ (by simp [set, e, hx]) (by simp [this])
    | make k t m' =>
      simp only
      by_cases hm : (s.objs k).isSome = true ∨ m'.any (fun k => (s.msgs k).isNone) = true
      · rw [if_pos hm]; exact same s hx (by simp)
      · rw [if_neg hm]; exact same _ (by rw [create_msgs]; exact hx) (by simp)
    | byName k t ty m' =>
      simp only
      by_cases hm : (s.objs k).isSome = true ∨ (s.msgs m').isSome = true ∨ known ty = false
      · rw [if_pos hm]; exact same s hx (by simp)
      · rw [if_neg hm]
        have : ¬ m = m' := fun e => hm (Or.inr (Or.inl (by rw [← e, hx]; rfl)))
        exact same _ (by rw [create_msgs]; simp [set, this, hx]) (by simp)
    | moveNew d k =>
      simp only
      by_cases hm : (s.objs d).isSome = true
      · rw [if_pos hm]; exact same s hx (by simp)
      · rw [if_neg hm]
        cases hk : s.objs k with
        | none => exact same s hx (by simp)
        | some b => exact same _ hx (by simp)
    | moveTo d k =>
      simp only
      cases hd : s.objs d with
      | none => exact same s hx (by simp)
      | some od =>
        cases hk : s.objs k with
        | none => exact same s hx (by simp)
        | some ok =>
          simp only
          rw [destroy_spec h d od hd]
          by_cases hdk : d = k
          · rw [if_pos hdk]; exact same _ hx (by simp)
          · rw [if_neg hdk]; exact same _ hx (by simp)
    | create k t info =>
      simp only
      cases hk : s.objs k with
      | none => exact same s hx (by simp)
      | some b => exact same _ (by rw [create_msgs]; exact hx) (by simp)
    | destroy k =>
      simp only
      cases hk : s.objs k with
      | none => exact same s hx (by simp)
      | some b => simp only; rw [destroy_spec h k b hk]; exact same _ hx (by simp)
    | delete k =>
      simp only
      cases hk : s.objs k with
      | none => exact same s hx (by simp)
      | some b => simp only; rw [destroy_spec h k b hk]; exact same _ hx (by simp)
    | setId k n =>
      simp only
      cases hk : s.objs k with
      | none => exact same s hx (by simp)
      | some b => exact same _ hx (by simp)
    | setInfo k info =>
      simp only
      cases hk : s.objs k with
      | none => exact same s hx (by simp)
      | some b =>
        simp only
        cases hb : b.writer with
        | none => exact same s hx (by simp)
        | some w' =>
          simp only
          cases hg : s.gate w' with
          | none => exact same s hx (by simp)
          | some z => exact same _ hx (by simp)
    | send k sub =>
      simp only
      cases hk : s.objs k with
      | none => exact same s hx (by simp)
      | some b =>
        simp only
        cases hm : b.msg with
        | none => exact same _ hx (by simp)
        | some m =>
          simp only
          cases hb : b.writer with
          | none => exact same s hx (by simp)
          | some w' =>
            cases hx' : s.msgs m with
            | none => exact same s hx (by simp)
            | some x =>
              simp only
              cases hg : s.gate w' with
              | none => exact same s hx (by simp)
              | some z => exact same _ hx (by simp)

theorem msg_run (known : Nat → Bool) (h : List Op) (m : Nat) : ∀ (s : St) (x : Msg), Inv s → s.msgs m = some x →
    ∃ x' : Msg, (run known s h).msgs m = some x' ∧ x'.type = x.type ∧ ((∀ v : Nat, Op.edit m v ∉ h) → x' = x) := by
  induction h with
  | nil => intro s x _ hx; exact ⟨x, hx, rfl, fun _ => rfl⟩
  | cons op h ih =>
    intro s x hi hx
    obtain ⟨x1, a1, a2, a3, _⟩ := msg_step known hi op m x hx
    obtain ⟨x2, b1, b2, b3⟩ := ih (step known s op) x1 (inv_step known hi op) a1
    exact ⟨x2, b1, b2.trans a2, fun hn => (b3 (fun v hm => hn v (List.mem_cons_of_mem _ hm))).trans
      (a3 (fun v e => hn v (by rw [e]; exact List.mem_cons_self)))⟩

/-! ## Renaming -/

/-- Calls on the object `k` become calls on `d`. -/
def ren (d k o : Nat) : Nat := if o = k then d else o

def Op.ren (d k : Nat) : Op → Op
  | .newMsg m ty v => .newMsg m ty v
  | .edit m v => .edit m v
  | .make o t m => .make (DynPub.ren d k o) t m
  | .byName o t ty m => .byName (DynPub.ren d k o) t ty m
  | .moveNew a b => .moveNew (DynPub.ren d k a) (DynPub.ren d k b)
  | .moveTo a b => .moveTo (DynPub.ren d k a) (DynPub.ren d k b)
  | .create o t i => .create (DynPub.ren d k o) t i
  | .destroy o => .destroy (DynPub.ren d k o)
  | .delete o => .delete (DynPub.ren d k o)
  | .setId o n => .setId (DynPub.ren d k o) n
  | .setInfo o i => .setInfo (DynPub.ren d k o) i
  | .send o b => .send (DynPub.ren d k o) b

/-- The objects a call names. -/
def Op.names : Op → List Nat
  | .newMsg _ _ _ => []
  | .edit _ _ => []
  | .make o _ _ => [o]
  | .byName o _ _ _ => [o]
  | .moveNew a b => [a, b]
  | .moveTo a b => [a, b]
  | .create o _ _ => [o]
  | .destroy o => [o]
  | .delete o => [o]
  | .setId o _ => [o]
  | .setInfo o _ => [o]
  | .send o _ => [o]

theorem ren_inj (d k a b : Nat) (ha : a ≠ d) (hb : b ≠ d) (h : ren d k a = ren d k b) : a = b := by
  unfold ren at h
  by_cases h1 : a = k <;> by_cases h2 : b = k
  · rw [h1, h2]
  · rw [if_pos h1, if_neg h2] at h; exact absurd h.symm hb
  · rw [if_neg h1, if_pos h2] at h; exact absurd h ha
  · rw [if_neg h1, if_neg h2] at h; exact h

def Rel (d k : Nat) (f g : Nat → Option Obj) : Prop := ∀ i : Nat, i ≠ d → g (ren d k i) = f i

theorem rel_set (d k : Nat) (f g : Nat → Option Obj) (h : Rel d k f g) (o : Nat) (ho : o ≠ d) (v : Option Obj) :
    Rel d k (set f o v) (set g (ren d k o) v) := by
  intro i hi
  unfold set
  by_cases e : i = o
  · rw [e, if_pos rfl, if_pos rfl]
  · rw [if_neg e, if_neg (fun h' => e (ren_inj d k i o hi ho h'))]
    exact h i hi

theorem rel_create (d k : Nat) (s : St) (g : Nat → Option Obj) (h : Rel d k s.objs g) (o : Nat) (ho : o ≠ d) (ob : Obj) (t : Bytes) (info : Option Nat) :
    ∃ g' : Nat → Option Obj, create { s with objs := g } (ren d k o) ob t info = { create s o ob t info with objs := g' } ∧
      Rel d k (create s o ob t info).objs g' := by
  unfold create
  by_cases h1 : ob.created = true
  · rw [if_pos h1, if_pos h1]; exact ⟨_, rfl, rel_set d k _ _ h o ho _⟩
  · rw [if_neg h1, if_neg h1]
    by_cases h2 : t = []
    · rw [if_pos h2, if_pos h2]; exact ⟨_, rfl, rel_set d k _ _ h o ho _⟩
    · rw [if_neg h2, if_neg h2]; exact ⟨_, rfl, rel_set d k _ _ h o ho _⟩

theorem rel_destroy (d k : Nat) (s : St) (g : Nat → Option Obj) (h : Rel d k s.objs g) (o : Nat) (ho : o ≠ d) (ob : Obj) :
    ∃ g' : Nat → Option Obj, destroy { s with objs := g } (ren d k o) ob = { destroy s o ob with objs := g' } ∧ Rel d k (destroy s o ob).objs g' := by
  unfold destroy
  by_cases h1 : ob.created = true
  · rw [if_neg (by simp [h1]), if_neg (by simp [h1])]
    cases hw : ob.writer with
    | none => exact ⟨g, rfl, h⟩
    | some w => exact ⟨_, rfl, rel_set d k _ _ h o ho _⟩
  · have h1' : ob.created = false := by simpa using h1
    rw [if_pos (by simp [h1']), if_pos (by simp [h1'])]
    exact ⟨g, rfl, h⟩

theorem rel_step (known : Nat → Bool) (d k : Nat) (s : St) (g : Nat → Option Obj) (h : Rel d k s.objs g) (op : Op) (hd : d ∉ op.names) :
    ∃ g' : Nat → Option Obj, step known { s with objs := g } (op.ren d k) = { step known s op with objs := g' } ∧ Rel d k (step known s op).objs g' := by
  unfold step
  by_cases hu : s.ub = true
  · rw [if_pos hu, if_pos (show ({ s with objs := g } : St).ub = true from hu)]; exact ⟨g, rfl, h⟩
  · rw [if_neg hu, if_neg (show ¬ ({ s with objs := g } : St).ub = true from hu)]
    cases op with
    | newMsg m ty v =>
      simp only [Op.ren]
      by_cases hm : (s.msgs m).isSome = true
      · rw [if_pos hm, if_pos hm]; exact ⟨g, rfl, h⟩
      · rw [if_neg hm, if_neg hm]; exact ⟨g, rfl, h⟩
    | edit m v =>
      simp only [Op.ren]
      cases hm : s.msgs m with
      | none => exact ⟨g, rfl, h⟩
      | some x => exact ⟨g, rfl, h⟩
    | make o t m =>
      have ho : o ≠ d := fun e => hd (by simp [Op.names, e])
      simp only [Op.ren, h o ho]
      by_cases hm : (s.objs o).isSome = true ∨ m.any (fun k => (s.msgs k).isNone) = true
      · rw [if_pos hm, if_pos hm]; exact ⟨g, rfl, h⟩
      · rw [if_neg hm, if_neg hm]; exact rel_create d k s g h o ho _ t _
    | byName o t ty m =>
      have ho : o ≠ d := fun e => hd (by simp [Op.names, e])
      simp only [Op.ren, h o ho]
      by_cases hm : (s.objs o).isSome = true ∨ (s.msgs m).isSome = true ∨ known ty = false
      · rw [if_pos hm, if_pos hm]; exact ⟨g, rfl, h⟩
      · rw [if_neg hm, if_neg hm]; exact rel_create d k { s with msgs := set s.msgs m (some ⟨ty, 0⟩) } g h o ho _ t _
    | moveNew a b =>
      have ha : a ≠ d := fun e => hd (by simp [Op.names, e])
      have hb : b ≠ d := fun e => hd (by simp [Op.names, e])
      simp only [Op.ren, h a ha, h b hb]
      by_cases hm : (s.objs a).isSome = true
      · rw [if_pos hm, if_pos hm]; exact ⟨g, rfl, h⟩
      · rw [if_neg hm, if_neg hm]
        cases hob : s.objs b with
        | none => exact ⟨g, rfl, h⟩
        | some ob => exact ⟨_, rfl, rel_set d k _ _ (rel_set d k _ _ h b hb _) a ha _⟩
    | moveTo a b =>
      have ha : a ≠ d := fun e => hd (by simp [Op.names, e])
      have hb : b ≠ d := fun e => hd (by simp [Op.names, e])
      simp only [Op.ren, h a ha, h b hb]
      cases hoa : s.objs a with
      | none => exact ⟨g, rfl, h⟩
      | some oa =>
        cases hob : s.objs b with
        | none => exact ⟨g, rfl, h⟩
        | some ob =>
          simp only
          obtain ⟨g1, e1, r1⟩ := rel_destroy d k s g h a ha oa
          by_cases hab : a = b
          · rw [if_pos hab, if_pos (by rw [hab])]; exact ⟨g1, e1, r1⟩
          · rw [if_neg hab, if_neg (fun e => hab (ren_inj d k a b ha hb e)), e1]
            exact ⟨_, rfl, rel_set d k _ _ (rel_set d k _ _ r1 b hb _) a ha _⟩
    | create o t info =>
      have ho : o ≠ d := fun e => hd (by simp [Op.names, e])
      simp only [Op.ren, h o ho]
      cases hob : s.objs o with
      | none => exact ⟨g, rfl, h⟩
      | some ob => exact rel_create d k s g h o ho ob t info
    | destroy o =>
      have ho : o ≠ d := fun e => hd (by simp [Op.names, e])
      simp only [Op.ren, h o ho]
      cases hob : s.objs o with
      | none => exact ⟨g, rfl, h⟩
      | some ob => exact rel_destroy d k s g h o ho ob
    | delete o =>
      have ho : o ≠ d := fun e => hd (by simp [Op.names, e])
      simp only [Op.ren, h o ho]
      cases hob : s.objs o with
      | none => exact ⟨g, rfl, h⟩
      | some ob =>
        simp only
        obtain ⟨g1, e1, r1⟩ := rel_destroy d k s g h o ho ob
        rw [e1]
        exact ⟨_, rfl, rel_set d k _ _ r1 o ho _⟩
    | setId o n =>
      have ho : o ≠ d := fun e => hd (by simp [Op.names, e])
      simp only [Op.ren, h o ho]
      cases hob : s.objs o with
      | none => exact ⟨g, rfl, h⟩
      | some ob => exact ⟨_, rfl, rel_set d k _ _ h o ho _⟩
    | setInfo o info =>
      have ho : o ≠ d := fun e => hd (by simp [Op.names, e])
      simp only [Op.ren, h o ho]
      cases hob : s.objs o with
      | none => exact ⟨g, rfl, h⟩
      | some ob =>
        simp only
        cases hw : ob.writer with
        | none => exact ⟨g, rfl, h⟩
        | some w =>
          simp only
          cases hg : s.gate w with
          | none => exact ⟨g, rfl, h⟩
          | some x => exact ⟨g, rfl, h⟩
    | send o sub =>
      have ho : o ≠ d := fun e => hd (by simp [Op.names, e])
      simp only [Op.ren, h o ho]
      cases hob : s.objs o with
      | none => exact ⟨g, rfl, h⟩
      | some ob =>
        simp only
        cases hm : ob.msg with
        | none => exact ⟨g, rfl, h⟩
        | some m =>
          simp only
          cases hw : ob.writer with
          | none => exact ⟨g, rfl, h⟩
          | some w =>
            cases hx : s.msgs m with
            | none => exact ⟨g, rfl, h⟩
            | some x =>
              simp only
              cases hg : s.gate w with
              | none => exact ⟨g, rfl, h⟩
              | some y => exact ⟨g, rfl, h⟩

theorem rel_run (known : Nat → Bool) (d k : Nat) (h : List Op) : ∀ (s : St) (g : Nat → Option Obj), Rel d k s.objs g → (∀ op ∈ h, d ∉ op.names) →
    ∃ g' : Nat → Option Obj, run known { s with objs := g } (h.map (Op.ren d k)) = { run known s h with objs := g' } := by
  induction h with
  | nil => intro s g _ _; exact ⟨g, rfl⟩
  | cons op h ih =>
    intro s g hr hd
    obtain ⟨g1, e1, r1⟩ := rel_step known d k s g hr op (hd op List.mem_cons_self)
    simp only [List.map_cons, run]
    rw [e1]
    exact ih (step known s op) g1 r1 (fun x hx => hd x (List.mem_cons_of_mem _ hx))

/-! ## Property theorems -/

/-- **C133, announced.**  For every history the topics announced are exactly the topics of the publisher objects that say they are created,
every publisher belongs to one object, and an object that is not created announces nothing. -/
theorem C133_announced (known : Nat → Bool) (h : List Op) :
    (∀ t : Bytes, (∃ (w : Nat) (x : W), (run known {} h).gate w = some x ∧ x.topic = t) ↔
      ∃ o : Nat, isCreated (run known {} h) o = true ∧ topicName (run known {} h) o = t) ∧
    (∀ (o o' w : Nat) (ob ob' : Obj), (run known {} h).objs o = some ob → (run known {} h).objs o' = some ob' → ob.writer = some w → ob'.writer = some w → o = o') ∧
    (∀ o : Nat, isCreated (run known {} h) o = false → topicName (run known {} h) o = []) := by
  have hi := reach known h
  generalize run known {} h = s at *
  refine ⟨fun t => ⟨?_, ?_⟩, ?_, ?_⟩
  · rintro ⟨w, x, hg, rfl⟩
    obtain ⟨o, ho⟩ := hi.owned w (by rw [hg]; rfl)
    refine ⟨o, ?_⟩
    unfold own at ho
    cases hob : s.objs o with
    | none => rw [hob] at ho; cases ho
    | some ob =>
      rw [hob] at ho
      have hw : ob.writer = some w := ho
      refine ⟨?_, ?_⟩
      · simp only [isCreated, hob]; exact (hi.flag o ob hob).2 (by rw [hw]; rfl)
      · simp only [topicName, hob, hw, hg]
  · rintro ⟨o, hc, rfl⟩
    unfold isCreated at hc
    cases hob : s.objs o with
    | none => rw [hob] at hc; cases hc
    | some ob =>
      rw [hob] at hc
      obtain ⟨w, hw⟩ := Option.isSome_iff_exists.1 ((hi.flag o ob hob).1 hc)
      obtain ⟨x, hx⟩ := Option.isSome_iff_exists.1 (hi.reg o w (by simp [own, hob, hw]))
      exact ⟨w, x, hx, by simp only [topicName, hob, hw, hx]⟩
  · intro o o' w ob ob' h1 h2 h3 h4
    exact hi.uniq o o' w (by simp [own, h1, h3]) (by simp [own, h2, h4])
  · intro o hc
    unfold isCreated at hc
    unfold topicName
    cases hob : s.objs o with
    | none => rfl
    | some ob =>
      rw [hob] at hc
      have hc' : ob.created = false := hc
      cases hw : ob.writer with
      | none => simp only [hw]
      | some w => exact absurd ((hi.flag o ob hob).2 (by rw [hw]; rfl)) (by simp [hc'])

def all : Nat → Bool := fun _ => true

/-- Example: two publishers, one of them moved. -/
def exH : List Op := [.newMsg 0 1 5, .make 0 [97] (some 0), .byName 1 [98] 2 1, .setId 0 9, .edit 0 6, .moveNew 2 0, .send 2 true, .edit 1 3, .send 1 true]

example : (run all {} exH).sent = [⟨0, [97], 9, 6⟩, ⟨1, [98], 0, 3⟩] ∧ topicName (run all {} exH) 2 = [97] ∧ isCreated (run all {} exH) 0 = false ∧
    (run all {} exH).ub = false := by decide +kernel

/-- **C133, ends with the object.**  Destroying or deleting a publisher object ends its publisher and no other. -/
theorem C133_ends (known : Nat → Bool) (h : List Op) (o w : Nat) (ob : Obj) (hu : (run known {} h).ub = false) (ho : (run known {} h).objs o = some ob)
    (hw : ob.writer = some w) (op : Op) (hop : op = .destroy o ∨ op = .delete o) :
    (run known {} (h ++ [op])).gate w = none ∧ ∀ w' : Nat, w' ≠ w → (run known {} (h ++ [op])).gate w' = (run known {} h).gate w' := by
  have hi := reach known h
  rw [run_append]
  generalize run known {} h = s at *
  show (step known s op).gate w = none ∧ ∀ w' : Nat, w' ≠ w → (step known s op).gate w' = s.gate w'
  unfold step
  rw [if_neg (by simp [hu])]
  have key : (destroy s o ob).gate w = none ∧ ∀ w' : Nat, w' ≠ w → (destroy s o ob).gate w' = s.gate w' := by
    rw [destroy_spec hi o ob ho]
    exact ⟨by simp [hw], fun w' hw' => by
      show (if ob.writer = some w' then none else s.gate w') = s.gate w'
      rw [hw, if_neg (fun e => hw' (Option.some.inj e).symm)]⟩
  rcases hop with rfl | rfl
  · simp only [ho]; exact key
  · simp only [ho]; exact key

/-- **C133, what is sent.**  A publisher object made with a message sends on its topic, with every send that has subscribers, one sample with
the value the message was given last by anybody, as long as the object is not moved, destroyed or deleted. -/
theorem C133_sends (known : Nat → Bool) (h1 h2 h3 : List Op) (o m v : Nat) (t : Bytes) (hn : (run known {} h1).objs o = none)
    (hm : ((run known {} h1).msgs m).isSome = true) (ht : t ≠ [])
    (hu : (run known {} (h1 ++ .make o t (some m) :: h2 ++ .edit m v :: h3)).ub = false)
    (hq : ∀ op ∈ h2 ++ h3, ¬ touches o op) (he : ∀ u : Nat, Op.edit m u ∉ h3) :
    ∃ x : Sample, (run known {} (h1 ++ .make o t (some m) :: h2 ++ .edit m v :: h3 ++ [.send o true])).sent =
      (run known {} (h1 ++ .make o t (some m) :: h2 ++ .edit m v :: h3)).sent ++ [x] ∧ x.topic = t ∧ x.value = v := by
  rw [run_append known _ [.send o true]]
  have hi1 := reach known h1
  have hub : ∀ (s : St) (h : List Op), (run known s h).ub = false → s.ub = false := by
    intro s h e
    cases hs : s.ub with
    | false => rfl
    | true => rw [run_ub known h s hs, hs] at e; cases e
  have e1 : run known {} (h1 ++ .make o t (some m) :: h2 ++ .edit m v :: h3) =
      run known (step known (run known (step known (run known {} h1) (.make o t (some m))) h2) (.edit m v)) h3 := by
    rw [show h1 ++ .make o t (some m) :: h2 ++ .edit m v :: h3 = h1 ++ (.make o t (some m) :: (h2 ++ .edit m v :: h3)) by simp, run_append]
    show run known (step known (run known {} h1) (.make o t (some m))) (h2 ++ .edit m v :: h3) = _
    rw [run_append]
    rfl
  rw [e1] at hu ⊢
  generalize run known {} h1 = s1 at *
  have hi2 := inv_step known hi1 (.make o t (some m))
  have hi3 := inv_run known h2 _ hi2
  have hi4 := inv_step known hi3 (.edit m v)
  have hu4 := hub _ _ hu
  have hu3 : (run known (step known s1 (.make o t (some m))) h2).ub = false := by
    cases hs : (run known (step known s1 (.make o t (some m))) h2).ub with
    | false => rfl
    | true => rw [step_ub known _ _ hs, hs] at hu4; cases hu4
  have hu2 := hub _ _ hu3
  have hu1 : s1.ub = false := by
    cases hs : s1.ub with
    | false => rfl
    | true => rw [step_ub known _ _ hs, hs] at hu2; cases hu2
  have hmake : step known s1 (.make o t (some m)) =
      { s1 with objs := set s1.objs o (some { created := true, writer := some s1.next, msg := some m })
                gate := set s1.gate s1.next (some { topic := t, info := infoOf s1 (some m) }), next := s1.next + 1 } := by
    unfold step
    rw [if_neg (by simp [hu1])]
    simp only
    rw [if_neg (by
      rw [hn]
      rintro (h | h)
      · cases h
      · simp only [Option.any_some] at h
        rw [Option.isNone_iff_eq_none] at h
        rw [h] at hm
        cases hm)]
    unfold create
    rw [if_neg (by simp), if_neg ht]
  obtain ⟨mx, hmx⟩ := Option.isSome_iff_exists.1 hm
  obtain ⟨ob2, y2, a1, a2, a3, a4, a5, _, _⟩ := keep_run known (h2 ++ .edit m v :: h3) o s1.next (step known s1 (.make o t (some m)))
    { created := true, writer := some s1.next, msg := some m } { topic := t, info := infoOf s1 (some m) } hi2 (by rw [hmake]; simp [set]) rfl
    (by rw [hmake]; simp [set]) (fun op hop => by
      rcases List.mem_append.1 hop with hp | hp
      · exact hq op (List.mem_append_left _ hp)
      · rcases List.mem_cons.1 hp with rfl | hp
        · exact fun h => h
        · exact hq op (List.mem_append_right _ hp))
  rw [run_append] at a1 a4
  have a1 : (run known (step known (run known (step known s1 (.make o t (some m))) h2) (.edit m v)) h3).objs o = some ob2 := a1
  have a4 : (run known (step known (run known (step known s1 (.make o t (some m))) h2) (.edit m v)) h3).gate s1.next = some y2 := a4
  obtain ⟨x2, b1, _, _⟩ := msg_run known h2 m (step known s1 (.make o t (some m))) mx hi2 (by rw [hmake]; exact hmx)
  obtain ⟨x3, c1, _, _, c4⟩ := msg_step known hi3 (.edit m v) m x2 b1
  obtain ⟨x4, d1, _, d3⟩ := msg_run known h3 m _ x3 hi4 c1
  have hx4 : x4 = x3 := d3 he
  have hval : x4.value = v := by rw [hx4]; exact c4 v rfl hu3
  generalize run known (step known (run known (step known s1 (.make o t (some m))) h2) (.edit m v)) h3 = s5 at *
  refine ⟨⟨s1.next, y2.topic, ob2.id, x4.value⟩, ?_, a5, hval⟩
  show (step known s5 (.send o true)).sent = _
  unfold step
  rw [if_neg (by simp [hu])]
  simp only [a1, a3, a2, d1, a4]
  rfl

example : (run all {} [.newMsg 0 1 5]).objs 0 = none ∧ ((run all {} [.newMsg 0 1 5]).msgs 0).isSome = true ∧
    (run all {} ([.newMsg 0 1 5] ++ .make 0 [97] (some 0) :: [.edit 0 3, .byName 1 [98] 2 1] ++ .edit 0 8 :: [.delete 1, .send 0 true])).ub = false ∧
    (∀ op ∈ [Op.edit 0 3, .byName 1 [98] 2 1] ++ [.delete 1, .send 0 true], ¬ touches 0 op) ∧ (∀ u : Nat, Op.edit 0 u ∉ [Op.delete 1, .send 0 true]) :=
  ⟨by decide +kernel, by decide +kernel, by decide +kernel, by simp [touches], by simp⟩

/-- **C133, ids.**  Samples carry the id set last for the object. -/
theorem C133_id (known : Nat → Bool) (h1 h2 : List Op) (o w : Nat) (n : Int) (ob : Obj) (hu : (run known {} h1).ub = false)
    (ho : (run known {} h1).objs o = some ob) (hw : ob.writer = some w) (hq : ∀ op ∈ h2, ¬ touches o op) (hs : ∀ k : Int, Op.setId o k ∉ h2) (x : Sample)
    (hx : (run known {} (h1 ++ .setId o n :: h2 ++ [.send o true])).sent = (run known {} (h1 ++ .setId o n :: h2)).sent ++ [x]) : x.id = n := by
  have hi := reach known h1
  rw [run_append known _ [.send o true], run_append known h1] at hx
  generalize run known {} h1 = s at *
  have hx : (step known (run known (step known s (.setId o n)) h2) (.send o true)).sent = (run known (step known s (.setId o n)) h2).sent ++ [x] := hx
  have hstep : step known s (.setId o n) = { s with objs := set s.objs o (some { ob with id := n }) } := by
    unfold step
    rw [if_neg (by simp [hu])]
    simp only [ho]
  have hi2 := inv_step known hi (.setId o n)
  obtain ⟨y, hy⟩ := Option.isSome_iff_exists.1 (hi.reg o w (by simp [own, ho, hw]))
  obtain ⟨ob2, y2, a1, a2, a3, a4, a5, a6, _⟩ := keep_run known h2 o w (step known s (.setId o n)) { ob with id := n } y hi2 (by rw [hstep]; simp [set]) hw
    (by rw [hstep]; exact hy) hq
  have a6 := a6 hs
  generalize run known (step known s (.setId o n)) h2 = s5 at *
  unfold step at hx
  by_cases h5 : s5.ub = true
  · rw [if_pos h5] at hx
    have := congrArg List.length hx
    simp at this
  · rw [if_neg h5] at hx
    simp only [a1] at hx
    cases hm : ob2.msg with
    | none =>
      rw [hm] at hx
      have := congrArg List.length hx
      simp at this
    | some m =>
      rw [hm] at hx
      simp only [a2] at hx
      cases hmm : s5.msgs m with
      | none =>
        rw [hmm] at hx
        have := congrArg List.length hx
        simp at this
      | some z =>
        rw [hmm] at hx
        simp only [a4] at hx
        have hx := List.append_cancel_left hx
        simp only [List.cons.injEq, and_true] at hx
        rw [← hx]
        exact a6

example : ((run all {} [.newMsg 0 1 5, .make 0 [97] (some 0)]).objs 0).map (·.writer) = some (some 0) ∧
    (run all {} ([.newMsg 0 1 5, .make 0 [97] (some 0)] ++ .setId 0 4 :: [.edit 0 6] ++ [.send 0 true])).sent =
      (run all {} ([.newMsg 0 1 5, .make 0 [97] (some 0)] ++ .setId 0 4 :: [.edit 0 6])).sent ++ [⟨0, [97], 4, 6⟩] := by decide +kernel

/-- **C133, announced type.**  The type announced is the type of the message, as long as the application does not set another one. -/
theorem C133_type_partial (known : Nat → Bool) (h1 h2 : List Op) (o m : Nat) (x : Msg) (t : Bytes) (hu : (run known {} h1).ub = false)
    (hn : (run known {} h1).objs o = none) (hm : (run known {} h1).msgs m = some x) (ht : t ≠ []) (hq : ∀ op ∈ h2, ¬ touches o op)
    (hs : ∀ i : Option Nat, Op.setInfo o i ∉ h2) :
    ∃ (ob : Obj) (w : Nat) (y : W) (x' : Msg), (run known {} (h1 ++ .make o t (some m) :: h2)).objs o = some ob ∧ ob.writer = some w ∧ ob.msg = some m ∧
      (run known {} (h1 ++ .make o t (some m) :: h2)).gate w = some y ∧ y.topic = t ∧
      (run known {} (h1 ++ .make o t (some m) :: h2)).msgs m = some x' ∧ y.info = some x'.type := by
  have hi := reach known h1
  rw [run_append known h1]
  generalize run known {} h1 = s at *
  show ∃ (ob : Obj) (w : Nat) (y : W) (x' : Msg), (run known (step known s (.make o t (some m))) h2).objs o = some ob ∧ ob.writer = some w ∧ ob.msg = some m ∧
      (run known (step known s (.make o t (some m))) h2).gate w = some y ∧ y.topic = t ∧
      (run known (step known s (.make o t (some m))) h2).msgs m = some x' ∧ y.info = some x'.type
  have hi2 := inv_step known hi (.make o t (some m))
  have hmake : step known s (.make o t (some m)) =
      { s with objs := set s.objs o (some { created := true, writer := some s.next, msg := some m })
               gate := set s.gate s.next (some { topic := t, info := some x.type }), next := s.next + 1 } := by
    unfold step
    rw [if_neg (by simp [hu])]
    simp only
    rw [if_neg (by
      rw [hn]
      rintro (h | h)
      · cases h
      · simp [hm] at h)]
    unfold create
    rw [if_neg (by simp), if_neg ht]
    simp [infoOf, hm]
  obtain ⟨ob2, y2, a1, a2, a3, a4, a5, _, a7⟩ := keep_run known h2 o s.next (step known s (.make o t (some m)))
    { created := true, writer := some s.next, msg := some m } { topic := t, info := some x.type } hi2 (by rw [hmake]; simp [set]) rfl
    (by rw [hmake]; simp [set]) hq
  obtain ⟨x2, b1, b2, _⟩ := msg_run known h2 m (step known s (.make o t (some m))) x hi2 (by rw [hmake]; exact hm)
  exact ⟨ob2, s.next, y2, x2, a1, a2, a3, a4, a5, b1, by rw [a7 hs, b2]⟩

example : (run all {} [.newMsg 0 1 5]).objs 0 = none ∧ (run all {} [.newMsg 0 1 5]).msgs 0 = some ⟨1, 5⟩ ∧
    (∀ op ∈ [Op.edit 0 3, .create 0 [98] none], ¬ touches 0 op) := ⟨by decide +kernel, by decide +kernel, by simp [touches]⟩

/-- **C133, moving.**  Moving a publisher into a new object cannot be noticed: what is sent and announced afterwards by using the new object is
what would have been sent and announced by using the old one. -/
theorem C133_move (known : Nat → Bool) (s : St) (d k : Nat) (ob : Obj) (hu : s.ub = false) (hd : s.objs d = none) (hk : s.objs k = some ob)
    (h : List Op) (hn : ∀ op ∈ h, d ∉ op.names) :
    (run known s (.moveNew d k :: h.map (Op.ren d k))).sent = (run known s h).sent ∧
    (run known s (.moveNew d k :: h.map (Op.ren d k))).gate = (run known s h).gate ∧
    (run known s (.moveNew d k :: h.map (Op.ren d k))).ub = (run known s h).ub := by
  have hdk : ¬ k = d := fun e => by rw [e, hd] at hk; cases hk
  have e1 : step known s (.moveNew d k) = { s with objs := set (set s.objs k (some { id := ob.id })) d (some ob) } := by
    unfold step
    rw [if_neg (by simp [hu])]
    simp only
    rw [if_neg (by rw [hd]; decide), hk]
  obtain ⟨g', hg⟩ := rel_run known d k h s (set (set s.objs k (some { id := ob.id })) d (some ob)) (by
    intro i hi
    unfold ren set
    by_cases h1 : i = k
    · rw [if_pos h1, if_pos rfl, h1, hk]
    · rw [if_neg h1, if_neg hi, if_neg h1]) hn
  simp only [run]
  rw [e1, hg]
  exact ⟨rfl, rfl, rfl⟩

/-- **C133, move assignment.**  Moving a publisher into an existing object is the same as deleting the target object and going on with the old one. -/
theorem C133_move_assign (known : Nat → Bool) (h0 : List Op) (d k : Nat) (od ob : Obj) (hu : (run known {} h0).ub = false)
    (hd : (run known {} h0).objs d = some od) (hk : (run known {} h0).objs k = some ob) (hdk : d ≠ k) (h : List Op) (hn : ∀ op ∈ h, d ∉ op.names) :
    (run known {} (h0 ++ .moveTo d k :: h.map (Op.ren d k))).sent = (run known {} (h0 ++ .delete d :: h)).sent ∧
    (run known {} (h0 ++ .moveTo d k :: h.map (Op.ren d k))).gate = (run known {} (h0 ++ .delete d :: h)).gate ∧
    (run known {} (h0 ++ .moveTo d k :: h.map (Op.ren d k))).ub = (run known {} (h0 ++ .delete d :: h)).ub := by
  have hi := reach known h0
  rw [run_append, run_append]
  generalize run known {} h0 = s at *
  have hkd : ¬ k = d := fun e => hdk e.symm
  have e1 : step known s (.moveTo d k) = { destroy s d od with objs := set (set (destroy s d od).objs k (some { id := ob.id })) d (some ob) } := by
    unfold step
    rw [if_neg (by simp [hu])]
    simp only [hd, hk]
    rw [if_neg hdk]
  have e2 : step known s (.delete d) = { destroy s d od with objs := set (destroy s d od).objs d none } := by
    unfold step
    rw [if_neg (by simp [hu])]
    simp only [hd]
  have hk' : (destroy s d od).objs k = some ob := by rw [destroy_spec hi d od hd]; simp [set, hkd, hk]
  obtain ⟨g', hg⟩ := rel_run known d k h (step known s (.delete d)) (set (set (destroy s d od).objs k (some { id := ob.id })) d (some ob)) (by
    rw [e2]
    intro i hi
    unfold ren set
    by_cases h1 : i = k
    · rw [if_pos h1, if_pos rfl, h1]
      simp only [hkd, if_false, hk']
    · rw [if_neg h1, if_neg hi, if_neg h1]
      simp only [hi, if_false]) hn
  have e3 : step known s (.moveTo d k) = { step known s (.delete d) with objs := set (set (destroy s d od).objs k (some { id := ob.id })) d (some ob) } := by
    rw [e1, e2]
  simp only [run]
  rw [e3, hg]
  exact ⟨rfl, rfl, rfl⟩

example : ∀ op ∈ [Op.send 0 true, Op.setId 0 4, Op.edit 0 3], 2 ∉ op.names := by decide +kernel

/-- **C133, by name.**  With the name of a type that is known, a publisher that announces the type and a message of the type are made; with any
other name nothing happens but the exception. -/
theorem C133_by_name (known : Nat → Bool) (s : St) (o ty m : Nat) (t : Bytes) (hu : s.ub = false) (ho : s.objs o = none) (hm : s.msgs m = none) (ht : t ≠ []) :
    (known ty = false → step known s (.byName o t ty m) = s) ∧
    (known ty = true → ∃ w : Nat, (step known s (.byName o t ty m)).objs o = some { created := true, writer := some w, id := 0, msg := some m } ∧
      (step known s (.byName o t ty m)).gate w = some { topic := t, info := some ty, count := 0 } ∧ (step known s (.byName o t ty m)).msgs m = some ⟨ty, 0⟩) := by
  unfold step
  rw [if_neg (by simp [hu])]
  simp only [ho, hm]
  refine ⟨fun hk => ?_, fun hk => ?_⟩
  · rw [if_pos (Or.inr (Or.inr hk))]
  · rw [if_neg (by simp [hk])]
    unfold create
    rw [if_neg (by simp), if_neg ht]
    exact ⟨s.next, by simp [set], by simp [set], by simp [set]⟩

/-- **C133, without subscribers.**  A send without subscribers transmits nothing; with or without, the publisher of the object and no other counts it. -/
theorem C133_counts (known : Nat → Bool) (h : List Op) (o w m : Nat) (sub : Bool) (ob : Obj) (y : W) (hu : (run known {} h).ub = false)
    (ho : (run known {} h).objs o = some ob) (hw : ob.writer = some w) (hm : ob.msg = some m) (hy : (run known {} h).gate w = some y) :
    (run known {} (h ++ [.send o false])).sent = (run known {} h).sent ∧
    (run known {} (h ++ [.send o sub])).gate w = some { y with count := y.count + 1 } ∧
    ∀ w' : Nat, w' ≠ w → (run known {} (h ++ [.send o sub])).gate w' = (run known {} h).gate w' := by
  have hi := reach known h
  rw [run_append, run_append]
  generalize run known {} h = s at *
  obtain ⟨x, hx⟩ := Option.isSome_iff_exists.1 (hi.msg o ob m ho hm)
  have e : ∀ b : Bool, step known s (.send o b) = { s with gate := set s.gate w (some { y with count := y.count + 1 })
                                                           sent := if b then s.sent ++ [⟨w, y.topic, ob.id, x.value⟩] else s.sent } := by
    intro b
    unfold step
    rw [if_neg (by simp [hu])]
    simp only [ho, hm, hw, hx, hy]
  simp only [run]
  rw [e, e]
  exact ⟨rfl, by simp [set], fun w' hw' => by simp [set, hw']⟩

theorem step_ub_spec (known : Nat → Bool) {s : St} (h : Inv s) (hu : s.ub = false) (op : Op) (hs : (step known s op).ub = true) :
    ∃ (o : Nat) (sub : Bool) (ob : Obj), op = .send o sub ∧ s.objs o = some ob ∧ ob.msg = none := by
  unfold step at hs
  rw [if_neg (by simp [hu])] at hs
  cases op with
  | newMsg m ty v =>
    simp only at hs
    by_cases hm : (s.msgs m).isSome = true
    · rw [if_pos hm, hu] at hs; cases hs
    · rw [if_neg hm] at hs; exact absurd hs (by simp [hu])
  | edit m v =>
    simp only at hs
    cases hm : s.msgs m <;> rw [hm] at hs <;> exact absurd hs (by simp [hu])
  | make k t m =>
    simp only at hs
    by_cases hm : (s.objs k).isSome = true ∨ m.any (fun k => (s.msgs k).isNone) = true
    · rw [if_pos hm, hu] at hs; cases hs
    · rw [if_neg hm, create_ub, hu] at hs; cases hs
  | byName k t ty m =>
    simp only at hs
    by_cases hm : (s.objs k).isSome = true ∨ (s.msgs m).isSome = true ∨ known ty = false
    · rw [if_pos hm, hu] at hs; cases hs
    · rw [if_neg hm, create_ub] at hs; exact absurd hs (by simp [hu])
  | moveNew d k =>
    simp only at hs
    by_cases hm : (s.objs d).isSome = true
    · rw [if_pos hm, hu] at hs; cases hs
    · rw [if_neg hm] at hs
      cases hk : s.objs k <;> rw [hk] at hs <;> exact absurd hs (by simp [hu])
  | moveTo d k =>
    simp only at hs
    cases hd : s.objs d with
    | none => rw [hd] at hs; exact absurd hs (by simp [hu])
    | some od =>
      cases hk : s.objs k with
      | none => rw [hd, hk] at hs; exact absurd hs (by simp [hu])
      | some ok =>
        rw [hd, hk] at hs
        simp only at hs
        rw [destroy_spec h d od hd] at hs
        by_cases hdk : d = k
        · rw [if_pos hdk] at hs; exact absurd hs (by simp [hu])
        · rw [if_neg hdk] at hs; exact absurd hs (by simp [hu])
  | create k t info =>
    simp only at hs
    cases hk : s.objs k with
    | none => rw [hk] at hs; exact absurd hs (by simp [hu])
    | some b => rw [hk] at hs; simp only at hs; rw [create_ub, hu] at hs; cases hs
  | destroy k =>
    simp only at hs
    cases hk : s.objs k with
    | none => rw [hk] at hs; exact absurd hs (by simp [hu])
    | some b => rw [hk] at hs; simp only at hs; rw [destroy_spec h k b hk] at hs; exact absurd hs (by simp [hu])
  | delete k =>
    simp only at hs
    cases hk : s.objs k with
    | none => rw [hk] at hs; exact absurd hs (by simp [hu])
    | some b => rw [hk] at hs; simp only at hs; rw [destroy_spec h k b hk] at hs; exact absurd hs (by simp [hu])
  | setId k n =>
    simp only at hs
    cases hk : s.objs k <;> rw [hk] at hs <;> exact absurd hs (by simp [hu])
  | setInfo k info =>
    simp only at hs
    cases hk : s.objs k with
    | none => rw [hk] at hs; exact absurd hs (by simp [hu])
    | some b =>
      rw [hk] at hs
      simp only at hs
      cases hb : b.writer with
      | none => rw [hb] at hs; exact absurd hs (by simp [hu])
      | some w =>
        rw [hb] at hs
        simp only at hs
        cases hg : s.gate w <;> rw [hg] at hs <;> exact absurd hs (by simp [hu])
  | send k sub =>
    simp only at hs
    cases hk : s.objs k with
    | none => rw [hk] at hs; exact absurd hs (by simp [hu])
    | some b =>
      cases hm : b.msg with
      | none => exact ⟨k, sub, b, rfl, hk, hm⟩
      | some m =>
        rw [hk] at hs
        simp only [hm] at hs
        cases hb : b.writer with
        | none => rw [hb] at hs; exact absurd hs (by simp [hu])
        | some w =>
          rw [hb] at hs
          cases hx : s.msgs m with
          | none => rw [hx] at hs; exact absurd hs (by simp [hu])
          | some x =>
            rw [hx] at hs
            simp only at hs
            cases hg : s.gate w <;> rw [hg] at hs <;> exact absurd hs (by simp [hu])

/-- **C133, defined behaviour.**  The only way to undefined behaviour is to send with an object that has no message. -/
theorem C133_undefined_only_by (known : Nat → Bool) (h : List Op) (hu : (run known {} h).ub = true) :
    ∃ (a b : List Op) (o : Nat) (sub : Bool) (ob : Obj), h = a ++ .send o sub :: b ∧ (run known {} a).objs o = some ob ∧ ob.msg = none := by
  have gen : ∀ (h a : List Op), (run known {} a).ub = false → (run known {} (a ++ h)).ub = true →
      ∃ (a' b : List Op) (o : Nat) (sub : Bool) (ob : Obj), a ++ h = a' ++ .send o sub :: b ∧ (run known {} a').objs o = some ob ∧ ob.msg = none := by
    intro h
    induction h with
    | nil => intro a h1 h2; rw [List.append_nil, h1] at h2; cases h2
    | cons op h ih =>
      intro a h1 h2
      have e : a ++ op :: h = (a ++ [op]) ++ h := by simp
      cases hs : (run known {} (a ++ [op])).ub with
      | false => rw [e] at h2 ⊢; exact ih (a ++ [op]) hs h2
      | true =>
        rw [run_append] at hs
        obtain ⟨o, sub, ob, rfl, h3, h4⟩ := step_ub_spec known (reach known a) h1 op hs
        exact ⟨a, h, o, sub, ob, rfl, h3, h4⟩
  exact gen h [] rfl hu

/-- **C133 violated: moved objects.**  Sending with an object that was moved from is undefined behaviour, although such an object answers that
it is not created and a plain publisher object in this state sends nothing. -/
theorem C133_violated_moved_from (known : Nat → Bool) (s : St) (d k : Nat) (ob : Obj) (hu : s.ub = false) (hd : s.objs d = none) (hk : s.objs k = some ob)
    (sub : Bool) : isCreated (run known s [.moveNew d k]) k = false ∧ (run known s [.moveNew d k, .send k sub]).ub = true := by
  have hdk : ¬ k = d := fun e => by rw [e, hd] at hk; cases hk
  have e1 : step known s (.moveNew d k) = { s with objs := set (set s.objs k (some { id := ob.id })) d (some ob) } := by
    unfold step
    rw [if_neg (by simp [hu])]
    simp only
    rw [if_neg (by rw [hd]; decide), hk]
  simp only [run]
  rw [e1]
  refine ⟨by simp [isCreated, set, hdk], ?_⟩
  unfold step
  rw [if_neg (by simp [hu])]
  simp [set, hdk]

example : (run all {} [.newMsg 0 1 5, .make 0 [97] (some 0)]).ub = false ∧ (run all {} [.newMsg 0 1 5, .make 0 [97] (some 0)]).objs 1 = none ∧
    ((run all {} [.newMsg 0 1 5, .make 0 [97] (some 0)]).objs 0).isSome = true := by decide +kernel

/-- **C133 violated: no message.**  A publisher object made with a null pointer is announced, without type, and its first send is undefined. -/
theorem C133_violated_null : isCreated (run all {} [.make 0 [97] none]) 0 = true ∧ ((run all {} [.make 0 [97] none]).gate 0).map (·.info) = some none ∧
    (run all {} [.make 0 [97] none, .send 0 false]).ub = true := by decide +kernel

/-- **C133 violated: assignment to itself.**  A publisher object that is moved to itself is destroyed; it sends nothing any more. -/
theorem C133_violated_self_move : isCreated (run all {} [.newMsg 0 1 5, .make 0 [97] (some 0)]) 0 = true ∧
    isCreated (run all {} [.newMsg 0 1 5, .make 0 [97] (some 0), .moveTo 0 0]) 0 = false ∧
    (run all {} [.newMsg 0 1 5, .make 0 [97] (some 0), .moveTo 0 0, .send 0 true]).sent = [] := by decide +kernel

/-- **C133 violated: type.**  Created again, the object sends its message under a type that is not the type of the message, with the id that was
set for the publisher before. -/
theorem C133_violated_created_again :
    ((run all {} [.newMsg 0 1 5, .make 0 [97] (some 0), .setId 0 7, .destroy 0, .create 0 [98] (some 3), .send 0 true]).gate 1).map (·.info) = some (some 3) ∧
    ((run all {} [.newMsg 0 1 5, .make 0 [97] (some 0), .setId 0 7, .destroy 0, .create 0 [98] (some 3), .send 0 true]).msgs 0).map (·.type) = some 1 ∧
    (run all {} [.newMsg 0 1 5, .make 0 [97] (some 0), .setId 0 7, .destroy 0, .create 0 [98] (some 3), .send 0 true]).sent = [⟨1, [98], 7, 5⟩] := by decide +kernel

/-- **C133 violated: type set by the application.**  The type of any publisher can be set to one that its message does not have. -/
theorem C133_violated_set_type :
    ((run all {} [.newMsg 0 1 5, .make 0 [97] (some 0), .setInfo 0 (some 3), .send 0 true]).gate 0).map (·.info) = some (some 3) ∧
    (run all {} [.newMsg 0 1 5, .make 0 [97] (some 0), .setInfo 0 (some 3), .send 0 true]).sent = [⟨0, [97], 0, 5⟩] := by decide +kernel

end Ecal.Msg.DynPub
