import Verif.Sync.NamedEventLemmas

/-!
# What users may expect of named events

One flag per name, whoever holds the event: `set` raises it, `wait` reports and clears it, the owner's
destructor ends the event.  The reference knows nothing of shared memory objects; of the model it only
asks whether the constructor of a handle has returned and whether the destructor of an owner is running.
-/

namespace Ecal.Sync.NamedEvent

/-- The constructor of `h` has returned and `h` has not been closed. -/
def isOpen (s : State) (h : Nat) : Bool :=
  match (s.objs h).han with
  | .ready _ | .bad | .mute => true
  | _ => false

structure Ref where
  flag  : Nat → Bool := fun _ => false
  waits : List (Nat × Bool) := []

def refStep (s : State) (r : Ref) : Step → Ref
  | .set h => if isOpen s h then { r with flag := upd r.flag (s.objs h).name true } else r
  | .wait h =>
    if isOpen s h then ⟨upd r.flag (s.objs h).name false, r.waits ++ [(h, r.flag (s.objs h).name)]⟩ else r
  | .sys h _ => if (s.objs h).han = .unmapped then { r with flag := upd r.flag (s.objs h).name false } else r
  | _ => r

/-- The reference beside a history. -/
def refRun : State → Ref → List Step → Ref
  | _, r, [] => r
  | s, r, a :: l => refRun (step s a) (refStep s r a) l

structure Rel (s : State) (r : Ref) : Prop where
  waits : s.waits = r.waits
  flag : ∀ n o i, s.link n = some o → s.inodes[o]? = some i → i.set = r.flag n
  none : ∀ n, s.link n = none → r.flag n = false
  fresh : ∀ h, creating (s.objs h).han = true → r.flag (s.objs h).name = false

theorem rel_init : Rel {} {} := by
  constructor <;> simp [creating]

theorem rel_setHan (s : State) (r : Ref) (h : Nat) (x : Han) (hr : Rel s r)
    (hx : creating x = true → creating (s.objs h).han = true) : Rel (setHan s h x) r := by
  refine ⟨hr.waits, hr.flag, hr.none, fun k hk => ?_⟩
  simp only [setHan, upd] at hk ⊢
  by_cases hkh : k = h
  · subst hkh; simp only [if_true] at hk ⊢; exact hr.fresh k (hx hk)
  · simp only [if_neg hkh] at hk ⊢; exact hr.fresh k hk

theorem rel_sys (s : State) (r : Ref) (h : Nat) (hi : Inv s) (hr : Rel s r) :
    Rel (sys s h true) (refStep s r (.sys h true)) := by
  have hh := hi.objs h
  have hbd := hi.bound
  have hf := hr.flag
  unfold sys refStep
  simp only [if_true]
  split
  · rename_i hs
    rw [if_neg (by rw [hs]; simp)]
    split
    · exact rel_setHan s r h _ hr (by intro hc; cases hc)
    · exact rel_setHan s r h _ hr (by intro hc; cases hc)
  · rename_i o hs
    rw [if_neg (by rw [hs]; simp)]
    exact rel_setHan s r h _ hr (by intro hc; cases hc)
  · rename_i hs
    rw [if_neg (by rw [hs]; simp)]
    simp only [objOk, hs] at hh
    split
    · rename_i o hl; rw [hh.1] at hl; cases hl
    · refine ⟨hr.waits, ?_, ?_, ?_⟩
      · intro n o i hl hin
        simp only [setHan, upd] at hl hin
        by_cases hn : n = (s.objs h).name
        · rw [if_pos hn] at hl
          cases hl
          simp at hin
          subst hin
          rw [hn, hr.none _ hh.1]
        · rw [if_neg hn] at hl
          have := hbd n o hl
          rw [List.getElem?_append_left this] at hin
          exact hf n o i hl hin
      · intro n hl
        simp only [setHan, upd] at hl
        by_cases hn : n = (s.objs h).name
        · rw [if_pos hn] at hl; cases hl
        · rw [if_neg hn] at hl; exact hr.none n hl
      · intro k hk
        simp only [setHan, upd] at hk ⊢
        by_cases hkh : k = h
        · subst hkh; simpa using hr.none _ hh.1
        · simp only [if_neg hkh] at hk ⊢; exact hr.fresh k hk
  · rename_i o hs
    rw [if_neg (by rw [hs]; simp)]
    simp only [objOk, hs] at hh
    refine rel_setHan _ r h _ ⟨hr.waits, ?_, hr.none, hr.fresh⟩ (by intro; simp only [setInode]; rw [hs]; rfl)
    intro n o' i hl hin
    simp only [setInode] at hl hin
    by_cases hoo : o' = o
    · subst hoo
      rw [List.getElem?_set_self hh.2.1] at hin
      have h1 : s.inodes[o']? = some (inode s o') := by simp [inode, hh.2.1]
      have := hf n o' _ hl h1
      cases hin; exact this
    · rw [List.getElem?_set_ne (Ne.symm hoo)] at hin; exact hf n o' i hl hin
  · rename_i o hs
    rw [if_neg (by rw [hs]; simp)]
    exact rel_setHan s r h _ hr (by intro; rw [hs]; rfl)
  · rename_i o hs
    rw [if_neg (by rw [hs]; simp)]
    simp only [objOk, hs] at hh
    refine rel_setHan _ r h _ ⟨hr.waits, ?_, hr.none, hr.fresh⟩ (by intro hc; cases hc)
    intro n o' i hl hin
    simp only [setInode] at hl hin
    by_cases hoo : o' = o
    · subst hoo
      have hlt := hbd _ _ hh.1
      rw [List.getElem?_set_self hlt] at hin
      have hn := hi.inj _ _ _ hl hh.1
      have := hr.fresh h (by rw [hs]; rfl)
      cases hin
      rw [hn, this]
    · rw [List.getElem?_set_ne (Ne.symm hoo)] at hin; exact hf n o' i hl hin
  · rename_i hs
    rw [if_pos hs]
    simp only [objOk, hs] at hh
    refine ⟨hr.waits, ?_, ?_, ?_⟩
    · intro n o i hl hin
      simp only [setHan, upd] at hl hin ⊢
      by_cases hn : n = (s.objs h).name
      · rw [if_pos hn] at hl; cases hl
      · rw [if_neg hn] at hl ⊢; exact hf n o i hl hin
    · intro n hl
      simp only [setHan, upd] at hl ⊢
      by_cases hn : n = (s.objs h).name
      · rw [if_pos hn]
      · rw [if_neg hn] at hl ⊢; exact hr.none n hl
    · intro k hk
      simp only [setHan, upd] at hk ⊢
      by_cases hkh : k = h
      · subst hkh; simp [creating] at hk
      · simp only [if_neg hkh] at hk ⊢
        by_cases hn : (s.objs k).name = (s.objs h).name
        · rw [if_pos hn]
        · rw [if_neg hn]; exact hr.fresh k hk
  · rename_i h1 _ _ _ _ _ h2
    rw [if_neg (by intro hc; exact h2 hc)]
    exact hr

/-- A change of the flag of a ready event. -/
theorem rel_flag (s : State) (r : Ref) (h o : Nat) (b : Bool) (w : List (Nat × Bool)) (hi : Inv s) (hr : Rel s r)
    (hs : (s.objs h).han = .ready o) :
    Rel { setInode s o { inode s o with set := b } with waits := w } ⟨upd r.flag (s.objs h).name b, w⟩ := by
  have hh := hi.objs h
  simp only [objOk, hs] at hh
  refine ⟨rfl, ?_, ?_, ?_⟩
  · intro n o' i hl hin
    simp only [setInode, upd] at hl hin ⊢
    by_cases hoo : o' = o
    · subst hoo
      have hn := hi.inj _ _ _ hl hh.1
      rw [List.getElem?_set_self (hi.bound _ _ hl)] at hin
      cases hin
      rw [if_pos hn]
    · rw [List.getElem?_set_ne (Ne.symm hoo)] at hin
      rw [if_neg (by intro hn; rw [hn, hh.1] at hl; exact hoo (Option.some.inj hl).symm)]
      exact hr.flag n o' i hl hin
  · intro n hl
    simp only [setInode, upd] at hl ⊢
    rw [if_neg (by intro hn; rw [hn, hh.1] at hl; cases hl)]
    exact hr.none n hl
  · intro k hk
    change creating (s.objs k).han = true at hk
    change upd r.flag (s.objs h).name b (s.objs k).name = false
    simp only [upd]
    have hkh : k ≠ h := by intro hc; subst hc; rw [hs] at hk; cases hk
    have hok := hi.objs k
    rw [if_neg ?_]
    · exact hr.fresh k hk
    · intro hn
      have ha : alone s k := by
        unfold objOk at hok
        revert hk hok
        cases (s.objs k).han <;> simp only [creating] <;> intro hk hok
        all_goals first
          | exact hok.2.2
          | cases hk
      have := ha h (Ne.symm hkh) hn.symm
      rw [hs] at this
      cases this

theorem rel_step (s : State) (r : Ref) (a : Step) (hi : Inv s) (hr : Rel s r) (hc : CalmStep s a) :
    Rel (step s a) (refStep s r a) := by
  unfold step
  rw [if_neg (by rw [hi.crash]; simp)]
  cases a with
  | new h n w =>
    simp only [refStep, newEvent]
    split
    · rename_i hg
      refine ⟨hr.waits, hr.flag, hr.none, fun k hk => ?_⟩
      simp only [upd] at hk ⊢
      by_cases hkh : k = h
      · subst hkh; simp [creating] at hk
      · simp only [if_neg hkh] at hk ⊢; exact hr.fresh k hk
    · exact hr
  | sys h ok => simp only [CalmStep] at hc; subst hc; exact rel_sys s r h hi hr
  | set h =>
    have hh := hi.objs h
    simp only [setEvent, refStep]
    split
    · rename_i o hs
      simp only [objOk, hs] at hh
      rw [fault_good s o hh.2, if_pos (by simp [isOpen, hs])]
      have := rel_flag s r h o true s.waits hi hr hs
      rw [hr.waits] at this
      have e : (setInode s o { inode s o with set := true }).waits = r.waits := hr.waits
      refine ⟨e, this.flag, this.none, this.fresh⟩
    · rename_i hs; simp only [objOk, hs] at hh
    · rename_i h1 h2
      have : isOpen s h = false := by
        unfold isOpen
        split <;> simp_all [objOk]
      rw [if_neg (by rw [this]; simp)]
      exact hr
  | wait h =>
    have hh := hi.objs h
    simp only [waitEvent, refStep]
    split
    · rename_i o hs
      simp only [objOk, hs] at hh
      rw [fault_good s o hh.2, if_pos (by simp [isOpen, hs])]
      obtain ⟨i, h1, _⟩ := hh.2
      have e : (inode s o).set = r.flag (s.objs h).name := by
        rw [inode_of s o i h1]; exact hr.flag _ _ _ hh.1 h1
      have := rel_flag s r h o false (s.waits ++ [(h, (inode s o).set)]) hi hr hs
      rw [e, hr.waits] at this
      simp only
      rw [e, hr.waits]
      exact this
    · rename_i hs; simp only [objOk, hs] at hh
    · rename_i hs; simp only [objOk, hs] at hh
    · rename_i h1 h2 h3
      have : isOpen s h = false := by
        unfold isOpen
        split <;> simp_all
      rw [if_neg (by rw [this]; simp)]
      exact hr
  | close h =>
    simp only [closeEvent, refStep]
    split
    · split <;> exact rel_setHan s r h _ hr (by intro hc; cases hc)
    · split <;> exact rel_setHan s r h _ hr (by intro hc; cases hc)
    · exact rel_setHan s r h _ hr (by intro hc; cases hc)
    · exact hr
  | die h => exact rel_setHan s r h _ hr (by intro hc; cases hc)

theorem rel_run (l : List Step) : ∀ (s : State) (r : Ref), Inv s → Rel s r → Calm s l →
    Rel (run s l) (refRun s r l) := by
  induction l with
  | nil => intro s r _ hr _; exact hr
  | cons a l ih =>
    intro s r hi hr hc
    exact ih _ _ (inv_step s a hi hc.1) (rel_step s r a hi hr hc.1) hc.2

end Ecal.Sync.NamedEvent
