import Verif.Sync.NamedEvent

/-!
# Lemmas on named events

The restriction on histories, `Calm`, and the invariant it keeps.
-/

namespace Ecal.Sync.NamedEvent

/-- The constructor of the object is running, or its destructor. -/
def busy : Han → Bool
  | .gone | .ready _ | .bad | .mute => false
  | _ => true

/-- A step a calm user takes: no system call fails, nobody opens a name while another object of the name
is being constructed or destroyed, an owner closes the event only when no other object of the name is
left, and processes die only outside of constructor and destructor. -/
def CalmStep (s : State) : Step → Prop
  | .new h n _ => ∀ k, k ≠ h → (s.objs k).name = n → busy (s.objs k).han = false
  | .sys _ ok => ok = true
  | .close h => (s.objs h).owner = true → ∀ k, k ≠ h → (s.objs k).name = (s.objs h).name → (s.objs k).han = .gone
  | .die h => busy (s.objs h).han = false
  | _ => True

def Calm : State → List Step → Prop
  | _, [] => True
  | s, a :: l => CalmStep s a ∧ Calm (step s a) l

def good (s : State) (o : Nat) : Prop := ∃ i, s.inodes[o]? = some i ∧ i.sized = true ∧ i.inited = true

/-- No other object of the name of `h`. -/
def alone (s : State) (h : Nat) : Prop := ∀ k, k ≠ h → (s.objs k).name = (s.objs h).name → (s.objs k).han = .gone

/-- Every other object of the name of `h` is at rest. -/
def calmAround (s : State) (h : Nat) : Prop :=
  ∀ k, k ≠ h → (s.objs k).name = (s.objs h).name → busy (s.objs k).han = false

/-- What holds of the object `h`. -/
def objOk (s : State) (h : Nat) : Prop :=
  match (s.objs h).han with
  | .gone => True
  | .start => calmAround s h
  | .opened o => s.link (s.objs h).name = some o ∧ good s o ∧ calmAround s h
  | .missing => s.link (s.objs h).name = none ∧ alone s h
  | .made o => s.link (s.objs h).name = some o ∧ o < s.inodes.length ∧ alone s h
  | .grown o => s.link (s.objs h).name = some o ∧ (∃ i, s.inodes[o]? = some i ∧ i.sized = true) ∧ alone s h
  | .mapped o => s.link (s.objs h).name = some o ∧ (∃ i, s.inodes[o]? = some i ∧ i.sized = true) ∧ alone s h
  | .ready o => s.link (s.objs h).name = some o ∧ good s o
  | .bad => False
  | .mute => False
  | .unmapped => alone s h

/-- Objects that initialise the event of their name. -/
def creating : Han → Bool
  | .made _ | .grown _ | .mapped _ => true
  | _ => false

structure Inv (s : State) : Prop where
  crash : s.crash = none
  objs : ∀ h, objOk s h
  bound : ∀ n o, s.link n = some o → o < s.inodes.length
  inj : ∀ n m o, s.link n = some o → s.link m = some o → n = m
  ripe : ∀ n o, s.link n = some o → (∀ h, (s.objs h).name = n → creating (s.objs h).han = false) → good s o

theorem inv_init : Inv {} := by
  constructor <;> simp [objOk]

theorem inv_new (s : State) (h n : Nat) (w : Bool) (hi : Inv s) (hc : CalmStep s (.new h n w)) :
    Inv (newEvent s h n w) := by
  unfold newEvent
  split
  · rename_i hg
    have ho := hi.objs
    refine ⟨hi.crash, ?_, hi.bound, hi.inj, ?_⟩
    · intro k
      have hk := ho k
      simp only [CalmStep] at hc
      by_cases hkh : k = h
      · subst hkh
        simp only [objOk, upd, calmAround, if_true]
        intro j hj
        simp only [if_neg hj]
        exact hc j hj
      · have e : upd s.objs h ⟨n, w, .start⟩ k = s.objs k := by simp [upd, hkh]
        have hck := hc k hkh
        unfold objOk at hk ⊢
        simp only [e]
        simp only [calmAround, alone, good, upd, busy] at hk hck ⊢
        split <;> grind
    · intro m o hl hcr
      refine hi.ripe m o hl fun k hk => ?_
      have := hcr k
      by_cases hkh : k = h
      · subst hkh; rw [hg]; rfl
      · simp only [upd, if_neg hkh] at this; exact this hk
  · exact hi

theorem inv_gone (s : State) (h : Nat) (hi : Inv s) (hb : busy (s.objs h).han = false) :
    Inv (setHan s h .gone) := by
  have ho := hi.objs
  refine ⟨hi.crash, ?_, hi.bound, hi.inj, ?_⟩
  · intro k
    have hk := ho k
    by_cases hkh : k = h
    · subst hkh; simp [objOk, setHan, upd]
    · unfold objOk at hk ⊢
      have e : (setHan s h .gone).objs k = s.objs k := by simp [setHan, upd, hkh]
      simp only [e]
      simp only [calmAround, alone, good, setHan, upd, busy] at hk hb ⊢
      split <;> grind
  · intro m o hl hcr
    refine hi.ripe m o hl fun k hk => ?_
    by_cases hkh : k = h
    · subst hkh; revert hb; cases (s.objs k).han <;> simp [busy, creating]
    · have := hcr k
      simp only [setHan, upd, if_neg hkh] at this; exact this hk

theorem inv_close (s : State) (h : Nat) (hi : Inv s) (hc : CalmStep s (.close h)) : Inv (closeEvent s h) := by
  have hh := hi.objs h
  unfold closeEvent
  split
  · rename_i o hr
    split
    · rename_i how
      have ho := hi.objs
      simp only [CalmStep] at hc
      have ha := hc how
      refine ⟨hi.crash, ?_, hi.bound, hi.inj, ?_⟩
      · intro k
        have hk := ho k
        have hak := ha k
        by_cases hkh : k = h
        · subst hkh
          simp only [objOk, setHan, upd, alone, if_true]
          intro j hj
          simp only [if_neg hj]
          exact ha j hj
        · unfold objOk at hk ⊢
          have e : (setHan s h .unmapped).objs k = s.objs k := by simp [setHan, upd, hkh]
          simp only [e]
          simp only [calmAround, alone, good, setHan, upd, busy] at hk ⊢
          split <;> grind
      · intro m o' hl hcr
        refine hi.ripe m o' hl fun k hk => ?_
        by_cases hkh : k = h
        · subst hkh; rw [hr]; rfl
        · have := hcr k
          simp only [setHan, upd, if_neg hkh] at this; exact this hk
    · exact inv_gone s h hi (by rw [hr]; rfl)
  · rename_i hr; simp only [objOk, hr] at hh
  · rename_i hr; simp only [objOk, hr] at hh
  · exact hi

/-- Steps that only change the handle of `h`. -/
theorem inv_setHan (s : State) (h : Nat) (x : Han) (hi : Inv s)
    (hx : objOk (setHan s h x) h) (hb : busy (s.objs h).han = true)
    (hcr : creating x = false → creating (s.objs h).han = false) :
    Inv (setHan s h x) := by
  have ho := hi.objs
  refine ⟨hi.crash, ?_, hi.bound, hi.inj, ?_⟩
  · intro k
    have hk := ho k
    have hh := ho h
    by_cases hkh : k = h
    · subst hkh; exact hx
    · unfold objOk at hk hh ⊢
      have e : (setHan s h x).objs k = s.objs k := by simp [setHan, upd, hkh]
      simp only [e]
      simp only [calmAround, alone, good, setHan, upd] at hk hh ⊢
      split <;> grind [busy]
  · intro m o hl hcm
    refine hi.ripe m o hl fun k hk => ?_
    by_cases hkh : k = h
    · subst hkh
      have := hcm k
      simp only [setHan, upd, if_true] at this
      exact hcr (this hk)
    · have := hcm k
      simp only [setHan, upd, if_neg hkh] at this; exact this hk

theorem inv_create (s : State) (h : Nat) (hi : Inv s) (hm : (s.objs h).han = .missing) (hb : s.link (s.objs h).name = none) :
    Inv (setHan { s with inodes := s.inodes ++ [{}], link := upd s.link (s.objs h).name (some s.inodes.length) } h (.made s.inodes.length)) := by
  have ho := hi.objs
  have hh := ho h
  have hbd := hi.bound
  refine ⟨hi.crash, ?_, ?_, ?_, ?_⟩
  · intro k
    have hk := ho k
    by_cases hkh : k = h
    · subst hkh
      simp only [objOk, hm] at hk
      simp only [objOk, setHan, upd, if_true, alone, List.length_append, List.length_singleton]
      refine ⟨trivial, by omega, fun j hj => ?_⟩
      simp only [if_neg hj]
      exact hk.2 j hj
    · simp only [objOk, hm] at hh
      unfold objOk at hk ⊢
      simp only [setHan, upd, if_neg hkh]
      simp only [calmAround, alone, good, upd] at hk hh ⊢
      split <;> grind
  · intro n o hl
    simp only [setHan, upd, List.length_append, List.length_singleton] at hl ⊢
    grind
  · have hj := hi.inj
    intro n m o h1 h2
    simp only [setHan, upd] at h1 h2
    grind
  · intro n o hl hcr
    simp only [setHan, upd] at hl hcr
    by_cases hn : n = (s.objs h).name
    · have := hcr h (by simp [hn])
      simp [creating] at this
    · rw [if_neg hn] at hl
      have hg := hi.ripe n o hl fun k hk => by
        by_cases hkh : k = h
        · subst hkh; exact absurd hk.symm hn
        · have := hcr k; simp only [if_neg hkh] at this; exact this hk
      obtain ⟨i, h1, h2⟩ := hg
      refine ⟨i, ?_, h2⟩
      simp only [setHan]
      grind

theorem inv_content (s : State) (h o : Nat) (x : Han) (i : Inode) (hi : Inv s) (hb : busy (s.objs h).han = true)
    (hal : alone s h) (hl : s.link (s.objs h).name = some o)
    (hx : objOk (setHan (setInode s o i) h x) h)
    (hgi : good s o → i.sized = true ∧ i.inited = true)
    (hcr : creating x = false → i.sized = true ∧ i.inited = true) :
    Inv (setHan (setInode s o i) h x) := by
  have ho := hi.objs
  have hbd := hi.bound
  have hj := hi.inj
  refine ⟨hi.crash, ?_, ?_, hi.inj, ?_⟩
  · intro k
    have hk := ho k
    by_cases hkh : k = h
    · subst hkh; exact hx
    · unfold objOk at hk ⊢
      simp only [setHan, setInode, upd, if_neg hkh]
      simp only [calmAround, alone, good, upd, List.length_set] at hk hal ⊢
      split <;> grind [busy]
  · intro n o' h'
    simp only [setHan, setInode, List.length_set] at h' ⊢
    exact hbd n o' h'
  · intro n o' h' hc
    simp only [setHan, setInode, upd] at h' hc
    by_cases hoo : o' = o
    · subst hoo
      have hn := hj _ _ _ h' hl
      have := hcr (by have := hc h (by simp [hn]); simpa using this)
      have hlt := hbd _ _ hl
      exact ⟨i, by simp [setHan, setInode, hlt], this⟩
    · have hg := hi.ripe n o' h' fun k hk => by
        by_cases hkh : k = h
        · subst hkh
          rw [hk] at hl; rw [hl] at h'; exact absurd (Option.some.inj h').symm hoo
        · have := hc k; simp only [if_neg hkh] at this; exact this hk
      obtain ⟨i', h1, h2⟩ := hg
      refine ⟨i', ?_, h2⟩
      simp only [setHan, setInode]
      grind

theorem inode_of (s : State) (o : Nat) (i : Inode) (h : s.inodes[o]? = some i) : inode s o = i := by
  simp [inode, h]

theorem inv_sys (s : State) (h : Nat) (hi : Inv s) : Inv (sys s h true) := by
  have hh := hi.objs h
  have hbd := hi.bound
  unfold sys
  split
  · rename_i hs
    simp only [objOk, hs] at hh
    split
    · rename_i o hl
      simp only [if_true]
      refine inv_setHan s h _ hi ?_ (by rw [hs]; rfl) (by intro; rw [hs]; rfl)
      have hg : good s o := hi.ripe _ _ hl fun k hk => by
        by_cases hkh : k = h
        · subst hkh; rw [hs]; rfl
        · have := hh k hkh hk
          revert this; cases (s.objs k).han <;> simp [busy, creating]
      simp only [objOk, setHan, upd, if_true, calmAround]
      refine ⟨hl, hg, fun j hj => ?_⟩
      simp only [if_neg hj]; exact hh j hj
    · rename_i hl
      refine inv_setHan s h _ hi ?_ (by rw [hs]; rfl) (by intro; rw [hs]; rfl)
      simp only [objOk, setHan, upd, if_true, alone]
      refine ⟨hl, fun j hj hjn => ?_⟩
      simp only [if_neg hj] at hjn ⊢
      have h1 := hh j hj hjn
      have h2 := hi.objs j
      unfold objOk at h2
      rw [hjn, hl] at h2
      revert h1 h2
      cases (s.objs j).han <;> simp [busy]
  · rename_i o hs
    simp only [objOk, hs] at hh
    simp only [if_true]
    refine inv_setHan s h _ hi ?_ (by rw [hs]; rfl) (by intro; rw [hs]; rfl)
    simp only [objOk, setHan, upd, if_true]
    exact ⟨hh.1, hh.2.1⟩
  · rename_i hs
    simp only [objOk, hs] at hh
    split
    · rename_i o hl; rw [hh.1] at hl; cases hl
    · simp only [if_true]
      exact inv_create s h hi hs hh.1
  · rename_i o hs
    simp only [objOk, hs] at hh
    simp only [if_true]
    refine inv_content s h o _ _ hi (by rw [hs]; rfl) hh.2.2 hh.1 ?_ ?_ (by intro hc; cases hc)
    · simp only [objOk, setHan, setInode, upd, if_true, alone]
      refine ⟨hh.1, ⟨{ inode s o with sized := true }, by simp [hh.2.1], rfl⟩, fun j hj => ?_⟩
      simp only [if_neg hj]; exact hh.2.2 j hj
    · rintro ⟨i, h1, h2⟩
      rw [inode_of s o i h1]; exact ⟨rfl, h2.2⟩
  · rename_i o hs
    simp only [objOk, hs] at hh
    simp only [if_true]
    refine inv_setHan s h _ hi ?_ (by rw [hs]; rfl) (by intro hc; cases hc)
    simp only [objOk, setHan, upd, if_true, alone]
    refine ⟨hh.1, hh.2.1, fun j hj => ?_⟩
    simp only [if_neg hj]; exact hh.2.2 j hj
  · rename_i o hs
    simp only [objOk, hs] at hh
    obtain ⟨h1, ⟨i, h2, h3⟩, h4⟩ := hh
    have he := inode_of s o i h2
    have hlt := hbd _ _ h1
    refine inv_content s h o _ _ hi (by rw [hs]; rfl) h4 h1 ?_ ?_ ?_
    · simp only [objOk, setHan, setInode, upd, if_true, good]
      exact ⟨h1, _, by rw [List.getElem?_set_self hlt], by rw [he]; exact h3, rfl⟩
    · intro _; rw [he]; exact ⟨h3, rfl⟩
    · intro _; rw [he]; exact ⟨h3, rfl⟩
  · rename_i hs
    simp only [objOk, hs] at hh
    have ho := hi.objs
    refine ⟨hi.crash, ?_, ?_, ?_, ?_⟩
    · intro k
      have hk := ho k
      by_cases hkh : k = h
      · subst hkh; simp [objOk, setHan, upd]
      · unfold objOk at hk ⊢
        simp only [setHan, upd, if_neg hkh]
        simp only [calmAround, alone, good, upd] at hk hh ⊢
        split <;> grind [busy]
    · intro n o hl
      simp only [setHan, upd] at hl ⊢
      grind
    · have hj := hi.inj
      intro n m o h1 h2
      simp only [setHan, upd] at h1 h2
      grind
    · intro n o hl hcr
      simp only [setHan, upd] at hl hcr
      by_cases hn : n = (s.objs h).name
      · rw [if_pos hn] at hl; cases hl
      · rw [if_neg hn] at hl
        refine hi.ripe n o hl fun k hk => ?_
        by_cases hkh : k = h
        · subst hkh; exact absurd hk.symm hn
        · have := hcr k; simp only [if_neg hkh] at this; exact this hk
  · exact hi

/-- A change of the flag keeps everything. -/
theorem inv_flag (s : State) (o : Nat) (b : Bool) (w : List (Nat × Bool)) (hi : Inv s) (hg : good s o) :
    Inv { setInode s o { inode s o with set := b } with waits := w } := by
  obtain ⟨i, h1, h2, h3⟩ := hg
  have he := inode_of s o i h1
  have ho := hi.objs
  have key : ∀ k, good s k → good { setInode s o { inode s o with set := b } with waits := w } k := by
    rintro k ⟨j, g1, g2⟩
    unfold good
    simp only [setInode]
    by_cases hk : k = o
    · subst hk
      have hlt : k < s.inodes.length := by grind
      exact ⟨_, by rw [List.getElem?_set_self hlt], by rw [he]; exact ⟨h2, h3⟩⟩
    · exact ⟨j, by rw [List.getElem?_set_ne (Ne.symm hk)]; exact g1, g2⟩
  have key2 : ∀ k : Nat, (∃ j : Inode, s.inodes[k]? = some j ∧ j.sized = true) →
      ∃ j : Inode, (s.inodes.set o { inode s o with set := b })[k]? = some j ∧ j.sized = true := by
    rintro k ⟨j, g1, g2⟩
    by_cases hk : k = o
    · subst hk
      have hlt : k < s.inodes.length := by grind
      exact ⟨_, by rw [List.getElem?_set_self hlt], by rw [he]; exact h2⟩
    · exact ⟨j, by rw [List.getElem?_set_ne (Ne.symm hk)]; exact g1, g2⟩
  refine ⟨hi.crash, ?_, ?_, hi.inj, ?_⟩
  · intro k
    have hk := ho k
    unfold objOk at hk ⊢
    simp only [setInode] at key ⊢
    simp only [calmAround, alone, List.length_set] at hk ⊢
    split <;> grind
  · intro n o' hl; simp only [setInode, List.length_set]; exact hi.bound n o' hl
  · intro n o' hl hc; exact key o' (hi.ripe n o' hl hc)

theorem fault_good (s : State) (o : Nat) (h : good s o) : fault s o = none := by
  obtain ⟨i, h1, h2, h3⟩ := h
  simp [fault, inode_of s o i h1, h2, h3]

theorem inv_set (s : State) (h : Nat) (hi : Inv s) : Inv (setEvent s h) := by
  have hh := hi.objs h
  unfold setEvent
  split
  · rename_i o hs
    simp only [objOk, hs] at hh
    rw [fault_good s o hh.2]
    exact inv_flag s o true s.waits hi hh.2
  · rename_i hs; simp only [objOk, hs] at hh
  · exact hi

theorem inv_wait (s : State) (h : Nat) (hi : Inv s) : Inv (waitEvent s h) := by
  have hh := hi.objs h
  unfold waitEvent
  split
  · rename_i o hs
    simp only [objOk, hs] at hh
    rw [fault_good s o hh.2]
    exact inv_flag s o false _ hi hh.2
  · rename_i hs; simp only [objOk, hs] at hh
  · rename_i hs; simp only [objOk, hs] at hh
  · exact hi

theorem inv_step (s : State) (a : Step) (hi : Inv s) (hc : CalmStep s a) : Inv (step s a) := by
  unfold step
  rw [if_neg (by rw [hi.crash]; simp)]
  cases a with
  | new h n w => exact inv_new s h n w hi hc
  | sys h ok => simp only [CalmStep] at hc; subst hc; exact inv_sys s h hi
  | set h => exact inv_set s h hi
  | wait h => exact inv_wait s h hi
  | close h => exact inv_close s h hi hc
  | die h => exact inv_gone s h hi hc

theorem inv_run (l : List Step) : ∀ s : State, Inv s → Calm s l → Inv (run s l) := by
  induction l with
  | nil => intro s hi _; exact hi
  | cons a l ih => intro s hi hc; exact ih _ (inv_step s a hi hc.1) hc.2

theorem after_set (s : State) (h o : Nat) (hi : Inv s) (hs : (s.objs h).han = .ready o) :
    Inv (step s (.set h)) ∧ (step s (.set h)).waits = s.waits ∧ (step s (.set h)).objs = s.objs ∧
      (inode (step s (.set h)) o).set = true := by
  refine ⟨inv_step s _ hi trivial, ?_⟩
  have hh := hi.objs h
  simp only [objOk, hs] at hh
  have hlt := hi.bound _ _ hh.1
  have e : step s (.set h) = setInode s o { inode s o with set := true } := by
    simp [step, hi.crash, setEvent, hs, fault_good s o hh.2]
  rw [e]
  refine ⟨rfl, rfl, ?_⟩
  simp [inode, setInode, hlt]

theorem after_wait (s : State) (h o : Nat) (hi : Inv s) (hs : (s.objs h).han = .ready o) :
    Inv (step s (.wait h)) ∧ (step s (.wait h)).waits = s.waits ++ [(h, (inode s o).set)] ∧
      (step s (.wait h)).objs = s.objs ∧ (inode (step s (.wait h)) o).set = false := by
  refine ⟨inv_step s _ hi trivial, ?_⟩
  have hh := hi.objs h
  simp only [objOk, hs] at hh
  have hlt := hi.bound _ _ hh.1
  have e : step s (.wait h) =
      { setInode s o { inode s o with set := false } with waits := s.waits ++ [(h, (inode s o).set)] } := by
    simp [step, hi.crash, waitEvent, hs, fault_good s o hh.2]
  rw [e]
  refine ⟨rfl, rfl, ?_⟩
  simp [inode, setInode, hlt]

/-! ## Deciding calmness of concrete histories -/

def calmStepB (N : Nat) (s : State) : Step → Bool
  | .new h n _ => decide (h < N) &&
    (List.range N).all fun k => k == h || (s.objs k).name != n || !busy (s.objs k).han
  | .sys h ok => decide (h < N) && ok
  | .set h | .wait h => decide (h < N)
  | .close h => decide (h < N) && (!(s.objs h).owner ||
    (List.range N).all fun k => k == h || (s.objs k).name != (s.objs h).name || (s.objs k).han == .gone)
  | .die h => decide (h < N) && !busy (s.objs h).han

def calmB (N : Nat) : State → List Step → Bool
  | _, [] => true
  | s, a :: l => calmStepB N s a && calmB N (step s a) l

theorem step_far (N : Nat) (s : State) (a : Step) (hN : calmStepB N s a = true) (k : Nat) (hk : N ≤ k) :
    (step s a).objs k = s.objs k := by
  unfold step
  split
  · rfl
  · cases a <;> simp only [calmStepB, Bool.and_eq_true, decide_eq_true_eq] at hN
    case new h n w =>
      have : k ≠ h := by omega
      simp only [newEvent]; split <;> simp [upd, this]
    case sys h ok =>
      have : k ≠ h := by omega
      simp only [sys]; repeat' split
      all_goals simp [setHan, setInode, upd, this]
    case set h => simp only [setEvent]; repeat' split
                  all_goals simp [setInode]
    case wait h => simp only [waitEvent]; repeat' split
                   all_goals simp [setInode]
    case close h =>
      have : k ≠ h := by omega
      simp only [closeEvent]; repeat' split
      all_goals simp [setHan, upd, this]
    case die h =>
      have : k ≠ h := by omega
      simp [setHan, upd, this]

theorem calm_of_calmB (N : Nat) (l : List Step) : ∀ s : State, (∀ k, N ≤ k → (s.objs k).han = .gone) →
    calmB N s l = true → Calm s l := by
  induction l with
  | nil => intro s _ _; trivial
  | cons a l ih =>
    intro s hf hb
    simp only [calmB, Bool.and_eq_true] at hb
    refine ⟨?_, ih _ (fun k hk => by rw [step_far N s a hb.1 k hk]; exact hf k hk) hb.2⟩
    have h1 := hb.1
    cases a <;> simp only [calmStepB, CalmStep] at h1 ⊢
    case new h n w =>
      intro k hk hn
      rcases Nat.lt_or_ge k N with hlt | hge
      · simp only [Bool.and_eq_true, List.all_eq_true, List.mem_range] at h1
        have := h1.2 k hlt
        simpa [hk, hn] using this
      · rw [hf k hge]; rfl
    case sys h ok => simp at h1; exact h1.2
    case close h =>
      intro ho k hk hn
      rcases Nat.lt_or_ge k N with hlt | hge
      · simp only [Bool.and_eq_true, ho, Bool.not_true, Bool.false_or, List.all_eq_true, List.mem_range] at h1
        have := h1.2 k hlt
        simpa [hk, hn] using this
      · exact hf k hge
    case die h => simp at h1; exact h1.2

end Ecal.Sync.NamedEvent
