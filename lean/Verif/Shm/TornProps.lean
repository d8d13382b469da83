import Verif.Shm.Torn
import Verif.Shm.MemFileProps

/-! # C19: no torn samples -/

namespace Ecal.Shm.Torn

open Ecal.Shm

/-! ## The write program writes the sample -/

def execAll (f : File) (l : List Micro) : File := l.foldl exec f

theorem overwrite_cons (data : List Byte) (off : Nat) (b : Byte) (bs : List Byte)
    (h : off < data.length) :
    overwrite (data.set off b) (off + 1) bs = overwrite data off (b :: bs) := by
  unfold overwrite
  have h1 : (data.set off b).take (off + 1) = data.take off ++ [b] := by
    rw [List.take_set, List.take_add_one, List.getElem?_eq_getElem h]
    rw [List.set_append_right _ _ (by simp; omega)]
    simp [List.length_take, Nat.min_eq_left (Nat.le_of_lt h)]
  have h2 : (data.set off b).drop (off + 1 + bs.length) = data.drop (off + (b :: bs).length) := by
    rw [List.drop_set, if_pos (by omega)]
    congr 1
    simp; omega
  rw [h1, h2]
  simp

theorem execAll_puts (bs : List Byte) (off : Nat) (f : File) (h : off + bs.length ≤ f.data.length) :
    execAll f (puts off bs) = { f with data := overwrite f.data off bs } := by
  induction bs generalizing off f with
  | nil => simp [execAll, puts, overwrite]
  | cons b bs ih =>
    have hlt : off < f.data.length := by simp at h; omega
    rw [show execAll f (puts off (b :: bs)) =
      execAll { f with data := f.data.set off b } (puts (off + 1) bs) from rfl]
    rw [ih (off + 1) _ (by simp at h ⊢; omega)]
    simp only [overwrite_cons f.data off b bs hlt]

theorem execAll_append (f : File) (l m : List Micro) :
    execAll f (l ++ m) = execAll (execAll f l) m := by simp [execAll]

theorem execAll_program (f : File) (hdr c : List Byte) (hf : f.data.length = f.max)
    (hfit : hdr.length + c.length ≤ f.max) :
    contents (execAll f (program hdr c)) = hdr ++ c ∧
      (execAll f (program hdr c)).data.length = (execAll f (program hdr c)).max ∧
      (execAll f (program hdr c)).max = f.max := by
  have hl1 : (overwrite f.data 0 hdr).length = f.data.length := length_overwrite _ _ _ (by omega)
  have ht1 : (overwrite f.data 0 hdr).take hdr.length = hdr := by
    simpa using overwrite_region f.data hdr 0 (by omega)
  have h1 : execAll f (.setCur hdr.length :: puts 0 hdr) =
      { f with cur := hdr.length, data := overwrite f.data 0 hdr } := by
    rw [show execAll f (.setCur hdr.length :: puts 0 hdr) =
      execAll { f with cur := hdr.length } (puts 0 hdr) from rfl]
    rw [execAll_puts _ _ _ (by simp; omega)]
  unfold program
  rw [execAll_append, h1]
  by_cases hc : c = []
  · subst hc
    simp only [if_true, List.append_nil]
    exact ⟨ht1, by simpa [execAll, hf] using hl1, rfl⟩
  · rw [if_neg hc]
    have h2 : execAll { f with cur := hdr.length, data := overwrite f.data 0 hdr }
        (.setCur (c.length + hdr.length) :: puts hdr.length c) =
        { f with cur := c.length + hdr.length,
                 data := overwrite (overwrite f.data 0 hdr) hdr.length c } := by
      rw [show execAll { f with cur := hdr.length, data := overwrite f.data 0 hdr }
        (.setCur (c.length + hdr.length) :: puts hdr.length c) =
        execAll { f with cur := c.length + hdr.length, data := overwrite f.data 0 hdr }
          (puts hdr.length c) from rfl]
      rw [execAll_puts _ _ _ (by simp only [hl1]; omega)]
    rw [h2]
    refine ⟨?_, ?_, rfl⟩
    · show List.take (c.length + hdr.length) _ = hdr ++ c
      rw [Nat.add_comm, List.take_add,
        overwrite_below _ _ _ _ (Nat.le_refl _) (by rw [hl1]; omega), ht1,
        overwrite_region _ _ _ (by rw [hl1]; omega)]
    · show (overwrite (overwrite f.data 0 hdr) hdr.length c).length = f.max
      rw [length_overwrite _ _ _ (by rw [hl1]; omega), hl1, hf]

/-! ## Invariant -/

structure Inv (st : State) : Prop where
  size     : st.f.data.length = st.f.max
  writer   : st.writing = true → st.holder = some .writer ∧
    contents (execAll st.f st.prog) = st.target ∧
    (execAll st.f st.prog).data.length = (execAll st.f st.prog).max
  owner    : st.holder = some .writer → st.writing = true
  readers  : ∀ i ∈ st.reading, st.holder = some (.reader i)
  quiet    : st.holder ≠ some .dead → st.writing = false → contents st.f = st.completed
  whole    : ∀ p ∈ st.log, p.1 = p.2

theorem exec_size (f : File) (m : Micro) (h : f.data.length = f.max) :
    (exec f m).data.length = (exec f m).max := by
  cases m <;> simpa [exec] using h

/-- What a granted lock yields. -/
theorem acquire_spec {cfg : Config} {st : State} {f : File} {comp : List Byte} (h : Inv st)
    (ha : acquire cfg st = some (f, comp)) :
    f.data.length = f.max ∧ f.max = st.f.max ∧ contents f = comp ∧ st.writing = false ∧
      st.reading = [] := by
  have hread : ∀ o, st.holder = o → (∀ i, o ≠ some (.reader i)) → st.reading = [] := by
    intro o ho hne
    cases hr : st.reading with
    | nil => rfl
    | cons i l =>
      have := h.readers i (by rw [hr]; simp)
      rw [ho] at this
      exact absurd this (hne i)
  have hwr : st.holder ≠ some .writer → st.writing = false := by
    intro hne
    cases hw : st.writing with
    | false => rfl
    | true => exact absurd (h.writer hw).1 hne
  unfold acquire at ha
  cases ho : st.holder with
  | none =>
    rw [ho] at ha
    simp only [Option.some.injEq, Prod.mk.injEq] at ha
    obtain ⟨rfl, rfl⟩ := ha
    have hw := hwr (by rw [ho]; simp)
    exact ⟨h.size, rfl, h.quiet (by rw [ho]; simp) hw, hw, hread _ ho (by simp)⟩
  | some o =>
    rw [ho] at ha
    cases o with
    | writer => cases ha
    | reader i => cases ha
    | dead =>
      simp only at ha
      split at ha
      · simp only [Option.some.injEq, Prod.mk.injEq] at ha
        obtain ⟨rfl, rfl⟩ := ha
        exact ⟨h.size, rfl, by simp [contents], hwr (by rw [ho]; simp), hread _ ho (by simp)⟩
      · cases ha

/-- With the plain lock a reader handle may only be destroyed by the reader that holds the lock, or
while nobody does. -/
def Allowed (cfg : Config) (st : State) : Step → Prop
  | .destroy i => cfg.robust = true ∨ st.holder = some (.reader i) ∨ st.holder = none
  | _ => True

theorem releaseBy_self (cfg : Config) (o : Holder) : releaseBy cfg (some o) o = none := by
  unfold releaseBy; split <;> simp

/-- Removing the lock of a reader that holds it, or of nobody. -/
theorem inv_free {st : State} (h : Inv st) (hno : st.holder ≠ some .writer)
    (hd : st.holder ≠ some .dead) : Inv { st with reading := [], holder := none } where
  size := h.size
  writer := fun hw => absurd (h.writer hw).1 hno
  owner := fun ho => by cases ho
  readers := fun i hi => by cases hi
  quiet := fun _ hw => h.quiet hd hw
  whole := h.whole

theorem reading_of_reader {st : State} (h : Inv st) {i : Nat} (ho : st.holder = some (.reader i)) :
    st.reading.filter (fun j => j != i) = [] := by
  rw [List.filter_eq_nil_iff]
  intro j hj
  have := h.readers j hj
  rw [ho] at this
  simp at this
  simp [this]

theorem reading_of_other {st : State} (h : Inv st) (ho : ∀ i, st.holder ≠ some (.reader i)) :
    st.reading = [] := by
  cases hr : st.reading with
  | nil => rfl
  | cons i l => exact absurd (h.readers i (by rw [hr]; simp)) (ho i)

theorem inv_release {cfg : Config} {st : State} (h : Inv st) (i : Nat)
    (hal : cfg.robust = true ∨ st.holder = some (.reader i) ∨ st.holder = none) :
    Inv { st with reading := st.reading.filter (fun j => j != i)
                  holder := releaseBy cfg st.holder (.reader i) } := by
  by_cases ho : st.holder = some (.reader i)
  · rw [reading_of_reader h ho]
    have : releaseBy cfg st.holder (.reader i) = none := by rw [ho]; exact releaseBy_self _ _
    rw [this]
    exact inv_free h (by rw [ho]; simp) (by rw [ho]; simp)
  · by_cases hn : st.holder = none
    · have hr : st.reading = [] := reading_of_other h (by rw [hn]; simp)
      have : releaseBy cfg st.holder (.reader i) = none := by
        rw [hn]; unfold releaseBy; split <;> simp
      rw [this, hr]
      exact inv_free h (by rw [hn]; simp) (by rw [hn]; simp)
    · have hrob : cfg.robust = true := by
        rcases hal with h1 | h1 | h1
        · exact h1
        · exact absurd h1 ho
        · exact absurd h1 hn
      have hrel : releaseBy cfg st.holder (.reader i) = st.holder := by
        unfold releaseBy; rw [if_pos hrob, if_neg ho]
      rw [hrel]
      exact {
        size := h.size, writer := h.writer, owner := h.owner, quiet := h.quiet, whole := h.whole
        readers := fun j hj => h.readers j (List.mem_filter.1 hj).1 }

theorem inv_step (cfg : Config) {st : State} (h : Inv st) (a : Step) (hal : Allowed cfg st a) :
    Inv (step cfg st a) := by
  cases a with
  | wLock hdr c =>
    simp only [step]
    by_cases hw : st.writing = true
    · rw [if_pos hw]; exact h
    rw [if_neg hw]
    by_cases hb : hdr = [] ∨ st.f.max < hdr.length + c.length
    · rw [if_pos hb]; exact h
    rw [if_neg hb]
    cases ha : acquire cfg st with
    | none => exact h
    | some p =>
      obtain ⟨f, comp⟩ := p
      obtain ⟨h1, h2, h3, h4, h5⟩ := acquire_spec h ha
      have hfit : hdr.length + c.length ≤ f.max := by
        rw [h2]; exact Nat.le_of_not_lt (fun hlt => hb (Or.inr hlt))
      obtain ⟨e1, e2, e3⟩ := execAll_program f hdr c h1 hfit
      exact {
        size := h1
        writer := fun _ => ⟨rfl, e1, e2⟩
        owner := fun _ => rfl
        readers := by intro i hi; simp only [h5] at hi; cases hi
        quiet := by intro _ hw'; cases hw'
        whole := h.whole }
  | wMicro =>
    simp only [step]
    by_cases hw : st.writing = true
    · rw [if_pos hw]
      obtain ⟨w1, w2, w3⟩ := h.writer hw
      cases hp : st.prog with
      | nil => exact h
      | cons m ms =>
        rw [hp] at w2 w3
        exact {
          size := exec_size _ _ h.size
          writer := fun _ => ⟨w1, w2, w3⟩
          owner := h.owner
          readers := h.readers
          quiet := by intro _ hw'; rw [hw] at hw'; cases hw'
          whole := h.whole }
    · rw [if_neg hw]; exact h
  | wUnlock =>
    simp only [step]
    by_cases hw : st.writing = true ∧ st.prog = []
    · rw [if_pos hw]
      obtain ⟨w1, w2, w3⟩ := h.writer hw.1
      have hrel : releaseBy cfg st.holder .writer = none := by rw [w1]; exact releaseBy_self _ _
      rw [hw.2] at w2
      have hr := reading_of_other h (by rw [w1]; simp)
      rw [hrel]
      exact {
        size := h.size
        writer := by intro h'; cases h'
        owner := by intro h'; cases h'
        readers := by intro i hi; simp only [hr] at hi; cases hi
        quiet := fun _ _ => w2
        whole := h.whole }
    · rw [if_neg hw]; exact h
  | crash =>
    simp only [step]
    by_cases hw : st.writing = true
    · rw [if_pos hw]
      obtain ⟨w1, w2, w3⟩ := h.writer hw
      rw [if_pos w1]
      have hr := reading_of_other h (by rw [w1]; simp)
      exact {
        size := h.size
        writer := by intro h'; cases h'
        owner := by intro h'; cases h'
        readers := by intro i hi; simp only [hr] at hi; cases hi
        quiet := by intro h'; exact absurd rfl h'
        whole := h.whole }
    · rw [if_neg hw]; exact h
  | rLock i =>
    simp only [step]
    by_cases hi : i ∈ st.reading
    · rw [if_pos hi]; exact h
    rw [if_neg hi]
    cases ha : acquire cfg st with
    | none => exact h
    | some p =>
      obtain ⟨f, comp⟩ := p
      obtain ⟨h1, h2, h3, h4, h5⟩ := acquire_spec h ha
      exact {
        size := h1
        writer := by intro h'; rw [show st.writing = true from h'] at h4; cases h4
        owner := by intro h'; cases h'
        readers := by
          intro j hj
          simp only [h5, List.mem_cons, List.not_mem_nil, or_false] at hj
          subst hj; rfl
        quiet := fun _ _ => h3
        whole := h.whole }
  | rRead i =>
    simp only [step]
    by_cases hi : i ∈ st.reading
    · rw [if_pos hi]
      have ho := h.readers i hi
      have hnw : st.writing = false := by
        cases hw : st.writing with
        | false => rfl
        | true => have := (h.writer hw).1; rw [ho] at this; cases this
      have hq := h.quiet (by rw [ho]; simp) hnw
      exact {
        size := h.size, writer := h.writer, owner := h.owner, readers := h.readers, quiet := h.quiet
        whole := by
          intro p hp
          rw [List.mem_append, List.mem_singleton] at hp
          rcases hp with hp | rfl
          · exact h.whole p hp
          · exact hq }
    · rw [if_neg hi]; exact h
  | rUnlock i =>
    simp only [step]
    by_cases hi : i ∈ st.reading
    · rw [if_pos hi]; exact inv_release h i (Or.inr (Or.inl (h.readers i hi)))
    · rw [if_neg hi]; exact h
  | destroy i => exact inv_release h i hal

theorem inv_init (f : File) (hf : f.data.length = f.max) :
    Inv { f := f, completed := contents f } where
  size := hf
  writer := by intro h; cases h
  owner := by intro h; cases h
  readers := by intro i hi; cases hi
  quiet := fun _ _ => rfl
  whole := by intro p hp; cases hp

/-- All steps of a trace are allowed. -/
def AllAllowed (cfg : Config) : State → List Step → Prop
  | _, [] => True
  | st, a :: l => Allowed cfg st a ∧ AllAllowed cfg (step cfg st a) l

theorem inv_run (cfg : Config) (steps : List Step) {st : State} (h : Inv st)
    (hal : AllAllowed cfg st steps) : Inv (run cfg st steps) := by
  induction steps generalizing st with
  | nil => exact h
  | cons a l ih => exact ih (inv_step cfg h a hal.1) hal.2

theorem allAllowed_robust (steps : List Step) (st : State) : AllAllowed ⟨true⟩ st steps := by
  induction steps generalizing st with
  | nil => trivial
  | cons a l ih =>
    refine ⟨?_, ih _⟩
    cases a <;> first | exact Or.inl rfl | trivial

/-- **C19.**  With the recoverable lock: for every interleaving of single memory updates, locks, reads,
unlocks, destructions of handles and crashes at any point of a write, everything any reader ever
obtains is the last completely written sample or (after a crash) nothing – never a mixture. -/
theorem C19_no_torn_sample (f : File) (hf : f.data.length = f.max) (steps : List Step) :
    ∀ p ∈ (run ⟨true⟩ { f := f, completed := contents f } steps).log, p.1 = p.2 :=
  (inv_run ⟨true⟩ steps (inv_init f hf) (allAllowed_robust steps _)).whole

/-- After a crash the next lock yields an empty segment, whatever the crash left behind. -/
theorem C19_empty_after_crash (st : State) (i : Nat) (hd : st.holder = some .dead)
    (hr : i ∉ st.reading) :
    (run ⟨true⟩ st [.rLock i, .rRead i]).log = st.log ++ [([], [])] := by
  simp [run, step, acquire, hd, hr]

/-- … and the channel works again: the next complete write is what readers get. -/
theorem C19_recovers (st : State) (hdr c : List Byte) (i : Nat) (h : Inv st)
    (hd : st.holder = some .dead) (hh : hdr ≠ []) (hfit : hdr.length + c.length ≤ st.f.max) :
    (run ⟨true⟩ st ([.wLock hdr c] ++ List.replicate (program hdr c).length .wMicro ++
      [.wUnlock, .rLock i, .rRead i])).log = st.log ++ [(hdr ++ c, hdr ++ c)] := by
  have hnw : st.writing = false := by
    cases hw : st.writing with
    | false => rfl
    | true => have := (h.writer hw).1; rw [hd] at this; cases this
  have hr : st.reading = [] := reading_of_other h (by rw [hd]; simp)
  have h1 : step ⟨true⟩ st (.wLock hdr c) =
      { st with f := { st.f with cur := 0 }, completed := [], holder := some .writer, writing := true,
                prog := program hdr c, target := hdr ++ c } := by
    have hb : ¬ (hdr = [] ∨ st.f.max < hdr.length + c.length) := by
      rintro (hb | hb)
      · exact hh hb
      · omega
    simp [step, hnw, acquire, hd, hb]
  have hmicro : ∀ (p : List Micro) (s : State), s.writing = true → s.prog = p →
      run ⟨true⟩ s (List.replicate p.length .wMicro) = { s with f := execAll s.f p, prog := [] } := by
    intro p
    induction p with
    | nil =>
      intro s _ hp
      show s = { s with f := s.f, prog := [] }
      rw [← hp]
    | cons m ms ih =>
      intro s hw hp
      rw [List.length_cons, List.replicate_succ]
      rw [show run ⟨true⟩ s (Step.wMicro :: List.replicate ms.length .wMicro) =
        run ⟨true⟩ (step ⟨true⟩ s .wMicro) (List.replicate ms.length .wMicro) from rfl]
      have hs : step ⟨true⟩ s .wMicro = { s with f := exec s.f m, prog := ms } := by
        simp [step, hw, hp]
      rw [hs, ih { s with f := exec s.f m, prog := ms } hw rfl]
      rfl
  rw [show run ⟨true⟩ st ([.wLock hdr c] ++ List.replicate (program hdr c).length .wMicro ++
      [.wUnlock, .rLock i, .rRead i]) =
    run ⟨true⟩ (run ⟨true⟩ (step ⟨true⟩ st (.wLock hdr c))
      (List.replicate (program hdr c).length .wMicro)) [.wUnlock, .rLock i, .rRead i] by
    simp [run]]
  rw [h1, hmicro (program hdr c) _ rfl rfl]
  obtain ⟨e1, _, _⟩ := execAll_program { st.f with cur := 0 } hdr c h.size hfit
  simp only [contents] at e1
  simp [run, step, releaseBy, acquire, hr, e1]

/-- **C19 for the plain lock (part)**: as long as no reader destroys its handle while somebody else
holds the lock, nothing torn is ever read either (after a crash nothing is read at all). -/
theorem C19_plain_lock_partial (f : File) (hf : f.data.length = f.max) (steps : List Step)
    (hal : AllAllowed ⟨false⟩ { f := f, completed := contents f } steps) :
    ∀ p ∈ (run ⟨false⟩ { f := f, completed := contents f } steps).log, p.1 = p.2 :=
  (inv_run ⟨false⟩ steps (inv_init f hf) hal).whole

def sampleFile : File := { max := 6, cur := 5, data := [1, 1, 7, 7, 7, 0] }

/-- The hypothesis is satisfiable by a trace with writes, reads, a crash and a harmless destruction. -/
example : AllAllowed ⟨false⟩ { f := sampleFile, completed := contents sampleFile }
    [.rLock 0, .rRead 0, .rUnlock 0, .destroy 0, .wLock [2, 2] [9], .wMicro, .crash, .rLock 1,
     .rRead 1] := by
  refine ⟨trivial, trivial, trivial, ?_, trivial, trivial, trivial, trivial, trivial, trivial⟩
  exact Or.inr (Or.inr (by decide +kernel))

/-- **C19 (and C18, C47) are violated with the plain lock**, which is the one used for topic data: a
subscriber that destroys its handle while a sample is being written releases the writer's lock, and
another subscriber reads a mixture – here without any crash. -/
theorem C19_violated_foreign_destroy :
    (run ⟨false⟩ { f := sampleFile, completed := contents sampleFile }
      [.wLock [2, 2] [9, 9, 9], .wMicro, .wMicro, .wMicro, .wMicro, .wMicro, .destroy 0, .rLock 1,
       .rRead 1]).log = [([2, 2, 9, 7, 7], [1, 1, 7, 7, 7])] := by decide +kernel

/-- The same after a crash of the writer. -/
theorem C19_violated_crash_then_destroy :
    (run ⟨false⟩ { f := sampleFile, completed := contents sampleFile }
      [.wLock [2, 2] [9, 9, 9], .wMicro, .wMicro, .wMicro, .wMicro, .wMicro, .crash, .destroy 0,
       .rLock 1, .rRead 1]).log = [([2, 2, 9, 7, 7], [1, 1, 7, 7, 7])] := by decide +kernel

/-- **Recovery is violated with the plain lock**: after a crash in a write, no reader and no writer
gets access any more, for ever, unless somebody destroys a handle. -/
theorem C19_violated_plain_lock_stuck (st : State) (hd : st.holder = some .dead)
    (hw : st.writing = false) (hr : st.reading = []) (steps : List Step)
    (hnd : ∀ i, Step.destroy i ∉ steps) :
    (run ⟨false⟩ st steps).holder = some .dead ∧ (run ⟨false⟩ st steps).log = st.log := by
  induction steps generalizing st with
  | nil => exact ⟨hd, rfl⟩
  | cons a l ih =>
    have hs : step ⟨false⟩ st a = st := by
      cases a with
      | wLock hdr c => simp [step, hw, acquire, hd]
      | wMicro => simp [step, hw]
      | wUnlock => simp [step, hw]
      | crash => simp [step, hw]
      | rLock i => simp [step, hr, acquire, hd]
      | rRead i => simp [step, hr]
      | rUnlock i => simp [step, hr]
      | destroy i => exact absurd (by simp) (hnd i)
    have := ih st hd hw hr (fun i hi => hnd i (by simp [hi]))
    rw [show run ⟨false⟩ st (a :: l) = run ⟨false⟩ (step ⟨false⟩ st a) l from rfl, hs]
    exact this

end Ecal.Shm.Torn
