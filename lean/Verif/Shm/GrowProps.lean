import Verif.Shm.Grow

/-! # Properties of the memory files of a publisher (C68) -/

namespace Ecal.Shm.Grow

theorem foldl_connect (l : List Nat) (f : SFile) (hc : f.created = true) (hn : (f.conn ++ l).Nodup) :
    l.foldl connect f = { f with conn := f.conn ++ l } := by
  induction l generalizing f with
  | nil => cases f; simp
  | cons a r ih =>
    have ha : a ∉ f.conn := by
      intro h
      have := (List.nodup_append.1 hn).2.2 a h a List.mem_cons_self
      exact this rfl
    have e : connect f a = { f with conn := f.conn ++ [a] } := by
      unfold connect; rw [hc]; simp [ha]
    have hi := ih { f with conn := f.conn ++ [a] } hc (by simpa [List.append_assoc] using hn)
    rw [List.foldl_cons, e, hi]
    simp

/-- A usable file. -/
def Good (c : Cfg) (f : SFile) : Prop := f.created = true ∧ c.hdr ≤ f.max ∧ f.conn.Nodup

/-- A recreation that succeeds keeps the connected processes. -/
theorem recreate_good (c : Cfg) (f : SFile) (size fresh : Nat) (h : Good c f) :
    recreate c f size fresh true =
      (⟨true, Nat.max (c.hdr + size) c.minSize, f.conn, fresh⟩, true) := by
  obtain ⟨h1, _, h3⟩ := h
  unfold recreate create destroy
  simp only [h1, Bool.not_true, Bool.false_eq_true, if_false]
  rw [foldl_connect _ _ rfl (by simpa using h3)]
  simp

/-- A failed recreation: not created, nobody connected. -/
theorem recreate_failed (c : Cfg) (f : SFile) (size fresh : Nat) (h : f.created = true) :
    recreate c f size fresh false = (⟨false, 0, [], fresh⟩, false) := by
  unfold recreate create destroy
  simp [h]

theorem good_max (c : Cfg) (size fresh : Nat) (l : List Nat) (hl : l.Nodup) :
    Good c ⟨true, Nat.max (c.hdr + size) c.minSize, l, fresh⟩ :=
  ⟨rfl, Nat.le_trans (Nat.le_add_right _ _) (Nat.le_max_left _ _), hl⟩

theorem checkSize_good (c : Cfg) (f : SFile) (len fresh : Nat) (h : Good c f) :
    Good c (checkSize c f len fresh true).1 ∧ (checkSize c f len fresh true).1.conn = f.conn ∧
      c.hdr + len ≤ (checkSize c f len fresh true).1.max ∧ f.max ≤ (checkSize c f len fresh true).1.max := by
  unfold checkSize
  rw [h.1]
  by_cases hlt : f.max < c.hdr + len
  · have hm := Nat.le_max_left (c.hdr + (c.hdr + len + c.reserve len)) c.minSize
    simp only [Bool.not_true, Bool.false_eq_true, if_false, if_pos hlt, recreate_good c f _ _ h]
    exact ⟨good_max _ _ _ _ h.2.2, trivial, Nat.le_trans (by omega) hm, Nat.le_trans (by omega) hm⟩
  · simp only [Bool.not_true, Bool.false_eq_true, if_false, if_neg hlt]
    exact ⟨h, trivial, by omega, Nat.le_refl _⟩

theorem fits_of (c : Cfg) (f : SFile) (len : Nat) (h0 : 0 < c.hdr) (h : c.hdr + len ≤ f.max) :
    fits c f len = true := by
  have : c.hdr ≤ f.max := by omega
  simp [fits, h0, this, h]

theorem fits_max (c : Cfg) (f : SFile) (len : Nat) (h : fits c f len = true) : c.hdr + len ≤ f.max := by
  simp only [fits, Bool.and_eq_true, decide_eq_true_eq, Bool.or_eq_true, beq_iff_eq] at h
  rcases h with ⟨⟨_, h1⟩, h2 | h2⟩
  · omega
  · exact h2

theorem write_good (c : Cfg) (f : SFile) (len fresh : Nat) (l1 l2 : Bool) (h : Good c f)
    (h0 : 0 < c.hdr) (hl : c.hdr + len ≤ f.max) :
    Good c (write c f len fresh l1 true l2).1 ∧ (write c f len fresh l1 true l2).1.conn = f.conn ∧
      f.max ≤ (write c f len fresh l1 true l2).1.max ∧
      (write c f len fresh l1 true l2).2 = (l1 || l2) := by
  unfold write
  rw [h.1]
  cases l1 with
  | true =>
    simp only [Bool.not_true, Bool.false_eq_true, if_false, if_true, Bool.true_or]
    exact ⟨h, trivial, Nat.le_refl _, fits_of c f len h0 hl⟩
  | false =>
    have hm := Nat.le_max_left (c.hdr + f.max) c.minSize
    simp only [Bool.not_true, Bool.false_eq_true, if_false, Bool.false_or, recreate_good c f _ _ h]
    have hf : fits c ⟨true, Nat.max (c.hdr + f.max) c.minSize, f.conn, fresh⟩ len = true :=
      fits_of _ _ _ h0 (Nat.le_trans (by omega) hm)
    cases l2 with
    | true =>
      simp only [if_true]
      exact ⟨good_max _ _ _ _ h.2.2, trivial, Nat.le_trans (by omega) hm, hf⟩
    | false =>
      simp only [Bool.false_eq_true, if_false]
      exact ⟨good_max _ _ _ _ h.2.2, trivial, Nat.le_trans (by omega) hm, trivial⟩

/-- The creation of memory files never fails during this operation. -/
def CreationsSucceed : Op → Prop
  | .send _ e => e.create1 = true ∧ e.create2 = true
  | _ => True

/-- The documented result of an operation: a send succeeds when the file could be locked at once or
after the recreation. -/
def expected : Op → Bool
  | .send _ e => e.lock1 || e.lock2
  | _ => true

/-- The state after the operations `done`: `n` usable files, all with exactly the subscribed processes. -/
def Inv (c : Cfg) (n : Nat) (done : List Op) (w : Writer) : Prop :=
  w.files.length = n ∧ ∀ f ∈ w.files, Good c f ∧ ∀ p, p ∈ f.conn ↔ Op.subscribe p ∈ done

theorem inv_step (c : Cfg) (n : Nat) (done : List Op) (w : Writer) (o : Op) (h0 : 0 < c.hdr)
    (hn : 0 < n) (h : Inv c n done w) (ho : CreationsSucceed o) :
    ∃ w', step c w o = .sent w' (expected o) ∧ Inv c n (done ++ [o]) w' := by
  obtain ⟨hl, hf⟩ := h
  cases o with
  | subscribe p =>
    refine ⟨_, rfl, by simpa [subscribe] using hl, ?_⟩
    intro f hm
    simp only [subscribe, List.mem_map] at hm
    obtain ⟨f0, hm0, rfl⟩ := hm
    obtain ⟨hg, hp⟩ := hf f0 hm0
    unfold connect
    rw [hg.1]
    by_cases hpc : p ∈ f0.conn
    · simp only [Bool.not_true, Bool.false_eq_true, if_false, if_pos hpc]
      refine ⟨hg, fun q => ?_⟩
      simp only [List.mem_append, List.mem_singleton, Op.subscribe.injEq]
      constructor
      · intro hq; exact Or.inl ((hp q).1 hq)
      · rintro (hq | rfl)
        · exact (hp q).2 hq
        · exact hpc
    · simp only [Bool.not_true, Bool.false_eq_true, if_false, if_neg hpc]
      refine ⟨⟨rfl, hg.2.1, List.nodup_append.2 ⟨hg.2.2, by simp, ?_⟩⟩, fun q => ?_⟩
      · intro a ha b hb
        simp only [List.mem_singleton] at hb
        subst hb
        exact fun e => hpc (e ▸ ha)
      · simp only [List.mem_append, List.mem_singleton, Op.subscribe.injEq]
        rw [hp q]
  | unsubscribe p =>
    refine ⟨_, rfl, hl, fun f hm => ⟨(hf f hm).1, fun q => ?_⟩⟩
    rw [(hf f hm).2 q]; simp
  | register =>
    refine ⟨_, rfl, hl, fun f hm => ⟨(hf f hm).1, fun q => ?_⟩⟩
    rw [(hf f hm).2 q]; simp
  | send len e =>
    obtain ⟨ho1, ho2⟩ := ho
    have hi : w.idx % w.files.length < w.files.length := Nat.mod_lt _ (by omega)
    obtain ⟨f, hfe⟩ : ∃ f, w.files[w.idx % w.files.length]? = some f :=
      ⟨_, List.getElem?_eq_getElem hi⟩
    have hfm : f ∈ w.files := List.mem_of_getElem? hfe
    obtain ⟨hg, hp⟩ := hf f hfm
    obtain ⟨c1, c2, c3, c4⟩ := checkSize_good c f len w.fresh hg
    have hne : ¬ w.files.length = 0 := by omega
    simp only [step, send, if_neg hne, hfe, ho1, ho2]
    have wg := fun fresh => write_good c _ len fresh e.lock1 e.lock2 c1 h0 c3
    have key : ∀ (w1 : Writer) (fresh : Nat),
        w1.files = w.files.set (w.idx % w.files.length) (checkSize c f len w.fresh true).1 →
        Inv c n (done ++ [Op.send len e])
          { w1 with
            files := w1.files.set (w.idx % w.files.length) (write c (checkSize c f len w.fresh true).1 len fresh e.lock1 true e.lock2).1
            idx := (w.idx % w.files.length + 1) % w1.files.length
            fresh := fresh + 1 } := by
      intro w1 fresh hw
      refine ⟨by simp [hw, hl], fun g hgm => ?_⟩
      rw [hw] at hgm
      simp only [List.set_set] at hgm
      rcases List.mem_or_eq_of_mem_set hgm with hgm | rfl
      · exact ⟨(hf g hgm).1, fun q => by rw [(hf g hgm).2 q]; simp⟩
      · refine ⟨(wg fresh).1, fun q => ?_⟩
        rw [(wg fresh).2.1, c2, hp q]; simp
    by_cases hr : (checkSize c f len w.fresh true).2 = true
    · simp only [if_pos hr]
      refine ⟨_, ?_, key (register { w with files := w.files.set (w.idx % w.files.length) (checkSize c f len w.fresh true).1, idx := w.idx % w.files.length, fresh := w.fresh + 1 }) (w.fresh + 1) rfl⟩
      simp only [register, (wg _).2.2.2, expected]
    · simp only [if_neg hr]
      refine ⟨_, ?_, key { w with files := w.files.set (w.idx % w.files.length) (checkSize c f len w.fresh true).1, idx := w.idx % w.files.length, fresh := w.fresh + 1 } (w.fresh + 1) rfl⟩
      simp only [(wg _).2.2.2, expected]

theorem inv_run (c : Cfg) (n : Nat) (h0 : 0 < c.hdr) (hn : 0 < n) (ops done : List Op) (w : Writer)
    (h : Inv c n done w) (ho : ∀ o ∈ ops, CreationsSucceed o) :
    ∃ w', run c w ops = some (w', ops.map expected) ∧ Inv c n (done ++ ops) w' := by
  induction ops generalizing w done with
  | nil => exact ⟨w, rfl, by simpa using h⟩
  | cons o r ih =>
    obtain ⟨w1, h1, h2⟩ := inv_step c n done w o h0 hn h (ho o List.mem_cons_self)
    obtain ⟨w2, h3, h4⟩ := ih (done ++ [o]) w1 h2 (fun x hx => ho x (List.mem_cons_of_mem _ hx))
    refine ⟨w2, ?_, by simpa using h4⟩
    simp [run, h1, h3]

theorem inv_init (c : Cfg) (oks : List Bool) (h : ∀ b ∈ oks, b = true) :
    Inv c oks.length [] (init c oks) := by
  have ha : oks.all id = true := by simpa using h
  simp only [init, createFiles, ha, if_true]
  refine ⟨by simp, fun f hf => ?_⟩
  simp only [List.mem_map] at hf
  obtain ⟨i, _, rfl⟩ := hf
  exact ⟨good_max _ _ _ _ List.nodup_nil, by simp⟩

/-- C68 (partial: as long as the creation of memory files succeeds): whatever sizes are sent in whatever
order, every send succeeds for which the file can be locked, and every memory file stays connected with
all the processes that ever subscribed. -/
theorem C68_grows_partial (c : Cfg) (oks : List Bool) (ops : List Op) (h0 : 0 < c.hdr)
    (hne : oks ≠ []) (hoks : ∀ b ∈ oks, b = true) (ho : ∀ o ∈ ops, CreationsSucceed o) :
    ∃ w, run c (init c oks) ops = some (w, ops.map expected) ∧ w.files.length = oks.length ∧
      ∀ f ∈ w.files, f.created = true ∧ ∀ p, p ∈ f.conn ↔ Op.subscribe p ∈ ops := by
  obtain ⟨w, h1, h2, h3⟩ := inv_run c oks.length h0 (List.length_pos_iff.2 hne) ops [] _
    (inv_init c oks hoks) ho
  exact ⟨w, h1, h2, fun f hf => ⟨(h3 f hf).1.1, by simpa using (h3 f hf).2⟩⟩

theorem write_sent (c : Cfg) (f : SFile) (len fresh : Nat) (l1 ok l2 : Bool)
    (h : (write c f len fresh l1 ok l2).2 = true) :
    c.hdr + len ≤ (write c f len fresh l1 ok l2).1.max := by
  unfold write at h ⊢
  cases hc : f.created with
  | false => rw [hc] at h; simp at h
  | true =>
    rw [hc] at h
    cases l1 with
    | true =>
      simp only [Bool.not_true, Bool.false_eq_true, if_false, if_true] at h ⊢
      exact fits_max _ _ _ h
    | false =>
      simp only [Bool.not_true, Bool.false_eq_true, if_false] at h ⊢
      rcases hr : recreate c f f.max fresh ok with ⟨f', b⟩
      rw [hr] at h
      cases b with
      | false => simp at h
      | true =>
        cases l2 with
        | false => simp at h
        | true => simp only [if_true] at h ⊢; exact fits_max _ _ _ h

/-- C68: whatever happened before, a send reports success only if the file used has room for the header
and the whole payload. -/
theorem C68_sent_has_room (c : Cfg) (w w' : Writer) (len : Nat) (e : Env)
    (h : send c w len e = .sent w' true) :
    ∃ f, w'.files[w.idx % w.files.length]? = some f ∧ c.hdr + len ≤ f.max := by
  unfold send at h
  by_cases hne : w.files.length = 0
  · rw [if_pos hne] at h; cases h
  · rw [if_neg hne] at h
    have hi : w.idx % w.files.length < w.files.length := Nat.mod_lt _ (by omega)
    obtain ⟨f, hfe⟩ : ∃ f, w.files[w.idx % w.files.length]? = some f :=
      ⟨_, List.getElem?_eq_getElem hi⟩
    simp only [hfe, Out.sent.injEq] at h
    obtain ⟨h1, h2⟩ := h
    subst h1
    refine ⟨_, ?_, write_sent _ _ _ _ _ _ _ h2⟩
    dsimp only
    rw [List.getElem?_set_self]
    by_cases hr : (checkSize c f len w.fresh e.create1).2 = true
    · simp only [if_pos hr, register, List.length_set]; exact hi
    · simp only [if_neg hr, List.length_set]; exact hi

/-- Neither a creation nor the first lock fails. -/
def Undisturbed : Op → Prop
  | .send _ e => e.create1 = true ∧ e.lock1 = true
  | _ => True

/-- The names announced are those in use. -/
def Announced (w : Writer) : Prop := w.announced = w.files.map (·.name)

theorem names_connect (fs : List SFile) (p : Nat) :
    (fs.map (connect · p)).map (·.name) = fs.map (·.name) := by
  induction fs with
  | nil => rfl
  | cons f r ih =>
    simp only [List.map_cons, ih]
    congr 1
    unfold connect
    by_cases h1 : (!f.created) = true
    · rw [if_pos h1]
    · rw [if_neg h1]
      by_cases h2 : p ∈ f.conn
      · rw [if_pos h2]
      · rw [if_neg h2]

theorem checkSize_false (c : Cfg) (f : SFile) (len fresh : Nat)
    (h : (checkSize c f len fresh true).2 = false) : (checkSize c f len fresh true).1 = f := by
  unfold checkSize at h ⊢
  by_cases hc : f.created = true
  · rw [hc] at h ⊢
    simp only [Bool.not_true, Bool.false_eq_true, if_false] at h ⊢
    by_cases hl : f.max < c.hdr + len
    · rw [if_pos hl] at h
      unfold recreate create destroy at h
      simp [hc] at h
    · rw [if_neg hl]
  · simp [hc]

theorem write_lock1 (c : Cfg) (f : SFile) (len fresh : Nat) (ok l2 : Bool) :
    (write c f len fresh true ok l2).1 = f := by
  unfold write
  by_cases h : (!f.created) = true
  · rw [if_pos h]
  · rw [if_neg h]; simp

theorem announced_step (c : Cfg) (w w' : Writer) (o : Op) (b : Bool) (h : Announced w)
    (hu : Undisturbed o) (hs : step c w o = .sent w' b) : Announced w' := by
  cases o with
  | subscribe p =>
    simp only [step, Out.sent.injEq] at hs
    rw [← hs.1]
    simp only [Announced, subscribe, names_connect]; exact h
  | unsubscribe p => simp only [step, unsubscribe, Out.sent.injEq] at hs; exact hs.1 ▸ h
  | register => simp only [step, Out.sent.injEq] at hs; rw [← hs.1]; rfl
  | send len e =>
    obtain ⟨hu1, hu2⟩ := hu
    simp only [step, send, hu1, hu2] at hs
    by_cases hne : w.files.length = 0
    · rw [if_pos hne] at hs; cases hs
    · rw [if_neg hne] at hs
      have hi : w.idx % w.files.length < w.files.length := Nat.mod_lt _ (by omega)
      obtain ⟨f, hfe⟩ : ∃ f, w.files[w.idx % w.files.length]? = some f :=
        ⟨_, List.getElem?_eq_getElem hi⟩
      simp only [hfe, Out.sent.injEq, write_lock1] at hs
      rw [← hs.1]
      by_cases hr : (checkSize c f len w.fresh true).2 = true
      · simp only [if_pos hr, register, names, Announced, List.set_set]
      · simp only [if_neg hr, List.set_set, Announced]
        rw [checkSize_false c f len w.fresh (by simpa using hr)]
        have : w.files.set (w.idx % w.files.length) f = w.files := by
          apply List.ext_getElem?
          intro j
          rw [List.getElem?_set]
          by_cases hj : w.idx % w.files.length = j
          · subst hj; rw [if_pos rfl, if_pos hi, hfe]
          · rw [if_neg hj]
        rw [this]; exact h

/-- C68 (partial: while no creation and no lock fails): the names of the memory files the publisher
announces are those it uses, after every operation. -/
theorem C68_announced_partial (c : Cfg) (oks : List Bool) (ops : List Op) (w : Writer) (res : List Bool)
    (hu : ∀ o ∈ ops, Undisturbed o) (h : run c (init c oks) ops = some (w, res)) :
    w.announced = w.files.map (·.name) := by
  suffices ∀ (ops : List Op) (w0 : Writer) (res : List Bool), (∀ o ∈ ops, Undisturbed o) →
      Announced w0 → run c w0 ops = some (w, res) → Announced w from
    this ops (init c oks) res hu rfl h
  intro ops
  induction ops with
  | nil =>
    intro w0 res _ ha hr
    simp only [run, Option.some.injEq, Prod.mk.injEq] at hr
    exact hr.1 ▸ ha
  | cons o r ih =>
    intro w0 res hu ha hr
    cases hs : step c w0 o with
    | ub => simp [run, hs] at hr
    | sent w1 b =>
      simp only [run, hs, Option.map_eq_some_iff] at hr
      obtain ⟨⟨w2, res2⟩, hr1, hr2⟩ := hr
      simp only [Prod.mk.injEq] at hr2
      obtain ⟨rfl, rfl⟩ := hr2
      exact ih w1 res2 (fun x hx => hu x (List.mem_cons_of_mem _ hx))
        (announced_step c w0 w1 o b ha (hu o List.mem_cons_self) hs) hr1

/-- All files are gone. -/
def Dead (w : Writer) : Prop := ∃ f, w.files = [f] ∧ f.created = false ∧ f.conn = []

theorem dead_step (c : Cfg) (w w' : Writer) (o : Op) (b : Bool) (h : Dead w)
    (hs : step c w o = .sent w' b) : Dead w' ∧ (∀ len e, o = .send len e → b = false) := by
  obtain ⟨f, hf, hc, hn⟩ := h
  cases o with
  | subscribe p =>
    simp only [step, Out.sent.injEq] at hs
    refine ⟨⟨f, ?_, hc, hn⟩, fun _ _ e => by cases e⟩
    rw [← hs.1]; simp [subscribe, hf, connect, hc]
  | unsubscribe p =>
    simp only [step, unsubscribe, Out.sent.injEq] at hs
    exact ⟨⟨f, hs.1 ▸ hf, hc, hn⟩, fun _ _ e => by cases e⟩
  | register =>
    simp only [step, Out.sent.injEq] at hs
    exact ⟨⟨f, by rw [← hs.1]; exact hf, hc, hn⟩, fun _ _ e => by cases e⟩
  | send len e =>
    simp [step, send, hf, Nat.mod_one, checkSize, write, hc] at hs
    refine ⟨⟨f, ?_, hc, hn⟩, fun _ _ _ => hs.2⟩
    rw [← hs.1]

theorem dead_run (c : Cfg) (ops : List Op) (w w' : Writer) (res : List Bool) (h : Dead w)
    (hr : run c w ops = some (w', res)) :
    Dead w' ∧ ∀ (i : Nat) (len : Nat) (e : Env), ops[i]? = some (Op.send len e) → res[i]? = some false := by
  induction ops generalizing w res with
  | nil =>
    simp only [run, Option.some.injEq, Prod.mk.injEq] at hr
    exact ⟨hr.1 ▸ h, fun i len e he => by simp at he⟩
  | cons o r ih =>
    cases hs : step c w o with
    | ub => simp [run, hs] at hr
    | sent w1 b =>
      simp only [run, hs, Option.map_eq_some_iff] at hr
      obtain ⟨⟨w2, res2⟩, hr1, hr2⟩ := hr
      simp only [Prod.mk.injEq] at hr2
      obtain ⟨rfl, rfl⟩ := hr2
      obtain ⟨hd, hb⟩ := dead_step c w w1 o b h hs
      obtain ⟨h1, h2⟩ := ih w1 res2 hd hr1
      refine ⟨h1, fun i len e he => ?_⟩
      cases i with
      | zero =>
        simp only [List.getElem?_cons_zero, Option.some.injEq] at he ⊢
        exact hb len e he
      | succ j => simpa using h2 j len e (by simpa using he)

/-- The settings of the examples. -/
def cfg0 : Cfg := ⟨56, 4096, fun n => n / 2⟩

/-- C68 is violated after one failed creation: from then on every send fails and no process is
connected, whatever happens afterwards and however well the environment behaves. -/
theorem C68_violated_silent (ops : List Op) (w : Writer) (res : List Bool)
    (h : run cfg0 (init cfg0 [true]) (.subscribe 7 :: .send 8192 { create1 := false } :: ops) = some (w, res)) :
    (∀ (i : Nat) (len : Nat) (e : Env), ops[i]? = some (Op.send len e) → res[i + 2]? = some false) ∧
      ∀ f ∈ w.files, f.conn = [] := by
  have e1 : ∃ w1, step cfg0 (init cfg0 [true]) (.subscribe 7) = .sent w1 true ∧
      ∃ w2, step cfg0 w1 (.send 8192 { create1 := false }) = .sent w2 false ∧ Dead w2 :=
    ⟨_, rfl, _, rfl, _, rfl, rfl, rfl⟩
  obtain ⟨w1, h1, w2, h2, hd⟩ := e1
  simp only [run, h1, h2, Option.map_map, Option.map_eq_some_iff] at h
  obtain ⟨⟨w3, res3⟩, h3, h4⟩ := h
  simp only [Function.comp, Prod.mk.injEq] at h4
  obtain ⟨rfl, rfl⟩ := h4
  obtain ⟨⟨f, hf, _, hn⟩, h6⟩ := dead_run cfg0 ops w2 w3 res3 hd h3
  refine ⟨fun i len e he => by simpa using h6 i len e he, fun g hg => ?_⟩
  rw [hf] at hg
  simp only [List.mem_singleton] at hg
  exact hg ▸ hn

/-- … and such runs exist, with subsequent sends of any size. -/
example : (run cfg0 (init cfg0 [true])
    [.subscribe 7, .send 8192 { create1 := false }, .subscribe 7, .send 10 {}, .send 8192 {}]).map (·.2)
      = some [true, false, true, false, false] := by decide +kernel

/-- C68 is violated when the file had to be replaced because it could not be locked: the sample is
reported as sent, into a file whose name nobody has been told. -/
theorem C68_violated_not_announced :
    ∃ w, run cfg0 (init cfg0 [true]) [.subscribe 7, .send 10 { lock1 := false }] = some (w, [true, true]) ∧
      w.announced = [0] ∧ w.files.map (·.name) = [2] := ⟨_, rfl, rfl, rfl⟩

/-- C68 is violated when the files cannot be created at the start: the first send divides by zero. -/
theorem C68_violated_division :
    ∀ (c : Cfg) (len : Nat) (e : Env), send c (init c [true, false]) len e = .ub := by
  intro c len e
  simp [send, init, createFiles]

/-- C68: a process that gave up its subscription is signalled for ever. -/
theorem C68_violated_unsubscribe :
    ∃ w, run cfg0 (init cfg0 [true]) [.subscribe 7, .unsubscribe 7, .send 10 {}] =
      some (w, [true, true, true]) ∧ w.files.map (·.conn) = [[7]] := ⟨_, rfl, rfl⟩

/-- The hypotheses of the C68 theorems are met: two files, growing samples, a lock failure. -/
example :
    (run cfg0 (init cfg0 [true, true]) [.subscribe 7, .send 10 {}, .send 8192 {}, .subscribe 8,
        .send 8192 {}, .send 20000 { lock1 := false }]).map
        (fun x => (x.2, x.1.files.map (·.conn), x.1.files.map (·.max))) =
      some ([true, true, true, true, true, true], [[7, 8], [7, 8]], [12400, 30168]) := by decide +kernel

end Ecal.Shm.Grow
