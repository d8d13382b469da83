import Verif.Life.Objects

/-!
# Lemmas about API objects and gates
-/

namespace Ecal.Life.Obj

/-- An implementation without its counterparts. -/
def core (m : Impl) : Kind × Name × Bool := (m.kind, m.name, m.run)

structure Inv (w : World) : Prop where
  flag : ∀ k, w.flag k = up w k
  live : ∀ k i, i ∈ w.gate k → ∃ m, w.impls i = some m ∧ m.kind = k ∧ m.run = true
  owned : ∀ k i, i ∈ w.gate k → ∃ o, w.objs k o = ⟨true, some i⟩
  nodup : ∀ k, (w.gate k).Nodup
  idle : ∀ k o, (w.objs k o).created = false → (w.objs k o).impl = none
  own : ∀ k o, (w.objs k o).created = true → ∃ i m, (w.objs k o).impl = some i ∧ w.impls i = some m ∧ m.kind = k
  uniq : ∀ k o k' o' i, (w.objs k o).impl = some i → (w.objs k' o').impl = some i → k = k' ∧ o = o'
  fresh : ∀ i, w.next ≤ i → w.impls i = none
  down : ∀ k, up w k = false → w.gate k = []
  topic : ∀ i m, w.impls i = some m → m.kind.topic = true → m.run = true → i ∈ w.gate m.kind
  mgr : up w .srv = true → w.mgrStopped = false
  noinit : ∀ c, w.life.ctx = some c → c.initialized = false → c.inst = 0
  quiet : ∀ i m, w.impls i = some m → m.kind = .pub → m.run = false → m.peers = []

theorem inv_start : Inv start := by
  constructor <;> simp [start, Life.start, up]

theorem stopped_kind (m : Impl) : (stopped m).kind = m.kind := by unfold stopped; split <;> rfl
theorem stopped_name (m : Impl) : (stopped m).name = m.name := by unfold stopped; split <;> rfl
theorem stopped_run (m : Impl) : (stopped m).run = false := by
  unfold stopped
  cases h : m.run <;> simp [h]
theorem stopped_of_stopped (m : Impl) (h : m.run = false) : stopped m = m := by
  unfold stopped; rw [if_neg (by simp [h])]
theorem stopped_stopped (m : Impl) : stopped (stopped m) = stopped m := stopped_of_stopped _ (stopped_run m)

theorem stopEach_eq (l : List Nat) : ∀ (w : World), (∀ i ∈ l, ∃ m, w.impls i = some m) →
    stopEach w l = some { w with impls := fun j => if j ∈ l then (w.impls j).map stopped else w.impls j } := by
  induction l with
  | nil => intro w _; simp [stopEach]
  | cons i l ih =>
    intro w h
    obtain ⟨m, hm⟩ := h i (by simp)
    have e : stopAt w i = some (setImpl w i (some (stopped m))) := by unfold stopAt; rw [hm]
    unfold stopEach
    rw [e]
    show stopEach (setImpl w i (some (stopped m))) l = _
    rw [ih]
    · unfold setImpl
      simp only [Option.some.injEq, World.mk.injEq, true_and, and_true]
      funext j
      by_cases hj : j = i
      · subst hj
        by_cases hl : j ∈ l <;> simp [hl, hm, stopped_stopped]
      · simp [hj]
    · intro j hj
      by_cases hji : j = i
      · subst hji; exact ⟨stopped m, by simp [setImpl]⟩
      · obtain ⟨m', hm'⟩ := h j (by simp [hj])
        exact ⟨m', by simp [setImpl, hji, hm']⟩

theorem stopGate_eq (w : World) (k : Kind) (hf : w.flag k = up w k) (hl : ∀ i ∈ w.gate k, ∃ m, w.impls i = some m)
    (hd : up w k = false → w.gate k = []) :
    ∃ w', stopGate w k = some w' ∧ w'.life = w.life ∧ w'.objs = w.objs ∧ w'.next = w.next ∧
      w'.mgrStopped = w.mgrStopped ∧ (∀ q, w'.flag q = if q = k then false else w.flag q) ∧
      (∀ j, w'.impls j = if j ∈ w.gate k then (w.impls j).map stopped else w.impls j) ∧
      (∀ q, q ≠ k → w'.gate q = w.gate q) := by
  unfold stopGate
  by_cases hu : up w k = true
  · rw [if_pos ⟨hu, by rw [hf]; exact hu⟩, stopEach_eq _ _ hl]
    by_cases ht : k.topic = true
    · refine ⟨_, rfl, ?_⟩
      rw [if_pos ht]
      refine ⟨rfl, rfl, rfl, rfl, fun q => rfl, fun j => rfl, fun q hq => ?_⟩
      show (if q = k then [] else w.gate q) = _
      rw [if_neg hq]
    · refine ⟨_, rfl, ?_⟩
      rw [if_neg ht]
      exact ⟨rfl, rfl, rfl, rfl, fun q => rfl, fun j => rfl, fun q hq => rfl⟩
  · have hu' : up w k = false := by simpa using hu
    rw [if_neg (by simp [hu'])]
    refine ⟨w, rfl, rfl, rfl, rfl, rfl, ?_, ?_, fun _ _ => rfl⟩
    · intro q
      by_cases hq : q = k
      · subst hq; rw [if_pos rfl, hf, hu']
      · rw [if_neg hq]
    · intro j; rw [hd hu']; simp

/-- Stopping everything in the gates. -/
theorem finalizeAll_eq (w : World) (hi : Inv w) :
    ∃ w', finalizeAll w = some w' ∧ w'.life = w.life ∧ w'.objs = w.objs ∧ w'.next = w.next ∧ w'.mgrStopped = true ∧
      (∀ q, w'.flag q = false) ∧ (∀ q, w'.gate q = []) ∧
      (∀ j, (∃ k, j ∈ w.gate k) → w'.impls j = (w.impls j).map stopped) ∧
      (∀ j, (¬ ∃ k, j ∈ w.gate k) → w'.impls j = w.impls j) := by
  let w0 : World := { w with mgrStopped := true }
  have u0 : ∀ q, up w0 q = up w q := fun q => rfl
  have L : ∀ k i, i ∈ w.gate k → ∃ m, w.impls i = some m := fun k i h => by
    obtain ⟨m, hm, _⟩ := hi.live k i h; exact ⟨m, hm⟩
  obtain ⟨w1, e1, l1, o1, n1, g1, f1, i1, q1⟩ := stopGate_eq w0 .cli (hi.flag _) (fun i h => L _ i h) (hi.down _)
  have u1 : ∀ q, up w1 q = up w q := fun q => by unfold up; rw [l1]
  have L1 : ∀ i, (∃ m, w.impls i = some m) → ∃ m, w1.impls i = some m := by
    rintro i ⟨m, hm⟩
    have hm0 : w0.impls i = some m := hm
    rw [i1, hm0]; split <;> simp
  obtain ⟨w2, e2, l2, o2, n2, g2, f2, i2, q2⟩ := stopGate_eq w1 .srv (by rw [f1, u1]; exact hi.flag _)
    (fun i h => L1 i (L .srv i (by rw [q1 _ (by decide)] at h; exact h)))
    (fun h => by rw [q1 _ (by decide)]; exact hi.down _ (by rw [← u1]; exact h))
  have u2 : ∀ q, up w2 q = up w q := fun q => by unfold up; rw [l2, l1]
  have L2 : ∀ i, (∃ m, w.impls i = some m) → ∃ m, w2.impls i = some m := by
    intro i h; obtain ⟨m, hm⟩ := L1 i h; rw [i2, hm]; split <;> simp
  obtain ⟨w3, e3, l3, o3, n3, g3, f3, i3, q3⟩ := stopGate_eq w2 .pub (by rw [f2, f1, u2]; exact hi.flag _)
    (fun i h => L2 i (L .pub i (by rw [q2 _ (by decide), q1 _ (by decide)] at h; exact h)))
    (fun h => by rw [q2 _ (by decide), q1 _ (by decide)]; exact hi.down _ (by rw [← u2]; exact h))
  have u3 : ∀ q, up w3 q = up w q := fun q => by unfold up; rw [l3, l2, l1]
  have L3 : ∀ i, (∃ m, w.impls i = some m) → ∃ m, w3.impls i = some m := by
    intro i h; obtain ⟨m, hm⟩ := L2 i h; rw [i3, hm]; split <;> simp
  obtain ⟨w4, e4, l4, o4, n4, g4, f4, i4, q4⟩ := stopGate_eq w3 .sub (by rw [f3, f2, f1, u3]; exact hi.flag _)
    (fun i h => L3 i (L .sub i (by rw [q3 _ (by decide), q2 _ (by decide), q1 _ (by decide)] at h; exact h)))
    (fun h => by rw [q3 _ (by decide), q2 _ (by decide), q1 _ (by decide)]; exact hi.down _ (by rw [← u3]; exact h))
  refine ⟨{ w4 with gate := fun _ => [] }, ?_, ?_⟩
  · unfold finalizeAll; rw [e1]; show (match stopGate w1 .srv with | none => none | some w2 => _) = _
    rw [e2]; show (match stopGate w2 .pub with | none => none | some w2 => _) = _
    rw [e3]; show (match stopGate w3 .sub with | none => none | some w2 => _) = _
    rw [e4]
  · refine ⟨by rw [l4, l3, l2, l1], by rw [o4, o3, o2, o1], by rw [n4, n3, n2, n1], by rw [g4, g3, g2, g1], ?_, fun _ => rfl, ?_, ?_⟩
    · intro q
      show w4.flag q = false
      rw [f4, f3, f2, f1]
      cases q <;> simp
    all_goals
      intro j
      show _ → w4.impls j = _
      have h2 : w1.gate .srv = w.gate .srv := by rw [q1 _ (by decide)]
      have h3 : w2.gate .pub = w.gate .pub := by rw [q2 _ (by decide), q1 _ (by decide)]
      have h4 : w3.gate .sub = w.gate .sub := by rw [q3 _ (by decide), q2 _ (by decide), q1 _ (by decide)]
      have hcli : w0.gate .cli = w.gate .cli := rfl
      have hw0 : w0.impls j = w.impls j := rfl
      rw [i4, i3, i2, i1, h2, h3, h4, hcli, hw0]
      intro hx
    · obtain ⟨k, hk⟩ := hx
      obtain ⟨m, hm⟩ := L k j hk
      rw [hm]
      have hany : j ∈ w.gate .cli ∨ j ∈ w.gate .srv ∨ j ∈ w.gate .pub ∨ j ∈ w.gate .sub := by
        cases k <;> simp [hk]
      by_cases a : j ∈ w.gate .cli <;> by_cases b : j ∈ w.gate .srv <;> by_cases c : j ∈ w.gate .pub <;>
        by_cases d : j ∈ w.gate .sub <;> simp_all [stopped_stopped]
    · have : ∀ k, j ∉ w.gate k := fun k hk => hx ⟨k, hk⟩
      simp [this]

theorem testBit_init (a comps : Nat) (k : Kind) :
    (a ||| (comps &&& Life.known)).testBit k.bit = (a.testBit k.bit || comps.testBit k.bit) := by
  rw [Nat.testBit_or, Nat.testBit_and]
  have : Life.known.testBit k.bit = true := by cases k <;> decide
  rw [this, Bool.and_true]

/-! ## Steps of the library as a whole -/

theorem inv_init (w : World) (hi : Inv w) (comps : Nat) (c : Life.Ctx) (hc : w.life.ctx = some c ∨ (w.life.ctx = none ∧ c = {}))
    (st : Life.State) (hst : st.ctx = some { initialized := true, core := true, inst := c.inst ||| (comps &&& Life.known) }) :
    Inv { started w comps with life := st } := by
  have hup : ∀ k, up w k = c.inst.testBit k.bit := by
    intro k; unfold up
    rcases hc with hc | ⟨hc, rfl⟩ <;> simp [hc]
  have hup' : ∀ k, up { started w comps with life := st } k = (up w k || comps.testBit k.bit) := by
    intro k
    have : up { started w comps with life := st } k = (c.inst ||| (comps &&& Life.known)).testBit k.bit := by
      unfold up; simp only [hst]
    rw [this, testBit_init, hup]
  constructor
  · intro k
    rw [hup']
    show (if comps.testBit k.bit then true else w.flag k) = _
    rw [hi.flag]
    cases comps.testBit k.bit <;> simp
  · exact hi.live
  · exact hi.owned
  · exact hi.nodup
  · exact hi.idle
  · exact hi.own
  · exact hi.uniq
  · exact hi.fresh
  · intro k h; rw [hup'] at h; exact hi.down k (by cases h' : up w k <;> simp_all)
  · exact hi.topic
  · intro h
    rw [hup'] at h
    show (if comps.testBit 2 then false else w.mgrStopped) = false
    cases hb : comps.testBit 2
    · have hb' : comps.testBit Kind.srv.bit = false := hb
      rw [hb'] at h
      simpa using hi.mgr (by simpa using h)
    · rfl
  · intro c' h h'
    have h2 : st.ctx = some c' := h
    rw [hst] at h2
    cases h2
    simp at h'
  · exact hi.quiet

theorem inv_life (w : World) (hi : Inv w) (a : Life.Call) (w' : World) (h : lifeStep w a = some w') : Inv w' := by
  unfold lifeStep at h
  cases hs : Life.step w.life a with
  | none => rw [hs] at h; simp at h
  | some st =>
    rw [hs] at h
    cases a with
    | newConfig =>
      simp only [Option.some.injEq] at h; subst h
      simp only [Life.step, Life.newConfig, Option.some.injEq] at hs
      cases hc : w.life.ctx with
      | some c => rw [hc] at hs; simp only at hs; subst hs; exact hi
      | none =>
        rw [hc] at hs; simp only at hs
        have hup : ∀ k, up w k = false := fun k => by unfold up; rw [hc]
        have hup' : ∀ k, up { w with life := st } k = false := fun k => by unfold up; simp [← hs]
        exact { hi with
          flag := fun k => by rw [hup']; show w.flag k = false; rw [hi.flag, hup]
          down := fun k _ => hi.down k (hup k)
          mgr := fun h => by rw [hup'] at h; simp at h
          noinit := fun c h _ => by
            have h2 : st.ctx = some c := h
            rw [← hs] at h2; cases h2; rfl }
    | initArgs comps =>
      simp only [Option.some.injEq] at h; subst h
      simp only [Life.step, Life.initArgs, Life.initCfg, Life.newConfig] at hs
      cases hc : w.life.ctx with
      | some c =>
        simp only [hc, Option.map_some, Option.some.injEq] at hs
        exact inv_init w hi comps c (Or.inl hc) st (by rw [← hs])
      | none =>
        simp only [hc, Option.map_some, Option.some.injEq] at hs
        exact inv_init w hi comps {} (Or.inr ⟨hc, rfl⟩) st (by rw [← hs])
    | initCfg comps =>
      simp only [Option.some.injEq] at h; subst h
      simp only [Life.step, Life.initCfg] at hs
      cases hc : w.life.ctx with
      | some c =>
        simp only [hc, Option.map_some, Option.some.injEq] at hs
        exact inv_init w hi comps c (Or.inl hc) st (by rw [← hs])
      | none => simp [hc] at hs
    | utilGetMonitoring =>
      simp only [Option.some.injEq] at h; subst h
      simp only [Life.step, Life.utilGetMonitoring] at hs
      split at hs
      · simp only [Option.some.injEq] at hs; subst hs; exact hi
      · have key : ∀ c : Life.Ctx, (w.life.ctx = some c ∨ (w.life.ctx = none ∧ c = {})) →
            st.ctx = some { initialized := true, core := true, inst := c.inst ||| (8 &&& Life.known) } →
            Inv { w with life := st } := by
          intro c h1 h2
          have := inv_init w hi 8 c h1 st h2
          have e : started w 8 = w := by
            unfold started
            have hb : ∀ k : Kind, (8 : Nat).testBit k.bit = false := by intro k; cases k <;> decide
            have hb2 : (8 : Nat).testBit 2 = false := by decide
            simp [hb, hb2]
          rw [e] at this
          exact this
        simp only [Life.initArgs, Life.initCfg, Life.newConfig] at hs
        cases hc : w.life.ctx with
        | some c =>
          simp only [hc, Option.map_some, Option.some.injEq] at hs
          exact key c (Or.inl hc) (by rw [← hs])
        | none =>
          simp only [hc, Option.map_some, Option.some.injEq] at hs
          exact key {} (Or.inr ⟨hc, rfl⟩) (by rw [← hs])
    | finalize =>
      simp only [Life.step, Option.some.injEq] at hs
      by_cases hf : finalizes w.life = true
      · obtain ⟨w1, e1, l1, o1, n1, g1, f1, q1, i1, i2⟩ := finalizeAll_eq w hi
        rw [if_pos hf, e1] at h
        simp only [Option.some.injEq] at h
        subst h
        have hst : st.ctx = none := by
          unfold finalizes at hf
          cases hc : w.life.ctx with
          | none => simp [hc] at hf
          | some c =>
            simp only [hc, Bool.and_eq_true, decide_eq_true_eq] at hf
            rw [← hs]; unfold Life.finalize; rw [hc]; simp only; rw [if_neg hf.2]
        have hup : ∀ k, up { w1 with life := st } k = false := fun k => by unfold up; simp [hst]
        have himp : ∀ j m, w1.impls j = some m → ∃ m0, w.impls j = some m0 ∧ m.kind = m0.kind ∧ (m.run = true → m = m0 ∧ ¬ ∃ k, j ∈ w.gate k) := by
          intro j m hm
          by_cases hx : ∃ k, j ∈ w.gate k
          · rw [i1 j hx] at hm
            cases h0 : w.impls j with
            | none => simp [h0] at hm
            | some m0 =>
              simp only [h0, Option.map_some, Option.some.injEq] at hm
              refine ⟨m0, rfl, by rw [← hm, stopped_kind], fun hr => ?_⟩
              rw [← hm, stopped_run] at hr; simp at hr
          · rw [i2 j hx] at hm
            exact ⟨m, hm, rfl, fun _ => ⟨rfl, hx⟩⟩
        constructor
        · intro k; rw [hup]; exact f1 k
        · intro k i h; have : i ∈ w1.gate k := h; rw [q1] at this; simp at this
        · intro k i h; have : i ∈ w1.gate k := h; rw [q1] at this; simp at this
        · intro k; show (w1.gate k).Nodup; rw [q1]; simp
        · intro k o; show (w1.objs k o).created = false → (w1.objs k o).impl = none; rw [o1]; exact hi.idle k o
        · intro k o
          show (w1.objs k o).created = true → ∃ i m, (w1.objs k o).impl = some i ∧ w1.impls i = some m ∧ m.kind = k
          rw [o1]
          intro hcr
          obtain ⟨i, m, h1, h2, h3⟩ := hi.own k o hcr
          by_cases hx : ∃ k, i ∈ w.gate k
          · exact ⟨i, stopped m, h1, by rw [i1 i hx, h2]; rfl, by rw [stopped_kind]; exact h3⟩
          · exact ⟨i, m, h1, by rw [i2 i hx]; exact h2, h3⟩
        · intro k o k' o' i; show (w1.objs k o).impl = _ → (w1.objs k' o').impl = _ → _; rw [o1]; exact hi.uniq k o k' o' i
        · intro i hle
          show w1.impls i = none
          have hle' : w.next ≤ i := by have : w1.next ≤ i := hle; rw [n1] at this; exact this
          by_cases hx : ∃ k, i ∈ w.gate k
          · rw [i1 i hx, hi.fresh i hle']; rfl
          · rw [i2 i hx]; exact hi.fresh i hle'
        · intro k _; exact q1 k
        · intro i m hm ht hr
          obtain ⟨m0, h1, h2, h3⟩ := himp i m hm
          obtain ⟨rfl, hx⟩ := h3 hr
          exact absurd ⟨_, hi.topic i m h1 ht hr⟩ hx
        · intro h; rw [hup] at h; simp at h
        · intro c h _; have h2 : st.ctx = some c := h; rw [hst] at h2; simp at h2
        · intro j m hm hk hr
          have hm' : w1.impls j = some m := hm
          by_cases hx : ∃ k, j ∈ w.gate k
          · rw [i1 j hx] at hm'
            simp only [Option.map_eq_some_iff] at hm'
            obtain ⟨m0, h0, rfl⟩ := hm'
            rw [stopped_kind] at hk
            cases h1 : m0.run with
            | false => rw [stopped_of_stopped m0 h1]; exact hi.quiet j m0 h0 hk h1
            | true => unfold stopped; rw [if_pos h1, if_neg (by rw [hk]; decide)]
          · rw [i2 j hx] at hm'; exact hi.quiet j m hm' hk hr
      · rw [if_neg hf] at h
        simp only [Option.some.injEq] at h
        subst h
        have hsame : ∀ k, up { w with life := st } k = up w k := by
          intro k
          unfold up
          cases hc : w.life.ctx with
          | none =>
            have : st = w.life := by rw [← hs]; unfold Life.finalize; rw [hc]
            simp [this, hc]
          | some c =>
            by_cases hr : w.life.ref - 1 > 0
            · have : st.ctx = some c := by rw [← hs]; unfold Life.finalize; rw [hc]; simp only; rw [if_pos hr]
              simp [this]
            · have : st.ctx = none := by rw [← hs]; unfold Life.finalize; rw [hc]; simp only; rw [if_neg hr]
              have hni : c.initialized = false := by
                unfold finalizes at hf; rw [hc] at hf; simp only [Bool.and_eq_true, decide_eq_true_eq, not_and] at hf
                cases hin : c.initialized
                · rfl
                · exact absurd hr (hf hin)
              simp [this, hi.noinit c hc hni]
        exact { hi with
          flag := fun k => by rw [hsame]; exact hi.flag k
          down := fun k h => hi.down k (by rw [← hsame]; exact h)
          mgr := fun h => hi.mgr (by rw [← hsame]; exact h)
          noinit := fun c h h' => by
            have h2 : st.ctx = some c := h
            cases hc : w.life.ctx with
            | none =>
              have : st = w.life := by rw [← hs]; unfold Life.finalize; rw [hc]
              rw [this, hc] at h2; simp at h2
            | some c0 =>
              by_cases hr : w.life.ref - 1 > 0
              · have : st.ctx = some c0 := by rw [← hs]; unfold Life.finalize; rw [hc]; simp only; rw [if_pos hr]
                rw [this] at h2; cases h2; exact hi.noinit c hc h'
              · have : st.ctx = none := by rw [← hs]; unfold Life.finalize; rw [hc]; simp only; rw [if_neg hr]
                rw [this] at h2; simp at h2 }

/-! ## Steps of the objects -/

theorem inv_create (w : World) (hi : Inv w) (k : Kind) (o : Nat) (n : Name) (w' : World) (b : Bool)
    (h : create w k o n = some (w', b)) : Inv w' := by
  unfold create at h
  by_cases h1 : (w.objs k o).created = true
  · rw [if_pos h1] at h; cases h; exact hi
  rw [if_neg h1] at h
  by_cases h2 : k.topic = true ∧ n = []
  · rw [if_pos h2] at h; cases h; exact hi
  rw [if_neg h2] at h
  by_cases h3 : k.topic = true ∧ up w k = false
  · rw [if_pos h3] at h; simp at h
  rw [if_neg h3] at h
  have hnot : ∀ q, w.next ∉ w.gate q := by
    intro q hq; obtain ⟨m, hm, _⟩ := hi.live q _ hq; rw [hi.fresh _ (Nat.le_refl _)] at hm; simp at hm
  have hnimpl : ∀ q p i, (w.objs q p).impl = some i → i ≠ w.next := by
    intro q p i hq e
    subst e
    cases hcr : (w.objs q p).created with
    | false => rw [hi.idle q p hcr] at hq; simp at hq
    | true =>
      obtain ⟨i, m, e1, e2, _⟩ := hi.own q p hcr
      rw [hq] at e1; cases e1
      rw [hi.fresh _ (Nat.le_refl _)] at e2; simp at e2
  have hfr := hi.fresh w.next (Nat.le_refl _)
  simp only [Option.some.injEq, Prod.mk.injEq] at h
  obtain ⟨h, -⟩ := h
  have hrun : up w k = true → starts w k = true := by
    intro hu; unfold starts; split
    · next e => subst e; rw [hi.mgr hu]; rfl
    · rfl
  by_cases hu : up w k = true
  · have hfl : w.flag k = true := by rw [hi.flag]; exact hu
    rw [if_pos ⟨hu, hfl⟩] at h
    have hupEq : ∀ q, up w' q = up w q := by subst h; intro q; rfl
    subst h
    constructor
    · intro q; rw [hupEq]; exact hi.flag q
    · intro q i hq
      simp only [setObj, setGate, setImpl] at hq ⊢
      by_cases hqk : q = k
      · subst hqk
        rw [if_pos rfl] at hq
        rcases List.mem_append.1 hq with hq | hq
        · obtain ⟨m, hm, e1, e2⟩ := hi.live q i hq
          refine ⟨m, ?_, e1, e2⟩
          rw [if_neg]; exact hm
          intro e; exact hnot q (e ▸ hq)
        · simp only [List.mem_singleton] at hq
          subst hq
          exact ⟨_, by rw [if_pos rfl], rfl, hrun hu⟩
      · rw [if_neg hqk] at hq
        obtain ⟨m, hm, e1, e2⟩ := hi.live q i hq
        refine ⟨m, ?_, e1, e2⟩
        rw [if_neg]; exact hm
        intro e; exact hnot q (e ▸ hq)
    · intro q i hq
      simp only [setObj, setGate, setImpl] at hq ⊢
      have old : i ∈ w.gate q → ∃ p, (if q = k ∧ p = o then (⟨true, some w.next⟩ : Obj) else w.objs q p) = ⟨true, some i⟩ := by
        intro hq
        obtain ⟨p, hp⟩ := hi.owned q i hq
        refine ⟨p, ?_⟩
        rw [if_neg]; exact hp
        rintro ⟨rfl, rfl⟩
        rw [hp] at h1; simp at h1
      by_cases hqk : q = k
      · rw [if_pos hqk] at hq
        rcases List.mem_append.1 hq with hq | hq
        · exact old (hqk ▸ hq)
        · simp only [List.mem_singleton] at hq
          exact ⟨o, by rw [if_pos ⟨hqk, rfl⟩, hq]⟩
      · rw [if_neg hqk] at hq; exact old hq
    · intro q
      simp only [setObj, setGate, setImpl]
      by_cases hqk : q = k
      · rw [if_pos hqk]
        exact List.nodup_append.2 ⟨hi.nodup k, by simp, fun a ha b hb => by
          simp only [List.mem_singleton] at hb; subst hb; intro e; exact hnot k (e ▸ ha)⟩
      · rw [if_neg hqk]; exact hi.nodup q
    · intro q p
      simp only [setObj, setGate, setImpl]
      by_cases hqp : q = k ∧ p = o
      · rw [if_pos hqp]; simp
      · rw [if_neg hqp]; exact hi.idle q p
    · intro q p
      simp only [setObj, setGate, setImpl]
      by_cases hqp : q = k ∧ p = o
      · rw [if_pos hqp]; intro _
        exact ⟨w.next, _, rfl, by rw [if_pos rfl], hqp.1.symm⟩
      · rw [if_neg hqp]; intro hcr
        obtain ⟨i, m, e1, e2, e3⟩ := hi.own q p hcr
        exact ⟨i, m, e1, by rw [if_neg (hnimpl q p i e1)]; exact e2, e3⟩
    · intro q p q' p' i
      simp only [setObj, setGate, setImpl]
      by_cases hqp : q = k ∧ p = o <;> by_cases hqp' : q' = k ∧ p' = o
      · rw [if_pos hqp, if_pos hqp']; intros; exact ⟨by rw [hqp.1, hqp'.1], by rw [hqp.2, hqp'.2]⟩
      · rw [if_pos hqp, if_neg hqp']; intro a b; cases a; exact absurd rfl (hnimpl _ _ _ b)
      · rw [if_neg hqp, if_pos hqp']; intro a b; cases b; exact absurd rfl (hnimpl _ _ _ a)
      · rw [if_neg hqp, if_neg hqp']; exact hi.uniq q p q' p' i
    · intro i hle
      simp only [setObj, setGate, setImpl] at hle ⊢
      rw [if_neg (by omega)]; exact hi.fresh i (by omega)
    · intro q hd
      rw [hupEq] at hd
      simp only [setObj, setGate, setImpl]
      rw [if_neg]; exact hi.down q hd
      rintro rfl; rw [hu] at hd; simp at hd
    · intro i m hm ht hr
      simp only [setObj, setGate, setImpl] at hm ⊢
      by_cases hin : i = w.next
      · subst hin; rw [if_pos rfl] at hm; cases hm; rw [if_pos rfl]; simp
      · rw [if_neg hin] at hm
        have := hi.topic i m hm ht hr
        split
        · next e => rw [e] at this; simp [this]
        · exact this
    · intro hd; rw [hupEq] at hd; exact hi.mgr hd
    · exact hi.noinit
    · intro i m hm hk hr
      simp only [setObj, setGate, setImpl] at hm
      by_cases hin : i = w.next
      · rw [if_pos hin] at hm; cases hm; rfl
      · rw [if_neg hin] at hm; exact hi.quiet i m hm hk hr
  · have hu' : up w k = false := by simpa using hu
    have hnt : k.topic = false := by
      cases ht : k.topic
      · rfl
      · exact absurd ⟨ht, hu'⟩ h3
    rw [if_neg (by simp [hu'])] at h
    have hupEq : ∀ q, up w' q = up w q := by subst h; intro q; rfl
    subst h
    constructor
    · intro q; rw [hupEq]; exact hi.flag q
    · intro q i hq
      simp only [setObj, setImpl] at hq ⊢
      obtain ⟨m, hm, e1, e2⟩ := hi.live q i hq
      refine ⟨m, ?_, e1, e2⟩
      rw [if_neg]; exact hm
      intro e; exact hnot q (e ▸ hq)
    · intro q i hq
      simp only [setObj, setImpl] at hq ⊢
      obtain ⟨p, hp⟩ := hi.owned q i hq
      refine ⟨p, ?_⟩
      rw [if_neg]; exact hp
      rintro ⟨rfl, rfl⟩
      rw [hp] at h1; simp at h1
    · exact hi.nodup
    · intro q p
      simp only [setObj, setImpl]
      by_cases hqp : q = k ∧ p = o
      · rw [if_pos hqp]; simp
      · rw [if_neg hqp]; exact hi.idle q p
    · intro q p
      simp only [setObj, setImpl]
      by_cases hqp : q = k ∧ p = o
      · rw [if_pos hqp]; intro _
        exact ⟨w.next, _, rfl, by rw [if_pos rfl], hqp.1.symm⟩
      · rw [if_neg hqp]; intro hcr
        obtain ⟨i, m, e1, e2, e3⟩ := hi.own q p hcr
        exact ⟨i, m, e1, by rw [if_neg (hnimpl q p i e1)]; exact e2, e3⟩
    · intro q p q' p' i
      simp only [setObj, setImpl]
      by_cases hqp : q = k ∧ p = o <;> by_cases hqp' : q' = k ∧ p' = o
      · rw [if_pos hqp, if_pos hqp']; intros; exact ⟨by rw [hqp.1, hqp'.1], by rw [hqp.2, hqp'.2]⟩
      · rw [if_pos hqp, if_neg hqp']; intro a b; cases a; exact absurd rfl (hnimpl _ _ _ b)
      · rw [if_neg hqp, if_pos hqp']; intro a b; cases b; exact absurd rfl (hnimpl _ _ _ a)
      · rw [if_neg hqp, if_neg hqp']; exact hi.uniq q p q' p' i
    · intro i hle
      simp only [setObj, setImpl] at hle ⊢
      rw [if_neg (by omega)]; exact hi.fresh i (by omega)
    · intro q hd; rw [hupEq] at hd; exact hi.down q hd
    · intro i m hm ht hr
      simp only [setObj, setImpl] at hm ⊢
      by_cases hin : i = w.next
      · subst hin; rw [if_pos rfl] at hm; cases hm; simp only at ht; rw [hnt] at ht; simp at ht
      · rw [if_neg hin] at hm; exact hi.topic i m hm ht hr
    · intro hd; rw [hupEq] at hd; exact hi.mgr hd
    · exact hi.noinit
    · intro i m hm hk hr
      simp only [setObj, setGate, setImpl] at hm
      by_cases hin : i = w.next
      · rw [if_pos hin] at hm; cases hm; rfl
      · rw [if_neg hin] at hm; exact hi.quiet i m hm hk hr

/-- What `Destroy()` does to a created object: it frees the implementation and takes it out of the gate. -/
theorem destroy_eq (w : World) (hi : Inv w) (k : Kind) (o : Nat) (hc : (w.objs k o).created = true) :
    ∃ i w', (w.objs k o).impl = some i ∧ destroy w k o = some (w', true) ∧
      w'.life = w.life ∧ w'.flag = w.flag ∧ w'.mgrStopped = w.mgrStopped ∧ w'.next = w.next ∧
      (∀ q, w'.gate q = if q = k then (w.gate k).erase i else w.gate q) ∧
      (∀ j, w'.impls j = if j = i then none else w.impls j) ∧
      (∀ q p, w'.objs q p = if q = k ∧ p = o then {} else w.objs q p) := by
  obtain ⟨i, m, e1, e2, e3⟩ := hi.own k o hc
  have hng : i ∉ (w.gate k).erase i := fun h => (List.Nodup.mem_erase_iff (hi.nodup k)).1 h |>.1 rfl
  refine ⟨i, ?_⟩
  unfold destroy
  rw [if_neg (by simp [hc]), e1]
  simp only
  by_cases hu : up w k = true
  · have hfl : w.flag k = true := by rw [hi.flag]; exact hu
    rw [if_pos ⟨hu, hfl⟩]
    have : stopAt (setGate w k ((w.gate k).erase i)) i = some (setImpl (setGate w k ((w.gate k).erase i)) i (some (stopped m))) := by
      unfold stopAt
      have : (setGate w k ((w.gate k).erase i)).impls i = some m := e2
      rw [this]
    rw [this]
    simp only
    have hrel : release (setImpl (setGate w k ((w.gate k).erase i)) i (some (stopped m))) k i =
        setImpl (setImpl (setGate w k ((w.gate k).erase i)) i (some (stopped m))) i none := by
      unfold release
      rw [if_neg]
      rintro ⟨_, h⟩
      simp only [setImpl, setGate, if_true] at h
      exact hng h
    rw [hrel]
    refine ⟨_, trivial, rfl, rfl, rfl, rfl, rfl, fun q => rfl, fun j => ?_, fun q p => rfl⟩
    simp only [setObj, setImpl, setGate]
    by_cases hj : j = i <;> simp [hj]
  · have hu' : up w k = false := by simpa using hu
    rw [if_neg (by simp [hu'])]
    have hg := hi.down k hu'
    have : stopAt w i = some (setImpl w i (some (stopped m))) := by unfold stopAt; rw [e2]
    rw [this]
    simp only
    have hrel : release (setImpl w i (some (stopped m))) k i = setImpl (setImpl w i (some (stopped m))) i none := by
      unfold release
      rw [if_neg]
      rintro ⟨_, h⟩
      simp only [setImpl] at h
      rw [hg] at h; simp at h
    rw [hrel]
    refine ⟨_, trivial, rfl, rfl, rfl, rfl, rfl, fun q => ?_, fun j => ?_, fun q p => rfl⟩
    · simp only [setObj, setImpl]
      by_cases hq : q = k <;> simp [hq, hg]
    · simp only [setObj, setImpl]
      by_cases hj : j = i <;> simp [hj]

theorem inv_destroy (w : World) (hi : Inv w) (k : Kind) (o : Nat) (w' : World) (b : Bool)
    (h : destroy w k o = some (w', b)) : Inv w' := by
  by_cases hc : (w.objs k o).created = true
  · obtain ⟨i, w1, e0, e, hl, hf, hm, hn, hg, hj, ho⟩ := destroy_eq w hi k o hc
    rw [e] at h
    simp only [Option.some.injEq, Prod.mk.injEq] at h
    obtain ⟨rfl, -⟩ := h
    have hup : ∀ q, up w1 q = up w q := fun q => by unfold up; rw [hl]
    have hsub : ∀ q j, j ∈ w1.gate q → j ∈ w.gate q ∧ j ≠ i := by
      intro q j hq
      rw [hg] at hq
      split at hq
      · next e => subst e; have := (List.Nodup.mem_erase_iff (hi.nodup q)).1 hq; exact ⟨this.2, this.1⟩
      · next hne =>
        refine ⟨hq, ?_⟩
        rintro rfl
        obtain ⟨p, hp⟩ := hi.owned q j hq
        exact hne (hi.uniq q p k o j (by rw [hp]) e0).1
    constructor
    · intro q; rw [hup, hf]; exact hi.flag q
    · intro q j hq
      obtain ⟨h1, h2⟩ := hsub q j hq
      rw [hj, if_neg h2]; exact hi.live q j h1
    · intro q j hq
      obtain ⟨h1, h2⟩ := hsub q j hq
      obtain ⟨p, hp⟩ := hi.owned q j h1
      refine ⟨p, ?_⟩
      rw [ho, if_neg]; exact hp
      rintro ⟨rfl, rfl⟩; rw [hp] at e0; cases e0; exact h2 rfl
    · intro q; rw [hg]; split
      · exact (hi.nodup k).erase i
      · exact hi.nodup q
    · intro q p; rw [ho]; split
      · simp
      · exact hi.idle q p
    · intro q p; rw [ho]; split
      · simp
      · next hne =>
        intro hcr
        obtain ⟨j, m, a1, a2, a3⟩ := hi.own q p hcr
        refine ⟨j, m, a1, ?_, a3⟩
        rw [hj, if_neg]; exact a2
        rintro rfl; exact hne (hi.uniq q p k o j a1 e0)
    · intro q p q' p' j; rw [ho, ho]
      split
      · simp
      · split
        · simp
        · exact hi.uniq q p q' p' j
    · intro j hle; rw [hj, hn] at *; split
      · rfl
      · exact hi.fresh j hle
    · intro q hd; rw [hup] at hd; rw [hg]; split
      · next e => subst e; rw [hi.down q hd]; rfl
      · exact hi.down q hd
    · intro j m hjm ht hr
      rw [hj] at hjm
      split at hjm
      · simp at hjm
      · next hne =>
        have := hi.topic j m hjm ht hr
        rw [hg]; split
        · next e => rw [e] at this; exact (List.Nodup.mem_erase_iff (hi.nodup k)).2 ⟨hne, this⟩
        · exact this
    · intro hd; rw [hup] at hd; rw [hm]; exact hi.mgr hd
    · rw [hl]; exact hi.noinit
    · intro j m hjm hk hr
      rw [hj] at hjm
      split at hjm
      · simp at hjm
      · exact hi.quiet j m hjm hk hr
  · unfold destroy at h
    rw [if_pos (by simpa using hc)] at h
    cases h; exact hi

theorem inv_swap (w : World) (hi : Inv w) (k : Kind) (d s : Nat) (hd : w.objs k d = {}) :
    Inv (setObj (setObj w k d (w.objs k s)) k s {}) := by
  have ho : ∀ q p, (setObj (setObj w k d (w.objs k s)) k s {}).objs q p =
      if q = k ∧ p = s then {} else if q = k ∧ p = d then w.objs k s else w.objs q p := fun q p => rfl
  exact { hi with
    owned := by
      intro q i hq
      obtain ⟨p, hp⟩ := hi.owned q i hq
      by_cases h : q = k ∧ p = s
      · obtain ⟨rfl, rfl⟩ := h
        refine ⟨d, ?_⟩
        rw [ho, if_neg, if_pos ⟨rfl, rfl⟩]; exact hp
        rintro ⟨_, rfl⟩; rw [hd] at hp; simp at hp
      · refine ⟨p, ?_⟩
        rw [ho, if_neg h, if_neg]; exact hp
        rintro ⟨rfl, rfl⟩; rw [hd] at hp; simp at hp
    idle := by
      intro q p; rw [ho]
      split
      · simp
      · split
        · exact hi.idle k s
        · exact hi.idle q p
    own := by
      intro q p; rw [ho]
      split
      · simp
      · split
        · next e => rw [e.1]; exact hi.own k s
        · exact hi.own q p
    uniq := by
      intro q p q' p' i; rw [ho, ho]
      by_cases a : q = k ∧ p = s
      · rw [if_pos a]; simp
      rw [if_neg a]
      by_cases a' : q' = k ∧ p' = s
      · rw [if_pos a']; simp
      rw [if_neg a']
      by_cases b : q = k ∧ p = d <;> by_cases b' : q' = k ∧ p' = d
      · intros; exact ⟨by rw [b.1, b'.1], by rw [b.2, b'.2]⟩
      · rw [if_pos b, if_neg b']; intro x y
        have := hi.uniq k s q' p' i x y; exact absurd ⟨this.1.symm, this.2.symm⟩ a'
      · rw [if_neg b, if_pos b']; intro x y
        have := hi.uniq q p k s i x y; exact absurd this a
      · rw [if_neg b, if_neg b']; exact hi.uniq q p q' p' i }

theorem destroy_leaves_blank (w : World) (hi : Inv w) (k : Kind) (o : Nat) :
    ∃ w' b, destroy w k o = some (w', b) ∧ w'.objs k o = {} := by
  by_cases hc : (w.objs k o).created = true
  · obtain ⟨i, w1, e0, e, hl, hf, hm, hn, hg, hj, ho⟩ := destroy_eq w hi k o hc
    exact ⟨w1, true, e, by rw [ho, if_pos ⟨rfl, rfl⟩]⟩
  · refine ⟨w, false, ?_, ?_⟩
    · unfold destroy; rw [if_pos (by simpa using hc)]
    · have h0 : (w.objs k o).created = false := by simpa using hc
      have h1 := hi.idle k o h0
      cases hx : w.objs k o with
      | mk c p => rw [hx] at h0 h1; simp only at h0 h1; subst h0; subst h1; rfl

theorem inv_move (w : World) (hi : Inv w) (k : Kind) (d s : Nat) (w' : World) (h : move w k d s = some w') : Inv w' := by
  unfold move at h
  split at h
  · cases h; exact hi
  · obtain ⟨w1, b, e, hb⟩ := destroy_leaves_blank w hi k d
    rw [e] at h
    simp only [Option.some.injEq] at h
    subst h
    exact inv_swap w1 (inv_destroy w hi k d w1 b e) k d s hb

theorem inv_core (w w' : World) (hi : Inv w) (hl : w'.life = w.life) (hf : w'.flag = w.flag) (hm : w'.mgrStopped = w.mgrStopped)
    (hn : w'.next = w.next) (hg : w'.gate = w.gate) (ho : w'.objs = w.objs)
    (hc : ∀ j, (w'.impls j).map core = (w.impls j).map core)
    (hu : ∀ j, (∀ k, j ∉ w.gate k) → w'.impls j = w.impls j) : Inv w' := by
  have hup : ∀ q, up w' q = up w q := fun q => by unfold up; rw [hl]
  have fwd : ∀ j m, w'.impls j = some m → ∃ m0, w.impls j = some m0 ∧ core m0 = core m := by
    intro j m h
    have := hc j; rw [h] at this
    cases h0 : w.impls j with
    | none => simp [h0] at this
    | some m0 => rw [h0] at this; exact ⟨m0, rfl, by simpa using this.symm⟩
  have bwd : ∀ j m0, w.impls j = some m0 → ∃ m, w'.impls j = some m ∧ core m0 = core m := by
    intro j m h
    have := hc j; rw [h] at this
    cases h0 : w'.impls j with
    | none => simp [h0] at this
    | some m0 => rw [h0] at this; exact ⟨m0, rfl, by simpa using this.symm⟩
  constructor
  · intro k; rw [hup, hf]; exact hi.flag k
  · intro k i h
    rw [hg] at h
    obtain ⟨m, a, b, c⟩ := hi.live k i h
    obtain ⟨m', a', e⟩ := bwd i m a
    simp only [core, Prod.mk.injEq] at e
    exact ⟨m', a', by rw [← e.1, b], by rw [← e.2.2, c]⟩
  · rw [hg, ho]; exact hi.owned
  · rw [hg]; exact hi.nodup
  · rw [ho]; exact hi.idle
  · intro k o h
    rw [ho] at h ⊢
    obtain ⟨i, m, a, b, c⟩ := hi.own k o h
    obtain ⟨m', a', e⟩ := bwd i m b
    simp only [core, Prod.mk.injEq] at e
    exact ⟨i, m', a, a', by rw [← e.1, c]⟩
  · rw [ho]; exact hi.uniq
  · intro i h
    rw [hn] at h
    have := hc i; rw [hi.fresh i h] at this
    simpa using this
  · intro k h; rw [hup] at h; rw [hg]; exact hi.down k h
  · intro i m h ht hr
    obtain ⟨m0, a, e⟩ := fwd i m h
    simp only [core, Prod.mk.injEq] at e
    rw [hg, ← e.1]
    exact hi.topic i m0 a (by rw [e.1]; exact ht) (by rw [e.2.2]; exact hr)
  · intro h; rw [hup] at h; rw [hm]; exact hi.mgr h
  · rw [hl]; exact hi.noinit
  · intro j m h hk hr
    have hn : ∀ k, j ∉ w.gate k := by
      intro k hg
      obtain ⟨m0, a, _, b⟩ := hi.live k j hg
      obtain ⟨m1, a1, e⟩ := bwd j m0 a
      rw [h] at a1; cases a1
      simp only [core, Prod.mk.injEq] at e
      rw [e.2.2, hr] at b; simp at b
    rw [hu j hn] at h
    exact hi.quiet j m h hk hr

theorem applyPeer_eq (n : Name) (p : Nat) (l : List Nat) : ∀ (w : World), (∀ i ∈ l, ∃ m, w.impls i = some m) →
    ∃ w', applyPeer n p w l = some w' ∧ w'.life = w.life ∧ w'.flag = w.flag ∧ w'.mgrStopped = w.mgrStopped ∧
      w'.next = w.next ∧ w'.gate = w.gate ∧ w'.objs = w.objs ∧
      (∀ j, (w'.impls j).map core = (w.impls j).map core) ∧ (∀ j, j ∉ l → w'.impls j = w.impls j) := by
  induction l with
  | nil => intro w _; exact ⟨w, rfl, rfl, rfl, rfl, rfl, rfl, rfl, fun _ => rfl, fun _ _ => rfl⟩
  | cons i l ih =>
    intro w h
    obtain ⟨m, hm⟩ := h i (by simp)
    unfold applyPeer
    rw [hm]
    simp only
    generalize hw1 : (if m.name = n then
      setImpl w i (some { m with peers := if p ∈ m.peers then m.peers else p :: m.peers }) else w) = w1
    have H : w1.life = w.life ∧ w1.flag = w.flag ∧ w1.mgrStopped = w.mgrStopped ∧
      w1.next = w.next ∧ w1.gate = w.gate ∧ w1.objs = w.objs ∧
      (∀ j, (w1.impls j).map core = (w.impls j).map core) ∧ (∀ j, j ≠ i → w1.impls j = w.impls j) := by
      subst hw1
      by_cases hnm : m.name = n
      · rw [if_pos hnm]
        refine ⟨rfl, rfl, rfl, rfl, rfl, rfl, fun j => ?_, fun j hj => ?_⟩
        · simp only [setImpl]
          by_cases hj : j = i
          · subst hj; rw [if_pos rfl, hm]; rfl
          · rw [if_neg hj]
        · simp only [setImpl]; rw [if_neg hj]
      · rw [if_neg hnm]
        exact ⟨rfl, rfl, rfl, rfl, rfl, rfl, fun _ => rfl, fun _ _ => rfl⟩
    obtain ⟨a1, a2, a3, a4, a5, a6, a7, a8⟩ := H
    obtain ⟨w2, b0, b1, b2, b3, b4, b5, b6, b7, b8⟩ := ih w1 (by
      intro j hj
      obtain ⟨mj, hmj⟩ := h j (by simp [hj])
      have := a7 j; rw [hmj] at this
      cases h0 : w1.impls j with
      | none => simp [h0] at this
      | some m0 => exact ⟨m0, rfl⟩)
    refine ⟨w2, b0, by rw [b1, a1], by rw [b2, a2], by rw [b3, a3], by rw [b4, a4], by rw [b5, a5], by rw [b6, a6],
      fun j => by rw [b7, a7], fun j hj => ?_⟩
    simp only [List.mem_cons, not_or] at hj
    rw [b8 j hj.2, a8 j hj.1]

theorem inv_peer (w : World) (hi : Inv w) (k : Kind) (n : Name) (p : Nat) (w' : World)
    (h : step w (.peer k n p) = some w') : Inv w' := by
  simp only [Obj.step] at h
  split at h
  · obtain ⟨w1, b0, b1, b2, b3, b4, b5, b6, b7, b8⟩ := applyPeer_eq n p (w.gate k) w (fun i hk => by
      obtain ⟨m, hm, _⟩ := hi.live k i hk; exact ⟨m, hm⟩)
    rw [b0] at h; cases h
    exact inv_core w _ hi b1 b2 b3 b4 b5 b6 b7 (fun j hj => b8 j (hj k))
  · cases h; exact hi

theorem inv_lost (w : World) (hi : Inv w) (k : Kind) (i p : Nat) (w' : World)
    (h : step w (.lost k i p) = some w') : Inv w' := by
  simp only [Obj.step, losePeer] at h
  split at h
  · split at h
    · cases hm : w.impls i with
      | none => rw [hm] at h; simp at h
      | some m =>
        rw [hm] at h
        simp only [Option.some.injEq] at h
        subst h
        refine inv_core w _ hi rfl rfl rfl rfl rfl rfl (fun j => ?_) (fun j hj => ?_)
        · simp only [setImpl]
          by_cases hj : j = i
          · subst hj; rw [if_pos rfl, hm]; rfl
          · rw [if_neg hj]
        · next hg =>
          simp only [setImpl]
          rw [if_neg]
          rintro rfl; exact hj k hg
    · cases h; exact hi
  · cases h; exact hi

theorem inv_step (w : World) (hi : Inv w) (a : Label) (w' : World) (h : step w a = some w') : Inv w' := by
  cases a with
  | life c => exact inv_life w hi c w' h
  | create k o n =>
    simp only [Obj.step, Option.map_eq_some_iff] at h
    obtain ⟨⟨w1, b⟩, e, rfl⟩ := h
    exact inv_create w hi k o n w1 b e
  | destroy k o =>
    simp only [Obj.step, Option.map_eq_some_iff] at h
    obtain ⟨⟨w1, b⟩, e, rfl⟩ := h
    exact inv_destroy w hi k o w1 b e
  | move k d s => exact inv_move w hi k d s w' h
  | peer k n p => exact inv_peer w hi k n p w' h
  | lost k i p => exact inv_lost w hi k i p w' h
  | announce k =>
    simp only [Obj.step, Option.map_eq_some_iff] at h
    obtain ⟨_, _, rfl⟩ := h
    exact hi

theorem inv_run (l : List Label) : ∀ (w w' : World), Inv w → run w l = some w' → Inv w' := by
  induction l with
  | nil => intro w w' hi h; simp only [Obj.run, Option.some.injEq] at h; subst h; exact hi
  | cons a l ih =>
    intro w w' hi h
    unfold Obj.run at h
    cases hs : step w a with
    | none => rw [hs] at h; simp at h
    | some w1 => rw [hs] at h; exact ih w1 w' (inv_step w hi a w1 hs) h

theorem mapM_some {α β : Type} (f : α → Option β) (l : List α) (h : ∀ a ∈ l, ∃ b, f a = some b) :
    ∃ r, l.mapM f = some r := by
  induction l with
  | nil => exact ⟨[], rfl⟩
  | cons a l ih =>
    obtain ⟨b, hb⟩ := h a (by simp)
    obtain ⟨r, hr⟩ := ih (fun a ha => h a (by simp [ha]))
    exact ⟨b :: r, by simp [List.mapM_cons, hb, hr]⟩

theorem mapM_mem {α β : Type} (f : α → Option β) (l : List α) : ∀ (r : List β), l.mapM f = some r →
    ∀ b, b ∈ r ↔ ∃ a ∈ l, f a = some b := by
  induction l with
  | nil => intro r h; simp only [List.mapM_nil] at h; cases h; simp
  | cons a l ih =>
    intro r h
    rw [List.mapM_cons] at h
    cases ha : f a with
    | none => simp [ha] at h
    | some b0 =>
      cases hl : l.mapM f with
      | none => simp [ha, hl] at h
      | some r0 =>
        simp [ha, hl] at h
        subst h
        intro b
        simp only [List.mem_cons, ih r0 hl b]
        constructor
        · rintro (rfl | ⟨x, hx, e⟩)
          · exact ⟨a, Or.inl rfl, ha⟩
          · exact ⟨x, Or.inr hx, e⟩
        · rintro ⟨x, rfl | hx, e⟩
          · rw [ha] at e; cases e; exact Or.inl rfl
          · exact Or.inr ⟨x, hx, e⟩

end Ecal.Life.Obj

namespace Ecal.Life.Obj

/-- The step neither destroys the object nor moves it away or something into it. -/
def Spares (k : Kind) (o : Nat) : Label → Prop
  | .destroy q p => ¬ (q = k ∧ p = o)
  | .move q d s => ¬ (q = k ∧ (d = o ∨ s = o))
  | _ => True

/-- What a step that spares an object does to it. -/
structure Kept (w w' : World) (k : Kind) (o i : Nat) : Prop where
  obj : w'.objs k o = ⟨true, some i⟩
  out : i ∉ w.gate k → i ∉ w'.gate k ∧ w'.impls i = w.impls i

structure KeptIn (w w' : World) (k : Kind) (i : Nat) : Prop where
  mem : i ∈ w'.gate k
  core : (w'.impls i).map core = (w.impls i).map core

theorem notHeld (w : World) (hi : Inv w) (k : Kind) (o i : Nat) (ho : w.objs k o = ⟨true, some i⟩) (hn : i ∉ w.gate k) :
    ¬ ∃ q, i ∈ w.gate q := by
  rintro ⟨q, hq⟩
  obtain ⟨p, hp⟩ := hi.owned q i hq
  have := (hi.uniq q p k o i (by rw [hp]) (by rw [ho])).1
  subst this; exact hn hq

theorem keep_life (w : World) (hi : Inv w) (k : Kind) (o i : Nat) (ho : w.objs k o = ⟨true, some i⟩) (c : Life.Call)
    (w' : World) (h : lifeStep w c = some w') :
    Kept w w' k o i ∧ (c ≠ .finalize → i ∈ w.gate k → KeptIn w w' k i) := by
  have triv : ∀ w1 : World, w1.objs = w.objs → w1.gate = w.gate → w1.impls = w.impls →
      Kept w w1 k o i ∧ (c ≠ .finalize → i ∈ w.gate k → KeptIn w w1 k i) := by
    intro w1 e1 e2 e3
    exact ⟨⟨by rw [e1]; exact ho, fun h => by rw [e2, e3]; exact ⟨h, rfl⟩⟩, fun _ h => ⟨by rw [e2]; exact h, by rw [e3]⟩⟩
  unfold lifeStep at h
  cases hs : Life.step w.life c with
  | none => rw [hs] at h; simp at h
  | some st =>
    rw [hs] at h
    cases c with
    | finalize =>
      by_cases hf : finalizes w.life = true
      · obtain ⟨w1, e1, l1, o1, n1, g1, f1, q1, i1, i2⟩ := finalizeAll_eq w hi
        rw [if_pos hf, e1] at h
        simp only [Option.some.injEq] at h
        subst h
        refine ⟨⟨?_, fun hn => ?_⟩, fun h => absurd rfl h⟩
        · show w1.objs k o = _; rw [o1]; exact ho
        · refine ⟨?_, ?_⟩
          · show i ∉ w1.gate k; rw [q1]; simp
          · exact i2 i (notHeld w hi k o i ho hn)
      · rw [if_neg hf] at h
        simp only [Option.some.injEq] at h
        subst h
        exact triv _ rfl rfl rfl
    | _ =>
      simp only [Option.some.injEq] at h
      subst h
      exact triv _ rfl rfl rfl

theorem keep_step (w : World) (hi : Inv w) (k : Kind) (o i : Nat) (ho : w.objs k o = ⟨true, some i⟩) (a : Label)
    (ha : Spares k o a) (w' : World) (h : step w a = some w') :
    Kept w w' k o i ∧ (a ≠ .life .finalize → i ∈ w.gate k → KeptIn w w' k i) := by
  have same : Kept w w k o i ∧ (a ≠ .life .finalize → i ∈ w.gate k → KeptIn w w k i) :=
    ⟨⟨ho, fun h => ⟨h, rfl⟩⟩, fun _ h => ⟨h, rfl⟩⟩
  obtain ⟨i', m, hi1, hm, hmk⟩ := hi.own k o (by rw [ho])
  rw [ho] at hi1
  cases hi1
  have destr : ∀ (q : Kind) (p : Nat) (w1 : World) (b : Bool), ¬ (q = k ∧ p = o) → destroy w q p = some (w1, b) →
      Kept w w1 k o i ∧ (i ∈ w.gate k → KeptIn w w1 k i) := by
    intro q p w1 b hne e
    by_cases hc : (w.objs q p).created = true
    · obtain ⟨j, w2, e0, e2, hl, hf, hmg, hn, hg, hj, hobj⟩ := destroy_eq w hi q p hc
      rw [e2] at e
      simp only [Option.some.injEq, Prod.mk.injEq] at e
      obtain ⟨rfl, -⟩ := e
      have hji : i ≠ j := by
        rintro rfl
        have := hi.uniq q p k o i e0 (by rw [ho]); exact hne this
      have himp : w2.impls i = w.impls i := by rw [hj, if_neg hji]
      refine ⟨⟨?_, fun hn => ⟨?_, himp⟩⟩, fun hg' => ⟨?_, by rw [himp]⟩⟩
      · rw [hobj, if_neg]; exact ho
        rintro ⟨rfl, rfl⟩; exact hne ⟨rfl, rfl⟩
      · rw [hg]; split
        · next e => subst e; exact fun h => hn (List.mem_of_mem_erase h)
        · exact hn
      · rw [hg]; split
        · next e => subst e; exact (List.Nodup.mem_erase_iff (hi.nodup _)).2 ⟨hji, hg'⟩
        · exact hg'
    · unfold destroy at e
      rw [if_pos (by simpa using hc)] at e
      cases e
      exact ⟨⟨ho, fun h => ⟨h, rfl⟩⟩, fun h => ⟨h, rfl⟩⟩
  cases a with
  | life c =>
    have := keep_life w hi k o i ho c w' h
    exact ⟨this.1, fun hne => this.2 (fun e => hne (by rw [e]))⟩
  | create q p n =>
    simp only [Obj.step, Option.map_eq_some_iff] at h
    obtain ⟨⟨w1, b⟩, e, rfl⟩ := h
    unfold create at e
    by_cases h1 : (w.objs q p).created = true
    · rw [if_pos h1] at e; cases e; exact same
    rw [if_neg h1] at e
    by_cases h2 : q.topic = true ∧ n = []
    · rw [if_pos h2] at e; cases e; exact same
    rw [if_neg h2] at e
    by_cases h3 : q.topic = true ∧ up w q = false
    · rw [if_pos h3] at e; simp at e
    rw [if_neg h3] at e
    have hne : ¬ (k = q ∧ o = p) := by rintro ⟨rfl, rfl⟩; rw [ho] at h1; simp at h1
    have hin : i ≠ w.next := by
      rintro rfl; rw [hi.fresh _ (Nat.le_refl _)] at hm; simp at hm
    simp only [Option.some.injEq, Prod.mk.injEq] at e
    obtain ⟨e, -⟩ := e
    by_cases hu : up w q = true ∧ w.flag q = true
    · rw [if_pos hu] at e
      subst e
      have himp : (setObj (setGate { setImpl w w.next (some ⟨q, n, starts w q, []⟩) with next := w.next + 1 } q
          (w.gate q ++ [w.next])) q p ⟨true, some w.next⟩).impls i = w.impls i := by
        simp only [setObj, setGate, setImpl]; rw [if_neg hin]
      refine ⟨⟨?_, fun hn => ⟨?_, himp⟩⟩, fun _ hg => ⟨?_, by rw [himp]⟩⟩
      · simp only [setObj, setGate, setImpl]; rw [if_neg hne]; exact ho
      · simp only [setObj, setGate, setImpl]; split
        · next e => subst e; simp [hn, hin]
        · exact hn
      · simp only [setObj, setGate, setImpl]; split
        · next e => subst e; simp [hg]
        · exact hg
    · rw [if_neg hu] at e
      subst e
      have himp : (setObj { setImpl w w.next (some ⟨q, n, starts w q, []⟩) with next := w.next + 1 } q p
          ⟨true, some w.next⟩).impls i = w.impls i := by
        simp only [setObj, setImpl]; rw [if_neg hin]
      refine ⟨⟨?_, fun hn => ⟨hn, himp⟩⟩, fun _ hg => ⟨hg, by rw [himp]⟩⟩
      simp only [setObj, setImpl]; rw [if_neg hne]; exact ho
  | destroy q p =>
    simp only [Obj.step, Option.map_eq_some_iff] at h
    obtain ⟨⟨w1, b⟩, e, rfl⟩ := h
    have := destr q p w1 b ha e
    exact ⟨this.1, fun _ => this.2⟩
  | move q d s =>
    simp only [Obj.step, move] at h
    split at h
    · cases h; exact same
    · have hne : ¬ (q = k ∧ d = o) := fun e => ha ⟨e.1, Or.inl e.2⟩
      have hne2 : ¬ (q = k ∧ s = o) := fun e => ha ⟨e.1, Or.inr e.2⟩
      obtain ⟨w1, b, e, -⟩ := destroy_leaves_blank w hi q d
      rw [e] at h
      simp only [Option.some.injEq] at h
      subst h
      have := destr q d w1 b hne e
      refine ⟨⟨?_, this.1.out⟩, fun _ hg => ⟨(this.2 hg).mem, (this.2 hg).core⟩⟩
      simp only [setObj]
      rw [if_neg (fun e => hne2 ⟨e.1.symm, e.2.symm⟩), if_neg (fun e => hne ⟨e.1.symm, e.2.symm⟩)]
      exact this.1.obj
  | peer q n p =>
    simp only [Obj.step] at h
    split at h
    · obtain ⟨w1, b0, b1, b2, b3, b4, b5, b6, b7, b8⟩ := applyPeer_eq n p (w.gate q) w (fun i hk => by
        obtain ⟨m, hm, _⟩ := hi.live q i hk; exact ⟨m, hm⟩)
      rw [b0] at h; cases h
      refine ⟨⟨by rw [b6]; exact ho, fun hn => ⟨by rw [b5]; exact hn, ?_⟩⟩, fun _ hg => ⟨by rw [b5]; exact hg, b7 i⟩⟩
      exact b8 i (fun hq => notHeld w hi k o i ho hn ⟨q, hq⟩)
    · cases h; exact same
  | lost q j p =>
    simp only [Obj.step, losePeer] at h
    split at h
    · split at h
      · next hj =>
        cases hmj : w.impls j with
        | none => rw [hmj] at h; simp at h
        | some mj =>
          rw [hmj] at h
          simp only [Option.some.injEq] at h
          subst h
          refine ⟨⟨ho, fun hn => ⟨hn, ?_⟩⟩, fun _ hg => ⟨hg, ?_⟩⟩
          · simp only [setImpl]; rw [if_neg]
            rintro rfl; exact notHeld w hi k o i ho hn ⟨q, hj⟩
          · simp only [setImpl]
            by_cases e : i = j
            · subst e; rw [if_pos rfl, hmj]; rfl
            · rw [if_neg e]
      · cases h; exact same
    · cases h; exact same
  | announce q =>
    simp only [Obj.step, Option.map_eq_some_iff] at h
    obtain ⟨_, _, rfl⟩ := h
    exact same

theorem keep_out_run (k : Kind) (o i : Nat) (l : List Label) : ∀ (w w' : World), Inv w → w.objs k o = ⟨true, some i⟩ →
    i ∉ w.gate k → (∀ a ∈ l, Spares k o a) → run w l = some w' →
    w'.objs k o = ⟨true, some i⟩ ∧ i ∉ w'.gate k ∧ w'.impls i = w.impls i := by
  induction l with
  | nil => intro w w' _ ho hn _ h; simp only [Obj.run, Option.some.injEq] at h; subst h; exact ⟨ho, hn, rfl⟩
  | cons a l ih =>
    intro w w' hi ho hn hl h
    unfold Obj.run at h
    cases hs : step w a with
    | none => rw [hs] at h; simp at h
    | some w1 =>
      rw [hs] at h
      have K := (keep_step w hi k o i ho a (hl a (by simp)) w1 hs).1
      obtain ⟨a1, a2, a3⟩ := ih w1 w' (inv_step w hi a w1 hs) K.obj (K.out hn).1 (fun b hb => hl b (by simp [hb])) h
      exact ⟨a1, a2, by rw [a3, (K.out hn).2]⟩

theorem keep_in_run (k : Kind) (o i : Nat) (l : List Label) : ∀ (w w' : World), Inv w → w.objs k o = ⟨true, some i⟩ →
    i ∈ w.gate k → (∀ a ∈ l, Spares k o a ∧ a ≠ .life .finalize) → run w l = some w' →
    w'.objs k o = ⟨true, some i⟩ ∧ i ∈ w'.gate k ∧ (w'.impls i).map core = (w.impls i).map core := by
  induction l with
  | nil => intro w w' _ ho hn _ h; simp only [Obj.run, Option.some.injEq] at h; subst h; exact ⟨ho, hn, rfl⟩
  | cons a l ih =>
    intro w w' hi ho hn hl h
    unfold Obj.run at h
    cases hs : step w a with
    | none => rw [hs] at h; simp at h
    | some w1 =>
      rw [hs] at h
      have K := keep_step w hi k o i ho a (hl a (by simp)).1 w1 hs
      have K2 := K.2 (hl a (by simp)).2 hn
      obtain ⟨a1, a2, a3⟩ := ih w1 w' (inv_step w hi a w1 hs) K.1.obj K2.mem (fun b hb => hl b (by simp [hb])) h
      exact ⟨a1, a2, by rw [a3, K2.core]⟩

/-- What a successful `Create` leaves behind when the gate exists. -/
theorem create_eq (w : World) (hi : Inv w) (k : Kind) (o : Nat) (n : Name) (hc : (w.objs k o).created = false)
    (hu : up w k = true) (hn : n ≠ []) :
    ∃ w', create w k o n = some (w', true) ∧ w'.objs k o = ⟨true, some w.next⟩ ∧ w.next ∈ w'.gate k ∧
      w'.impls w.next = some ⟨k, n, true, []⟩ ∧ up w' k = true := by
  have hfl : w.flag k = true := by rw [hi.flag]; exact hu
  have hrun : starts w k = true := by
    unfold starts; split
    · next e => subst e; rw [hi.mgr hu]; rfl
    · rfl
  unfold create
  rw [if_neg (by simp [hc]), if_neg (by simp [hn]), if_neg (by simp [hu])]
  simp only
  rw [if_pos ⟨hu, hfl⟩]
  refine ⟨_, rfl, ?_, ?_, ?_, hu⟩
  · simp [setObj]
  · simp [setObj, setGate, setImpl]
  · simp [setObj, setGate, setImpl, hrun]

theorem announced_eq (w : World) (hi : Inv w) (k : Kind) : ∃ r, announced w k = some r ∧
    ∀ n, n ∈ r ↔ ∃ i m, i ∈ w.gate k ∧ w.impls i = some m ∧ m.name = n := by
  unfold announced
  by_cases hu : up w k = true
  · rw [if_pos ⟨hu, by rw [hi.flag]; exact hu⟩]
    obtain ⟨r, hr⟩ := mapM_some (fun i => (w.impls i).map (·.name)) (w.gate k) (fun i h => by
      obtain ⟨m, hm, _⟩ := hi.live k i h; exact ⟨m.name, by simp [hm]⟩)
    refine ⟨r, hr, fun n => ?_⟩
    rw [mapM_mem _ _ r hr n]
    constructor
    · rintro ⟨i, h1, h2⟩
      simp only [Option.map_eq_some_iff] at h2
      obtain ⟨m, h3, h4⟩ := h2
      exact ⟨i, m, h1, h3, h4⟩
    · rintro ⟨i, m, h1, h2, h3⟩
      exact ⟨i, h1, by simp [h2, h3]⟩
  · rw [if_neg (by simp [hu])]
    have := hi.down k (by simpa using hu)
    exact ⟨[], rfl, fun n => by simp [this]⟩

end Ecal.Life.Obj
