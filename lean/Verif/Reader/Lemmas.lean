import Verif.Reader.Spec

namespace Ecal.Reader

theorem delivered_append (a b : List Ev) : delivered (a ++ b) = delivered a ++ delivered b := by
  simp [delivered]

@[simp] theorem delivered_nil : delivered [] = [] := rfl

theorem layerEnabled_iff (c : Config) (l : Layer) : layerEnabled c l = true ↔ ¬ Disabled c l := by
  cases l <;> simp [layerEnabled, Disabled]

/-- Everything that matters about one `ApplySample` call, as cases. -/
inductive ApplyCase (c : Config) (st : State) (s : Sample) : State × List Ev → Prop
  /-- nothing happens: stopped or layer disabled -/
  | ignored (h : st.created = false ∨ layerEnabled c s.layer = false) : ApplyCase c st s (st, [])
  /-- duplicate -/
  | dup (hc : st.created = true) (hl : layerEnabled c s.layer = true) (h : s.hash ∈ st.hashQ)
      (act : List Layer) : ApplyCase c st s ({ st with active := act }, [])
  /-- id filter -/
  | filtered (hc : st.created = true) (hl : layerEnabled c s.layer = true) (h : s.hash ∉ st.hashQ)
      (hid : st.idSet ≠ [] ∧ s.id ∉ st.idSet) (act : List Layer) :
      ApplyCase c st s ({ st with active := act, hashQ := trim (st.hashQ ++ [s.hash]) }, [])
  /-- rejected by the clock check -/
  | rejected (hc : st.created = true) (hl : layerEnabled c s.layer = true) (h : s.hash ∉ st.hashQ)
      (hid : st.idSet = [] ∨ s.id ∈ st.idSet) (last : Int)
      (hf : st.clocks.find s.tid = some last) (hle : s.clock = last ∨ (s.clock < last ∧ c.drop = true))
      (act : List Layer) :
      ApplyCase c st s ({ st with active := act, hashQ := trim (st.hashQ ++ [s.hash]) }, [])
  /-- delivered, first sample or clock advanced by `d`; `g` is the drop increment -/
  | accepted (hc : st.created = true) (hl : layerEnabled c s.layer = true) (h : s.hash ∉ st.hashQ)
      (hid : st.idSet = [] ∨ s.id ∈ st.idSet) (g : Int) (evs : List Ev)
      (hcase : (st.clocks.find s.tid = none ∧ g = 0 ∧ evs = []) ∨
        ∃ last, st.clocks.find s.tid = some last ∧ last < s.clock ∧
          ((s.clock = last + 1 ∧ g = 0 ∧ evs = []) ∨
           (last + 1 < s.clock ∧ g = s.clock - last ∧ evs = [.dropEvent s.clock])))
      (act : List Layer) (b : Option (List UInt8 × Int))
      (hb : b = if st.hasCb then st.buf else some (s.payload, s.time)) :
      ApplyCase c st s ({ st with
          active := act, hashQ := trim (st.hashQ ++ [s.hash]),
          clocks := st.clocks.set s.tid s.clock, drops := st.drops + g,
          clock := st.clock + 1, size := s.payload.length, buf := b },
        evs ++ [if st.hasCb then .callback s else .buffered s])
  /-- delivered late (out-of-order dropping off) -/
  | late (hc : st.created = true) (hl : layerEnabled c s.layer = true) (h : s.hash ∉ st.hashQ)
      (hid : st.idSet = [] ∨ s.id ∈ st.idSet) (hd : c.drop = false) (last : Int)
      (hf : st.clocks.find s.tid = some last) (hlt : s.clock < last)
      (act : List Layer) (b : Option (List UInt8 × Int))
      (hb : b = if st.hasCb then st.buf else some (s.payload, s.time)) :
      ApplyCase c st s ({ st with
          active := act, hashQ := trim (st.hashQ ++ [s.hash]),
          clock := st.clock + 1, size := s.payload.length, buf := b },
        [if st.hasCb then .callback s else .buffered s])

theorem applyCase (c : Config) (st : State) (s : Sample) :
    ApplyCase c st s (applySample c st s) := by
  unfold applySample
  by_cases hc : st.created = true
  case neg =>
    rw [if_pos (by simp [hc])]; exact .ignored (Or.inl (by simpa using hc))
  rw [if_neg (by simp [hc])]
  by_cases hl : layerEnabled c s.layer = true
  case neg =>
    rw [if_pos (by simp [hl])]; exact .ignored (Or.inr (by simpa using hl))
  rw [if_neg (by simp [hl])]
  simp only []
  by_cases hq : s.hash ∈ st.hashQ
  · rw [if_pos hq]; exact .dup hc hl hq _
  rw [if_neg hq]
  by_cases hid : st.idSet ≠ [] ∧ s.id ∉ st.idSet
  · rw [if_pos (by simpa using hid)]
    exact .filtered hc hl hq hid _
  rw [if_neg (by simpa using hid)]
  have hid' : st.idSet = [] ∨ s.id ∈ st.idSet := by
    by_cases h1 : st.idSet = []
    · exact Or.inl h1
    · exact Or.inr (Classical.byContradiction fun h2 => hid ⟨h1, h2⟩)
  unfold checkClock
  cases hf : st.clocks.find s.tid with
  | none =>
    simp only [Bool.not_true, Bool.false_eq_true, if_false, Int.add_zero, List.nil_append]
    have := ApplyCase.accepted (c := c) hc hl hq hid' 0 [] (Or.inl ⟨hf, rfl, rfl⟩)
      (if s.layer ∈ st.active then st.active else s.layer :: st.active) _ rfl
    cases hcb : st.hasCb <;> simp only [hcb, if_true, if_false, Bool.false_eq_true, Int.add_zero, List.nil_append] at this ⊢ <;> exact this
  | some last =>
    simp only
    by_cases h1 : s.clock - last = 1
    · rw [if_pos h1]
      simp only [Bool.not_true, Bool.false_eq_true, if_false, Int.add_zero, List.nil_append]
      have := ApplyCase.accepted (c := c) hc hl hq hid' 0 []
        (Or.inr ⟨last, hf, by omega, Or.inl ⟨by omega, rfl, rfl⟩⟩)
        (if s.layer ∈ st.active then st.active else s.layer :: st.active) _ rfl
      by_cases hcb : st.hasCb = true <;> simp only [hcb, if_true, if_false, Bool.false_eq_true, Int.add_zero, List.nil_append] at this ⊢ <;> exact this
    rw [if_neg h1]
    by_cases h0 : s.clock - last = 0
    · rw [if_pos h0]
      simp only [Bool.not_false, if_true, Int.add_zero]
      exact .rejected hc hl hq hid' last hf (Or.inl (by omega)) _
    rw [if_neg h0]
    by_cases h2 : s.clock - last > 1
    · rw [if_pos h2]
      simp only [Bool.not_true, Bool.false_eq_true, if_false]
      have := ApplyCase.accepted (c := c) hc hl hq hid' (s.clock - last) [.dropEvent s.clock]
        (Or.inr ⟨last, hf, by omega, Or.inr ⟨by omega, rfl, rfl⟩⟩)
        (if s.layer ∈ st.active then st.active else s.layer :: st.active) _ rfl
      cases hcb : st.hasCb <;> simp only [hcb, if_true, if_false, Bool.false_eq_true] at this ⊢ <;> exact this
    rw [if_neg h2]
    cases hd : c.drop with
    | true =>
      simp only [Bool.not_false, if_true, Int.add_zero]
      exact .rejected hc hl hq hid' last hf (Or.inr ⟨by omega, hd⟩) _
    | false =>
      simp only [Bool.not_true, Bool.false_eq_true, if_false, Int.add_zero, List.nil_append]
      have := ApplyCase.late (c := c) hc hl hq hid' hd last hf (by omega)
        (if s.layer ∈ st.active then st.active else s.layer :: st.active) _ rfl
      cases hcb : st.hasCb <;> simp only [hcb, if_true, if_false, Bool.false_eq_true] at this ⊢ <;> exact this


theorem delivered_end (b : Bool) (s : Sample) :
    delivered [if b then Ev.callback s else Ev.buffered s] = [s] := by
  cases b <;> rfl

/-- Effect of a step on the counters, with out-of-order dropping on. -/
theorem step_clock (c : Config) (hd : c.drop = true) (st : State) (op : Op) :
    (delivered (step c st op).2 = [] ∧ (step c st op).1.clocks = st.clocks ∧
      (step c st op).1.drops = st.drops) ∨
    ∃ s g, delivered (step c st op).2 = [s] ∧
      (step c st op).1.clocks = st.clocks.set s.tid s.clock ∧
      (step c st op).1.drops = st.drops + g ∧
      ((st.clocks.find s.tid = none ∧ g = 0) ∨
        ∃ last, st.clocks.find s.tid = some last ∧ last < s.clock ∧
          g = if s.clock - last > 1 then s.clock - last else 0) := by
  cases op with
  | sample s =>
    simp only [step]
    have h := applyCase c st s
    generalize applySample c st s = r at h
    cases h with
    | ignored h => exact Or.inl ⟨rfl, rfl, rfl⟩
    | dup hc hl h act => exact Or.inl ⟨rfl, rfl, rfl⟩
    | filtered hc hl h hid act => exact Or.inl ⟨rfl, rfl, rfl⟩
    | rejected hc hl h hid last hf hle act => exact Or.inl ⟨rfl, rfl, rfl⟩
    | accepted hc hl h hid g evs hcase act b hb =>
      refine Or.inr ⟨s, g, ?_, rfl, rfl, ?_⟩
      · rw [delivered_append, delivered_end]
        rcases hcase with ⟨_, _, he⟩ | ⟨_, _, _, ⟨_, _, he⟩ | ⟨_, _, he⟩⟩ <;> rw [he] <;> rfl
      · rcases hcase with ⟨h1, h2, _⟩ | ⟨last, h1, h2, ⟨h3, h4, _⟩ | ⟨h3, h4, _⟩⟩
        · exact Or.inl ⟨h1, h2⟩
        · exact Or.inr ⟨last, h1, h2, by rw [if_neg (by omega), h4]⟩
        · exact Or.inr ⟨last, h1, h2, by rw [if_pos (by omega), h4]⟩
    | late hc hl h hid hd' => rw [hd] at hd'; cases hd'
  | read =>
    left; simp only [step, read]
    split
    · exact ⟨rfl, rfl, rfl⟩
    · split <;> exact ⟨rfl, rfl, rfl⟩
  | addCb => left; simp only [step]; split <;> exact ⟨rfl, rfl, rfl⟩
  | remCb => left; simp only [step]; split <;> exact ⟨rfl, rfl, rfl⟩
  | setId ids => exact Or.inl ⟨rfl, rfl, rfl⟩
  | stop => left; simp only [step]; split <;> exact ⟨rfl, rfl, rfl⟩

theorem run_increasing (c : Config) (hd : c.drop = true) (t : String) (h : List Op) (st : State) :
    ((fromPub t (delivered (run c st h).2)).map Sample.clock).Pairwise (· < ·) ∧
    ∀ k, st.clocks.find t = some k →
      ∀ x ∈ (fromPub t (delivered (run c st h).2)).map Sample.clock, k < x := by
  induction h generalizing st with
  | nil => simp [run, fromPub]
  | cons op h ih =>
    simp only [run, delivered_append]
    rcases step_clock c hd st op with ⟨h1, h2, _⟩ | ⟨s, g, h1, h2, _, h3⟩
    · rw [h1, ← h2]; simpa using ih (step c st op).1
    · obtain ⟨i1, i2⟩ := ih (step c st op).1
      rw [h1]
      by_cases hs : s.tid = t
      · have e : fromPub t ([s] ++ delivered (run c (step c st op).1 h).2)
            = s :: fromPub t (delivered (run c (step c st op).1 h).2) := by
          simp [fromPub, hs]
        rw [e]
        have hk : (step c st op).1.clocks.find t = some s.clock := by rw [h2, ← hs]; simp
        have i3 := i2 s.clock hk
        refine ⟨?_, ?_⟩
        · rw [List.map_cons, List.pairwise_cons]; exact ⟨i3, i1⟩
        · intro k hkk x hx
          rw [← hs] at hkk
          rcases h3 with ⟨h4, _⟩ | ⟨last, h4, h5, _⟩
          · rw [h4] at hkk; cases hkk
          · rw [h4] at hkk; cases hkk
            rw [List.map_cons] at hx
            rcases List.mem_cons.1 hx with hx | hx
            · omega
            · have := i3 x hx; omega
      · have e : fromPub t ([s] ++ delivered (run c (step c st op).1 h).2)
            = fromPub t (delivered (run c (step c st op).1 h).2) := by
          simp [fromPub, hs]
        rw [e]
        refine ⟨i1, ?_⟩
        intro k hkk
        exact i2 k (by rw [h2, AMap.find_set_ne _ _ _ _ hs]; exact hkk)

theorem lostAndGaps_congr (f g : String → Option Int) (hfg : ∀ t, f t = g t) (l : List Sample) :
    lostAndGaps f l = lostAndGaps g l := by
  have : f = g := funext hfg
  rw [this]

theorem run_drops (c : Config) (hd : c.drop = true) (h : List Op) (st : State) :
    (run c st h).1.drops = st.drops +
      (lostAndGaps st.clocks.find (delivered (run c st h).2)).1 +
      (lostAndGaps st.clocks.find (delivered (run c st h).2)).2 := by
  induction h generalizing st with
  | nil => simp [run, lostAndGaps]
  | cons op h ih =>
    simp only [run, delivered_append]
    rcases step_clock c hd st op with ⟨h1, h2, h3⟩ | ⟨s, g, h1, h2, h4, h3⟩
    · rw [h1, List.nil_append, ih, h2, h3]
    · rw [h1, ih, h4]
      have hfg : ∀ t, (if t = s.tid then some s.clock else st.clocks.find t)
          = (step c st op).1.clocks.find t := by
        intro t
        rw [h2, AMap.find_set]
        by_cases e : t = s.tid
        · simp [e]
        · simp [e, Ne.symm e]
      simp only [List.cons_append, List.nil_append, lostAndGaps]
      rw [lostAndGaps_congr _ _ hfg]
      rcases h3 with ⟨h5, h6⟩ | ⟨last, h5, h6, h7⟩
      · simp only [h5, h6]; omega
      · simp only [h5, h7]
        split <;> omega

/-- Hash queue invariant for the comparison with the ideal subscriber. -/
structure QInv (ids : List Int) (st : State) (past : List Sample) : Prop where
  created : st.created = true
  idset   : st.idSet = ids
  q       : ∀ x ∈ st.hashQ, ∃ a ∈ past, a.hash = x ∧
              (¬ (ids = [] ∨ a.id ∈ ids) ∨ ∃ k, st.clocks.find a.tid = some k ∧ a.clock ≤ k)

theorem mem_trim {q : List Nat} {x : Nat} (h : x ∈ trim q) : x ∈ q := List.mem_of_mem_drop h

theorem QInv.congr_q {ids : List Int} {st st' : State} {past past' : List Sample} (h : QInv ids st past)
    (h1 : st'.created = st.created) (h2 : st'.idSet = st.idSet) (h3 : st'.hashQ = st.hashQ)
    (h4 : st'.clocks = st.clocks) (hp : ∀ a ∈ past, a ∈ past') : QInv ids st' past' := by
  refine ⟨h1.trans h.created, h2.trans h.idset, ?_⟩
  intro x hx
  rw [h3] at hx
  obtain ⟨a, ha, hb, hc⟩ := h.q x hx
  exact ⟨a, hp a ha, hb, by rw [h4]; exact hc⟩

theorem run_ideal (c : Config) (hd : c.drop = true) (ids : List Int) (h : List Op)
    (hs : Steady h) (st : State) (past : List Sample)
    (hh : HashesDistinct (past ++ arrivals h)) (hq : QInv ids st past) :
    delivered (run c st h).2 = ideal c ids (fun t => st.clocks.find t) (arrivals h) := by
  induction h generalizing st past with
  | nil => rfl
  | cons op h ih =>
    have hs' : Steady h := fun o ho => hs o (by simp [ho])
    have hop := hs op (by simp)
    simp only [run, delivered_append]
    have other : ∀ (harr : arrivals (op :: h) = arrivals h)
        (hdel : delivered (step c st op).2 = [])
        (h1 : (step c st op).1.created = st.created) (h2 : (step c st op).1.idSet = st.idSet)
        (h3 : (step c st op).1.hashQ = st.hashQ) (h4 : (step c st op).1.clocks = st.clocks),
        delivered (step c st op).2 ++ delivered (run c (step c st op).1 h).2 =
          ideal c ids (fun t => st.clocks.find t) (arrivals (op :: h)) := by
      intro harr hdel h1 h2 h3 h4
      rw [harr, hdel, List.nil_append, ih hs' _ past (by rw [harr] at hh; exact hh)
        (hq.congr_q h1 h2 h3 h4 (fun a ha => ha)), h4]
    cases op with
    | read =>
      have : ∀ st : State, delivered (read st).2 = [] ∧ (read st).1.created = st.created ∧
          (read st).1.idSet = st.idSet ∧ (read st).1.hashQ = st.hashQ ∧
          (read st).1.clocks = st.clocks := by
        intro st; unfold read; split
        · exact ⟨rfl, rfl, rfl, rfl, rfl⟩
        · split <;> exact ⟨rfl, rfl, rfl, rfl, rfl⟩
      obtain ⟨a, b, c', d, e⟩ := this st
      exact other rfl a b c' d e
    | addCb => apply other rfl <;> simp only [step] <;> first | rfl | (split <;> rfl)
    | remCb => apply other rfl <;> simp only [step] <;> first | rfl | (split <;> rfl)
    | setId i => exact absurd rfl (hop.1 i)
    | stop => exact absurd rfl hop.2
    | sample s =>
      have harr : arrivals (.sample s :: h) = s :: arrivals h := rfl
      rw [harr] at hh ⊢
      have hh' : HashesDistinct ((past ++ [s]) ++ arrivals h) := by
        simpa [List.append_assoc] using hh
      simp only [step]
      have hcase := applyCase c st s
      generalize applySample c st s = r at hcase
      -- the case where nothing is delivered and the ideal subscriber agrees
      have skip : ∀ (st' : State) (hn : ¬ (¬ Disabled c s.layer ∧ (ids = [] ∨ s.id ∈ ids) ∧
            (∀ k, st.clocks.find s.tid = some k → k < s.clock)))
          (h4 : st'.clocks = st.clocks) (hq' : QInv ids st' (past ++ [s])),
          delivered [] ++ delivered (run c st' h).2 =
            ideal c ids (fun t => st.clocks.find t) (s :: arrivals h) := by
        intro st' hn h4 hq'
        rw [delivered_nil, List.nil_append, ih hs' st' (past ++ [s]) hh' hq', h4]
        simp only [ideal]
        rw [if_neg hn]
      cases hcase with
      | ignored h =>
        apply skip st _ rfl (hq.congr_q rfl rfl rfl rfl (fun a ha => List.mem_append_left _ ha))
        rintro ⟨h1, _, _⟩
        rcases h with h | h
        · rw [hq.created] at h; cases h
        · rw [(layerEnabled_iff _ _).2 h1] at h; cases h
      | dup hc hl hm act =>
        refine skip { st with active := act } ?_ rfl (hq.congr_q rfl rfl rfl rfl (fun a ha => List.mem_append_left _ ha))
        rintro ⟨_, h2, h3⟩
        obtain ⟨a, ha, hb, hcc⟩ := hq.q _ hm
        obtain ⟨e1, e2, e3⟩ := hh a (by simp [ha]) s (by simp) hb
        rcases hcc with hcc | ⟨k, hk, hle⟩
        · rw [e3] at hcc; exact hcc h2
        · rw [e1] at hk; have := h3 k hk; omega
      | filtered hc hl hm hid act =>
        rw [hq.idset] at hid
        have hno : ¬ (ids = [] ∨ s.id ∈ ids) := by
          rintro (h1 | h1)
          · exact hid.1 h1
          · exact hid.2 h1
        refine skip { st with active := act, hashQ := trim (st.hashQ ++ [s.hash]) } (fun h => hno h.2.1) rfl ?_
        refine ⟨hq.created, hq.idset, ?_⟩
        intro x hx
        have hx := mem_trim hx
        simp only [List.mem_append, List.mem_singleton] at hx
        rcases hx with hx | hx
        · obtain ⟨a, ha, hb⟩ := hq.q x hx; exact ⟨a, by simp [ha], hb⟩
        · exact ⟨s, by simp, hx.symm, Or.inl hno⟩
      | rejected hc hl hm hid last hf hle act =>
        have hlast : s.clock ≤ last := by rcases hle with h | h <;> omega
        refine skip { st with active := act, hashQ := trim (st.hashQ ++ [s.hash]) }
          (fun h => by have := h.2.2 last hf; omega) rfl ?_
        refine ⟨hq.created, hq.idset, ?_⟩
        intro x hx
        have hx := mem_trim hx
        simp only [List.mem_append, List.mem_singleton] at hx
        rcases hx with hx | hx
        · obtain ⟨a, ha, hb⟩ := hq.q x hx; exact ⟨a, by simp [ha], hb⟩
        · exact ⟨s, by simp, hx.symm, Or.inr ⟨last, hf, hlast⟩⟩
      | accepted hc hl hm hid g evs hcase act b hb =>
        rw [hq.idset] at hid
        have hnew : ∀ k, st.clocks.find s.tid = some k → k < s.clock := by
          intro k hk
          rcases hcase with ⟨h1, _⟩ | ⟨last, h1, h2, _⟩
          · rw [h1] at hk; cases hk
          · rw [h1] at hk; cases hk; exact h2
        have hev : delivered evs = [] := by
          rcases hcase with ⟨_, _, he⟩ | ⟨_, _, _, ⟨_, _, he⟩ | ⟨_, _, he⟩⟩ <;> rw [he] <;> rfl
        rw [delivered_append, delivered_end, hev]
        simp only [ideal]
        rw [if_pos ⟨(layerEnabled_iff _ _).1 hl, hid, hnew⟩, List.nil_append, List.singleton_append]
        congr 1
        rw [ih hs' _ (past ++ [s]) hh']
        · congr 1
          funext t
          simp only [AMap.find_set]
          by_cases e : t = s.tid
          · simp [e]
          · simp [e, Ne.symm e]
        · refine ⟨hq.created, hq.idset, ?_⟩
          intro x hx
          have hx := mem_trim hx
          simp only [List.mem_append, List.mem_singleton] at hx
          rcases hx with hx | hx
          · obtain ⟨a, ha, hb, hcc⟩ := hq.q x hx
            refine ⟨a, by simp [ha], hb, ?_⟩
            rcases hcc with hcc | ⟨k, hk, hle⟩
            · exact Or.inl hcc
            · right
              by_cases e : s.tid = a.tid
              · refine ⟨s.clock, by simp [e], ?_⟩
                rw [← e] at hk; have := hnew k hk; omega
              · exact ⟨k, by simp only [AMap.find_set_ne _ _ _ _ e]; exact hk, hle⟩
          · exact ⟨s, by simp, hx.symm, Or.inr ⟨s.clock, by simp, Int.le_refl _⟩⟩
      | late hc hl hm hid hd' => rw [hd] at hd'; cases hd'


theorem ideal_filter_ids (c : Config) (ids : List Int) (l : List Sample)
    (last : String → Option Int) :
    ideal c ids last (l.filter (fun s => ids.isEmpty || ids.contains s.id)) = ideal c ids last l := by
  induction l generalizing last with
  | nil => rfl
  | cons s l ih =>
    by_cases h : ids = [] ∨ s.id ∈ ids
    · rw [List.filter_cons_of_pos (by simpa using h)]
      simp only [ideal]
      split <;> rw [ih]
    · rw [List.filter_cons_of_neg (by simpa using h)]
      simp only [ideal]
      rw [if_neg (fun hh => h hh.2.1), ih]

/-- Age of deliveries: `past` are the earlier arrivals, newest first, with a flag telling
whether they were delivered; `pushed` the hashes entered into the queue, newest first. -/
structure WInv (st : State) (past : List (Sample × Bool)) (pushed : List Nat) : Prop where
  q    : st.hashQ.reverse = pushed.take 64
  age  : ∀ (k : Nat) (s : Sample), past[k]? = some (s, true) → s.hash ∈ pushed.take (k + 1)

theorem trim_rev (q : List Nat) (x : Nat) (p : List Nat) (h : q.reverse = p.take 64) :
    (trim (q ++ [x])).reverse = (x :: p).take 64 := by
  unfold trim
  rw [List.reverse_drop]
  simp only [List.reverse_append, List.reverse_cons, List.reverse_nil, List.nil_append,
    List.singleton_append, List.length_append, List.length_cons, List.length_nil, hashQueueSize]
  have hl : q.length = min 64 p.length := by
    have := congrArg List.length h; simpa using this
  rw [h]
  by_cases h64 : q.length = 64
  · rw [h64]
    simp only [List.take_succ_cons]
    rw [List.take_take]
    rfl
  · rw [show q.length + 1 - (q.length + 1 - 64) = q.length + 1 by omega]
    simp only [List.take_succ_cons]
    rw [List.take_take]
    congr 1
    rw [show p.take 63 = p from List.take_of_length_le (by omega),
      List.take_of_length_le (by omega)]

theorem WInv.skip {st : State} {past : List (Sample × Bool)} {pushed : List Nat}
    (h : WInv st past pushed) (st' : State) (hq : st'.hashQ = st.hashQ) (s : Sample) :
    WInv st' ((s, false) :: past) pushed := by
  refine ⟨by rw [hq]; exact h.q, ?_⟩
  intro k a hk
  cases k with
  | zero => simp at hk
  | succ k =>
    have := h.age k a (by simpa using hk)
    exact (List.take_subset_take_left pushed (by omega : k + 1 ≤ k + 1 + 1)) this

theorem WInv.push {st : State} {past : List (Sample × Bool)} {pushed : List Nat}
    (h : WInv st past pushed) (st' : State) (s : Sample) (d : Bool)
    (hq : st'.hashQ = trim (st.hashQ ++ [s.hash])) :
    WInv st' ((s, d) :: past) (s.hash :: pushed) := by
  refine ⟨by rw [hq]; exact trim_rev _ _ _ h.q, ?_⟩
  intro k a hk
  cases k with
  | zero => simp at hk; simp [hk.1]
  | succ k =>
    have := h.age k a (by simpa using hk)
    simp only [List.take_succ_cons, List.mem_cons]
    exact Or.inr this

def sameSample (a b : Sample) : Prop := a.tid = b.tid ∧ a.clock = b.clock

theorem run_window (c : Config) (l : List Sample) (st : State) (past : List (Sample × Bool))
    (pushed : List Nat) (hw : WInv st past pushed)
    (hwin : Window ((past.map Prod.fst).reverse ++ l))
    (hh : ∀ a ∈ (past.map Prod.fst).reverse ++ l, ∀ b ∈ (past.map Prod.fst).reverse ++ l,
      a.tid = b.tid → a.clock = b.clock → a.hash = b.hash) :
    (∀ a ∈ delivered (run c st (l.map .sample)).2, ∀ b, (b, true) ∈ past → ¬ sameSample b a) ∧
    (delivered (run c st (l.map .sample)).2).Pairwise (fun a b => ¬ sameSample a b) := by
  induction l generalizing st past pushed with
  | nil => simp [run]
  | cons s l ih =>
    have key : ∀ d st' pushed', WInv st' ((s, d) :: past) pushed' →
        (∀ a ∈ delivered (run c st' (l.map .sample)).2, ∀ b, (b, true) ∈ (s, d) :: past →
          ¬ sameSample b a) ∧
        (delivered (run c st' (l.map .sample)).2).Pairwise (fun a b => ¬ sameSample a b) := by
      intro d st' pushed' hw'
      exact ih st' ((s, d) :: past) pushed' hw' (by simpa using hwin) (by simpa using hh)
    have notdel : ∀ st' pushed', WInv st' ((s, false) :: past) pushed' →
        (∀ a ∈ delivered ([] : List Ev) ++ delivered (run c st' (l.map .sample)).2,
          ∀ b, (b, true) ∈ past → ¬ sameSample b a) ∧
        (delivered ([] : List Ev) ++ delivered (run c st' (l.map .sample)).2).Pairwise
          (fun a b => ¬ sameSample a b) := by
      intro st' pushed' hw'
      obtain ⟨k1, k2⟩ := key false st' pushed' hw'
      exact ⟨fun a ha b hb => k1 a (by simpa using ha) b (List.mem_cons_of_mem _ hb), by simpa using k2⟩
    have isdel : ∀ st' pushed' evs, s.hash ∉ st.hashQ → delivered evs = [s] →
        WInv st' ((s, true) :: past) pushed' →
        (∀ a ∈ delivered evs ++ delivered (run c st' (l.map .sample)).2,
          ∀ b, (b, true) ∈ past → ¬ sameSample b a) ∧
        (delivered evs ++ delivered (run c st' (l.map .sample)).2).Pairwise
          (fun a b => ¬ sameSample a b) := by
      intro st' pushed' evs hnq hdel hw'
      obtain ⟨k1, k2⟩ := key true st' pushed' hw'
      rw [hdel]
      refine ⟨?_, ?_⟩
      · intro a ha b hb
        simp only [List.singleton_append, List.mem_cons] at ha
        rcases ha with ha | ha
        · subst ha
          intro hsame
          obtain ⟨k, hk⟩ := List.mem_iff_getElem?.1 hb
          have hkl : k < past.length := (List.getElem?_eq_some_iff.1 hk).1
          have hage := hw.age k b hk
          -- distance between the two arrivals
          have hb' : ((past.map Prod.fst).reverse ++ a :: l)[past.length - 1 - k]? = some b := by
            rw [List.getElem?_append_left (by simp; omega)]
            rw [List.getElem?_reverse (by simp; omega)]
            simp only [List.length_map]
            rw [show past.length - 1 - (past.length - 1 - k) = k by omega]
            simp [hk]
          have ha' : ((past.map Prod.fst).reverse ++ a :: l)[past.length]? = some a := by
            rw [List.getElem?_append_right (by simp)]
            simp
          have hdist := hwin _ _ (by omega) b a hb' ha' hsame.1 hsame.2
          have hmem : b.hash ∈ pushed.take 64 :=
            (List.take_subset_take_left pushed (by omega : k + 1 ≤ 64)) hage
          rw [← hw.q] at hmem
          have heq := hh b (by
            rw [List.mem_append]; left; simp only [List.mem_reverse, List.mem_map]
            exact ⟨_, hb, rfl⟩) a (by simp) hsame.1 hsame.2
          rw [heq] at hmem
          exact hnq (List.mem_reverse.1 hmem)
        · exact k1 a ha b (List.mem_cons_of_mem _ hb)
      · simp only [List.singleton_append, List.pairwise_cons]
        exact ⟨fun a ha => k1 a ha s (by simp), k2⟩
    simp only [List.map_cons, run, delivered_append, step]
    have hcase := applyCase c st s
    generalize applySample c st s = r at hcase
    cases hcase with
    | ignored h => exact notdel _ _ (hw.skip _ rfl _)
    | dup hc hl h act => exact notdel _ _ (hw.skip { st with active := act } rfl _)
    | filtered hc hl h hid act => exact notdel _ _ (hw.push _ s false rfl)
    | rejected hc hl h hid last hf hle act => exact notdel _ _ (hw.push _ s false rfl)
    | accepted hc hl h hid g evs hcase act b hb =>
      refine isdel _ _ _ h ?_ (hw.push _ s true rfl)
      rw [delivered_append, delivered_end]
      rcases hcase with ⟨_, _, he⟩ | ⟨_, _, _, ⟨_, _, he⟩ | ⟨_, _, he⟩⟩ <;> rw [he] <;> rfl
    | late hc hl h hid hd last hf hlt act b hb =>
      exact isdel _ _ _ h (delivered_end _ _) (hw.push _ s true rfl)

end Ecal.Reader
