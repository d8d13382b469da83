import Verif.Life.Init

/-! # C50: Initialize/Finalize nesting -/

namespace Ecal.Life

/-! ### Specification, from the calls alone -/

/-- What the calls so far ask for: nesting depth, the component masks requested since the depth last was
zero, and whether a configuration object was constructed since then (the library constructs one at
program start). -/
structure Want where
  depth  : Nat := 0
  masks  : List Nat := []
  config : Bool := true

def wantStep (w : Want) : Call → Want
  | .newConfig => { w with config := true }
  | .initArgs c => { depth := w.depth + 1, masks := c :: w.masks, config := true }
  | .initCfg c => { depth := w.depth + 1, masks := c :: w.masks, config := true }
  | .finalize => if w.depth ≤ 1 then { config := false } else { w with depth := w.depth - 1 }
  | .utilGetMonitoring => w

def want (calls : List Call) : Want := calls.foldl wantStep {}

/-- Usage the theorem covers: `Finalize` only while initialised, `Initialize` with an existing
configuration object only if one was constructed since the last complete finalisation, no use of
`Util::ShutdownProcess(name)`. -/
def Proper : Want → List Call → Prop
  | _, [] => True
  | w, .finalize :: l => 0 < w.depth ∧ Proper (wantStep w .finalize) l
  | w, .initCfg c :: l => w.config = true ∧ Proper (wantStep w (.initCfg c)) l
  | _, .utilGetMonitoring :: _ => False
  | w, a :: l => Proper (wantStep w a) l

/-- Component bit `i` was requested. -/
def Requested (w : Want) (i : Nat) : Prop := ∃ m ∈ w.masks, m.testBit i = true

structure Rel (st : State) (w : Want) : Prop where
  ref  : st.ref = w.depth
  live : 0 < w.depth → ∃ c, st.ctx = some c ∧ c.initialized = true ∧ c.core = true ∧
    ∀ i, i < 6 → (c.inst.testBit i = true ↔ Requested w i)
  conf : w.config = true → ∃ c, st.ctx = some c
  dead : w.depth = 0 → w.masks = [] ∧ (st.ctx = none ∨ st.ctx = some {})

theorem known_testBit (m i : Nat) (h : i < 6) : (m &&& known).testBit i = m.testBit i := by
  rw [Nat.testBit_and]
  have : known.testBit i = true := by
    have : i = 0 ∨ i = 1 ∨ i = 2 ∨ i = 3 ∨ i = 4 ∨ i = 5 := by omega
    rcases this with rfl | rfl | rfl | rfl | rfl | rfl <;> decide
  rw [this, Bool.and_true]

theorem rel_newConfig {st : State} {w : Want} (h : Rel st w) : Rel (newConfig st) { w with config := true } := by
  unfold newConfig
  cases hc : st.ctx with
  | some c => exact ⟨h.ref, h.live, fun _ => ⟨c, hc⟩, h.dead⟩
  | none =>
    refine ⟨h.ref, ?_, fun _ => ⟨_, rfl⟩, ?_⟩
    · intro hd
      obtain ⟨c, h1, _⟩ := h.live hd
      rw [hc] at h1; cases h1
    · intro hd; exact ⟨(h.dead hd).1, Or.inr rfl⟩

theorem rel_init {st s : State} {w : Want} {r : Int} (c : Nat) (h : Rel st w)
    (hs : initCfg st c = some (s, r)) :
    Rel s { depth := w.depth + 1, masks := c :: w.masks, config := true } := by
  unfold initCfg at hs
  cases hc : st.ctx with
  | none => rw [hc] at hs; cases hs
  | some x =>
    rw [hc] at hs
    simp only [Option.some.injEq, Prod.mk.injEq] at hs
    obtain ⟨hs, _⟩ := hs
    subst hs
    refine ⟨by simp [h.ref], ?_, fun _ => ⟨_, rfl⟩, by intro hd; simp at hd⟩
    intro _
    refine ⟨_, rfl, rfl, rfl, ?_⟩
    intro i hi
    simp only [Nat.testBit_or, known_testBit c i hi, Bool.or_eq_true, Requested, List.mem_cons]
    have hx : x.inst.testBit i = true ↔ Requested w i := by
      by_cases hd : 0 < w.depth
      · obtain ⟨y, h1, _, _, h4⟩ := h.live hd
        rw [hc] at h1
        simp only [Option.some.injEq] at h1
        rw [h1]; exact h4 i hi
      · obtain ⟨h1, h2⟩ := h.dead (by omega)
        rw [hc] at h2
        rcases h2 with h2 | h2
        · cases h2
        · simp only [Option.some.injEq] at h2
          rw [h2]
          simp [Requested, h1]
    rw [hx]
    constructor
    · rintro (⟨m, h1, h2⟩ | h1)
      · exact ⟨m, Or.inr h1, h2⟩
      · exact ⟨c, Or.inl rfl, h1⟩
    · rintro ⟨m, h1 | h1, h2⟩
      · subst h1; exact Or.inr h2
      · exact Or.inl ⟨m, h1, h2⟩

theorem rel_finalize {st : State} {w : Want} (h : Rel st w) (hd : 0 < w.depth) :
    Rel (finalize st).1 (wantStep w .finalize) := by
  obtain ⟨c, h1, h2, h3, h4⟩ := h.live hd
  have hr := h.ref
  unfold finalize
  rw [h1]
  simp only [wantStep]
  by_cases hw : w.depth ≤ 1
  · rw [if_neg (by omega), if_pos hw]
    exact ⟨by simp; omega, (by intro hh; simp at hh), (fun hh => by cases hh), fun _ => ⟨rfl, Or.inl rfl⟩⟩
  · rw [if_pos (by omega), if_neg hw]
    refine ⟨by simp; omega, ?_, fun _ => ⟨c, rfl⟩, by intro hh; simp at hh; omega⟩
    intro _
    exact ⟨c, rfl, h2, h3, h4⟩

/-- The context exists after constructing a configuration object. -/
theorem newConfig_some (st : State) : ∃ c, (newConfig st).ctx = some c := by
  unfold newConfig
  cases hc : st.ctx with
  | some c => exact ⟨c, hc⟩
  | none => exact ⟨_, rfl⟩

theorem initCfg_defined {st : State} {x : Ctx} (h : st.ctx = some x) (c : Nat) : ∃ s r, initCfg st c = some (s, r) := by
  unfold initCfg
  rw [h]
  exact ⟨_, _, rfl⟩

theorem refines (calls : List Call) : ∀ (st : State) (w : Want), Rel st w → Proper w calls →
    ∃ s, run st calls = some s ∧ Rel s (calls.foldl wantStep w) := by
  induction calls with
  | nil => intro st w h _; exact ⟨st, rfl, h⟩
  | cons a l ih =>
    intro st w h hp
    cases a with
    | newConfig =>
      obtain ⟨s, h1, h2⟩ := ih _ _ (rel_newConfig h) hp
      exact ⟨s, h1, h2⟩
    | initArgs c =>
      obtain ⟨x, hx⟩ := newConfig_some st
      obtain ⟨s, r, hs⟩ := initCfg_defined hx c
      obtain ⟨s', h1, h2⟩ := ih s _ (rel_init c (rel_newConfig h) hs) hp
      refine ⟨s', ?_, h2⟩
      simp only [run, step, initArgs, hs, Option.map_some]
      exact h1
    | initCfg c =>
      obtain ⟨hd, hp⟩ := hp
      obtain ⟨x, hx⟩ := h.conf hd
      obtain ⟨s, r, hs⟩ := initCfg_defined hx c
      obtain ⟨s', h1, h2⟩ := ih s _ (rel_init c h hs) hp
      refine ⟨s', ?_, h2⟩
      simp only [run, step, hs, Option.map_some]
      exact h1
    | finalize =>
      obtain ⟨hd, hp⟩ := hp
      obtain ⟨s', h1, h2⟩ := ih _ _ (rel_finalize h hd) hp
      exact ⟨s', h1, h2⟩
    | utilGetMonitoring => exact hp.elim

theorem rel_start : Rel start {} :=
  ⟨rfl, by intro h; simp at h, fun _ => ⟨_, rfl⟩, fun _ => ⟨rfl, Or.inr rfl⟩⟩

/-- **C50** In every proper call history eCAL is initialised exactly while `Finalize` has been called less
often than `Initialize`. -/
theorem C50_initialised_iff_nested_partial (calls : List Call) (hp : Proper {} calls) :
    ∃ s, run start calls = some s ∧ (isInitialized s 0 = true ↔ 0 < (want calls).depth) := by
  obtain ⟨s, h1, h2⟩ := refines calls start {} rel_start hp
  refine ⟨s, h1, ?_⟩
  have h2 : Rel s (want calls) := h2
  constructor
  · intro hi
    rcases Nat.eq_zero_or_pos (want calls).depth with h0 | h0
    · rcases (h2.dead h0).2 with h | h <;> simp [isInitialized, h] at hi
    · exact h0
  · intro hd
    obtain ⟨c, hc, hi, _⟩ := h2.live hd
    simp [isInitialized, hc, hi]

/-- **C50** … and each single component is available exactly if it was requested since eCAL was last not
initialised; it stays available until the last `Finalize`. -/
theorem C50_components_stay_partial (calls : List Call) (hp : Proper {} calls) (i : Nat) (hi : i < 6) :
    ∃ s, run start calls = some s ∧
      (isInitialized s (2 ^ i) = true ↔ Requested (want calls) i) := by
  obtain ⟨s, h1, h2⟩ := refines calls start {} rel_start hp
  refine ⟨s, h1, ?_⟩
  have h2 : Rel s (want calls) := h2
  have key : ∀ c : Ctx, s.ctx = some c → isInitialized s (2 ^ i) = c.inst.testBit i := by
    intro c hc
    have : i = 0 ∨ i = 1 ∨ i = 2 ∨ i = 3 ∨ i = 4 ∨ i = 5 := by omega
    rcases this with rfl | rfl | rfl | rfl | rfl | rfl <;> simp [isInitialized, hc]
  rcases Nat.eq_zero_or_pos (want calls).depth with h0 | h0
  · obtain ⟨hm, hc⟩ := h2.dead h0
    have hn : ¬ Requested (want calls) i := by simp [Requested, hm]
    rcases hc with hc | hc
    · simp [isInitialized, hc, hn]
    · rw [key _ hc]; simp [hn]
  · obtain ⟨c, hc, _, _, h4⟩ := h2.live h0
    rw [key c hc]; exact h4 i hi

example : Proper {} [.newConfig, .initArgs 0x03, .initCfg 0x08, .finalize, .finalize, .newConfig, .initCfg 0x01] := by
  simp [Proper, wantStep]

/-- The example's middle and end. -/
example : (want [.newConfig, .initArgs 0x03, .initCfg 0x08, .finalize]).depth = 1 ∧
    (want [.newConfig, .initArgs 0x03, .initCfg 0x08, .finalize]).masks = [0x08, 0x03] := by
  simp [want, wantStep]

/-- **C50** `Initialize` reports 1 exactly if it added nothing. -/
theorem C50_result_code (st s : State) (c : Nat) (x : Ctx) (r : Int) (hx : st.ctx = some x)
    (h : initCfg st c = some (s, r)) :
    r = 1 ↔ (x.core = true ∧ ∀ y, s.ctx = some y → y.inst = x.inst) := by
  unfold initCfg at h
  rw [hx] at h
  simp only [Option.some.injEq, Prod.mk.injEq] at h
  obtain ⟨h1, h2⟩ := h
  subst h1
  rw [← h2]
  by_cases hc : x.core = false ∨ (x.inst ||| (c &&& known)) ≠ x.inst
  · rw [if_pos hc]
    constructor
    · intro hh; cases hh
    · rintro ⟨h3, h4⟩
      rcases hc with hc | hc
      · rw [hc] at h3; cases h3
      · exact absurd (h4 _ rfl) hc
  · rw [if_neg hc]
    refine ⟨fun _ => ⟨?_, ?_⟩, fun _ => rfl⟩
    · cases hh : x.core with
      | true => rfl
      | false => exact absurd (Or.inl hh) hc
    · intro y hy
      simp only [Option.some.injEq] at hy
      subst hy
      exact Classical.byContradiction fun hne => hc (Or.inr hne)

/-! ### Violations -/

/-- **C50** The first `Initialize` reports that it initialised something, whatever components it asks for; asking again
for components that are there reports that there was nothing to do. -/
theorem C50_first_and_second_result (c d : Nat) (hd : ∀ i, d.testBit i = true → c.testBit i = true) :
    ∃ s, initArgs start c = some (s, 0) ∧ ∃ s', initArgs s d = some (s', 1) := by
  refine ⟨_, rfl, ⟨some ⟨true, true, (c &&& known) ||| (d &&& known)⟩, 2⟩, ?_⟩
  have e : (c &&& known) ||| (d &&& known) = c &&& known := by
    apply Nat.eq_of_testBit_eq
    intro i
    rw [Nat.testBit_or, Nat.testBit_and, Nat.testBit_and]
    have := hd i
    cases h1 : d.testBit i <;> cases h2 : c.testBit i <;> simp_all
  have e0 : 0 ||| (c &&& known) = c &&& known := Nat.zero_or _
  simp [initArgs, newConfig, initCfg, start, e, e0]

example : ∀ i, (0x03 : Nat).testBit i = true → (0x3f : Nat).testBit i = true := by
  intro i hi
  have h : (0x03 : Nat) &&& 0x3f = 0x03 := by decide
  rw [← h, Nat.testBit_and] at hi
  simp_all

/-- **C50, violation**: a `Finalize` before the first `Initialize` is counted, so that afterwards two
`Initialize` and one `Finalize` leave eCAL not initialised. -/
theorem C50_violated_early_finalize :
    ∃ s, run start [.finalize, .initArgs 0x03, .initArgs 0x03, .finalize] = some s ∧
      isInitialized s 0 = false := by
  exact ⟨{ ctx := none, ref := 0 }, by decide +kernel, by decide +kernel⟩

/-- The same after any finalised phase, as soon as the application constructs a configuration object and
finalises once too often. -/
theorem C50_violated_extra_finalize :
    ∃ s, run start [.initArgs 0x03, .finalize, .newConfig, .finalize, .initArgs 0x03, .initArgs 0x03, .finalize]
      = some s ∧ isInitialized s 0 = false := by
  exact ⟨{ ctx := none, ref := 0 }, by decide +kernel, by decide +kernel⟩

/-- **C50, violation**: initialising again with the configuration object of the first initialisation
dereferences a null pointer. -/
theorem C50_violated_reinitialise_with_same_configuration (c : Nat) :
    run start [.newConfig, .initCfg c, .finalize, .initCfg c] = none := by
  rfl

/-- **C50, violation**: `Util::ShutdownProcess(name)` leaves eCAL initialised although `Finalize` was called
as often as `Initialize`. -/
theorem C50_violated_monitoring_leak :
    ∃ s, run start [.initArgs 0x03, .utilGetMonitoring, .finalize] = some s ∧ isInitialized s 0 = true := by
  exact ⟨{ ctx := some { initialized := true, core := true, inst := 0x0b }, ref := 1 },
    by decide +kernel, by decide +kernel⟩

/-- **C50, violation**: `Ok()` is true before eCAL was ever initialised. -/
theorem C50_violated_ok_without_initialise : ok start = true ∧ isInitialized start 0 = false := by
  decide

/-- **C50, violation**: asking for two components at once never succeeds. -/
theorem C50_violated_component_sets (st : State) : isInitialized st 0x03 = false := by
  unfold isInitialized
  cases st.ctx with
  | none => rfl
  | some c => simp

/-- Finalising is complete: whatever happened, after the final `Finalize` no context is left. -/
theorem C50_last_finalize_clears (st : State) (h : st.ref ≤ 1) (hc : st.ctx.isSome = true) :
    (finalize st).1.ctx = none := by
  unfold finalize
  cases hx : st.ctx with
  | none => rw [hx] at hc; cases hc
  | some c => simp only; rw [if_neg (by omega)]

example : (1 : Int) ≤ 1 ∧ (some ({} : Ctx)).isSome = true := by decide

/-- **C50** `Finalize` reports 0 exactly if eCAL is still used by others or was initialised, and 1 otherwise. -/
theorem C50_finalize_result (st : State) :
    ((finalize st).2 = 0 ∨ (finalize st).2 = 1) ∧
    ((finalize st).2 = 0 ↔ ∃ c, st.ctx = some c ∧ (1 < st.ref ∨ c.initialized = true)) := by
  unfold finalize
  cases hx : st.ctx with
  | none => simp
  | some c =>
    by_cases h : st.ref - 1 > 0
    · have h' : 1 < st.ref := by omega
      simp [if_pos h, h']
    · have h' : ¬ 1 < st.ref := by omega
      simp only [if_neg h]
      cases hc : c.initialized <;> simp [h', hc]

end Ecal.Life
