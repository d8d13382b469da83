import Verif.Util.Freq

/-! # C52: frequency statistics -/

namespace Ecal.Util.Freq

/-- The ticks of a history, in order. -/
def ticksOf : List Op → List Int
  | [] => []
  | .tick t :: l => t :: ticksOf l
  | .get _ :: l => ticksOf l

/-- `n` ticks in a span of `d` nanoseconds, as a frequency. -/
def IsRate (f : Frq) (n : Nat) (d : Int) : Prop := (d = 0 ∧ f = .max) ∨ (d ≠ 0 ∧ f = .ratio n d)

/-- `f` is the rate of a non-empty stretch of consecutive ticks following a tick `s`. -/
def WindowRate (ticks : List Int) (f : Frq) : Prop :=
  ∃ pre s w post, ticks = pre ++ s :: (w ++ post) ∧ w ≠ [] ∧ IsRate f w.length (w.getLastD s - s)

structure Inv (ticks : List Int) (st : State) : Prop where
  win  : ∀ c, st.cur = some c → ∃ pre w, ticks = pre ++ c.first :: w ∧ c.counted = w.length ∧
    c.last = w.getLastD c.first
  prev : ∀ c, st.cur = some c → c.prev = .zero ∨ WindowRate ticks c.prev

theorem windowRate_append {ticks : List Int} {f : Frq} (h : WindowRate ticks f) (t : Int) :
    WindowRate (ticks ++ [t]) f := by
  obtain ⟨pre, s, w, post, h1, h2, h3⟩ := h
  exact ⟨pre, s, w, post ++ [t], by rw [h1]; simp, h2, h3⟩

theorem inv_tick {ticks : List Int} {st : State} (h : Inv ticks st) (t : Int) :
    Inv (ticks ++ [t]) (addTick st t) := by
  unfold addTick
  constructor
  · intro c hc
    cases hx : st.cur with
    | none =>
      simp only [hx, Option.some.injEq] at hc
      subst hc
      exact ⟨ticks, [], rfl, rfl, rfl⟩
    | some x =>
      simp only [hx, Option.some.injEq] at hc
      subst hc
      obtain ⟨pre, w, h1, h2, h3⟩ := h.win x hx
      refine ⟨pre, w ++ [t], by rw [h1]; simp [Calc.addTick], by simp [Calc.addTick, h2], ?_⟩
      simp [Calc.addTick]
  · intro c hc
    cases hx : st.cur with
    | none =>
      simp only [hx, Option.some.injEq] at hc
      subst hc
      exact Or.inl rfl
    | some x =>
      simp only [hx, Option.some.injEq] at hc
      subst hc
      rcases h.prev x hx with h1 | h1
      · exact Or.inl h1
      · exact Or.inr (windowRate_append h1 t)

/-- What asking the inner calculator gives. -/
theorem calc_get {ticks : List Int} {c : Calc}
    (hw : ∃ pre w, ticks = pre ++ c.first :: w ∧ c.counted = w.length ∧ c.last = w.getLastD c.first)
    (hp : c.prev = .zero ∨ WindowRate ticks c.prev) :
    (∃ pre w, ticks = pre ++ c.get.1.first :: w ∧ c.get.1.counted = w.length ∧
      c.get.1.last = w.getLastD c.get.1.first) ∧
    (c.get.1.prev = .zero ∨ WindowRate ticks c.get.1.prev) ∧
    (c.get.2 = .zero ∨ WindowRate ticks c.get.2) := by
  unfold Calc.get
  by_cases h0 : c.counted = 0
  · rw [if_pos h0]; exact ⟨hw, hp, hp⟩
  · rw [if_neg h0]
    obtain ⟨pre, w, h1, h2, h3⟩ := hw
    have hne : w ≠ [] := by intro e; rw [e] at h2; exact h0 h2
    have hrate : WindowRate ticks (calculate c.first c.last c.counted) := by
      refine ⟨pre, c.first, w, [], by rw [h1]; simp, hne, ?_⟩
      unfold IsRate calculate
      rw [h3, h2]
      by_cases hd : w.getLastD c.first - c.first = 0
      · left; exact ⟨hd, by rw [if_pos hd]⟩
      · right; exact ⟨hd, by rw [if_neg hd]⟩
    refine ⟨?_, Or.inr hrate, Or.inr hrate⟩
    simp only
    refine ⟨pre ++ c.first :: w.dropLast, [], ?_, rfl, rfl⟩
    rw [h1, h3]
    have hl : w.dropLast ++ [w.getLastD c.first] = w := by
      rw [List.getLastD_eq_getLast?, List.getLast?_eq_some_getLast hne, Option.getD_some]
      exact List.dropLast_concat_getLast hne
    rw [List.append_assoc, List.cons_append, hl]

theorem inv_get {ticks : List Int} {st : State} (h : Inv ticks st) (now : Int) :
    Inv ticks (get st now).1 ∧ ((get st now).2 = .zero ∨ WindowRate ticks (get st now).2) := by
  unfold get
  cases hx : st.cur with
  | none => exact ⟨h, Or.inl rfl⟩
  | some c =>
    obtain ⟨h1, h2, h3⟩ := calc_get (h.win c hx) (h.prev c hx)
    have hi : ∀ r l f, Inv ticks { factor := f, cur := some c.get.1, last := l, received := r } := by
      intro r l f
      constructor
      · intro y hy
        simp only [Option.some.injEq] at hy
        subst hy; exact h1
      · intro y hy
        simp only [Option.some.injEq] at hy
        subst hy; exact h2
    simp only
    by_cases hz : c.get.2 = .zero
    · rw [if_pos hz]; exact ⟨hi _ _ _, Or.inl rfl⟩
    · rw [if_neg hz]
      by_cases hr : st.received = true
      · rw [if_pos hr]; exact ⟨hi _ _ _, h3⟩
      · rw [if_neg hr]
        by_cases hn : now > st.last + patience st.factor c.get.2
        · rw [if_pos hn]
          refine ⟨⟨fun y hy => by simp at hy, fun y hy => by simp at hy⟩, Or.inl rfl⟩
        · rw [if_neg hn]; exact ⟨hi _ _ _, h3⟩

theorem inv_run (ops : List Op) : ∀ (ticks : List Int) (st : State), Inv ticks st →
    Inv (ticks ++ ticksOf ops) (run st ops).1 ∧
    ∀ f ∈ (run st ops).2, f = .zero ∨ WindowRate (ticks ++ ticksOf ops) f := by
  induction ops with
  | nil => intro ticks st h; simp [run, ticksOf]; exact h
  | cons a l ih =>
    intro ticks st h
    have h3 : (run st (a :: l)).2 = (step st a).2.toList ++ (run (step st a).1 l).2 := rfl
    have h4 : (run st (a :: l)).1 = (run (step st a).1 l).1 := rfl
    rw [h3, h4]
    cases a with
    | tick t =>
      have := ih (ticks ++ [t]) _ (inv_tick h t)
      have e : ticks ++ [t] ++ ticksOf l = ticks ++ ticksOf (.tick t :: l) := by simp [ticksOf]
      rw [e] at this
      exact this
    | get now =>
      obtain ⟨h1, h2⟩ := inv_get h now
      obtain ⟨h5, h6⟩ := ih ticks _ h1
      refine ⟨h5, ?_⟩
      intro f hf
      rcases List.mem_append.mp hf with hf | hf
      · simp only [step, Option.toList, List.mem_singleton] at hf
        subst hf
        rcases h2 with h2 | ⟨pre, s, w, post, e1, e2, e3⟩
        · exact Or.inl h2
        · exact Or.inr ⟨pre, s, w, post ++ ticksOf l, by
            show ticks ++ ticksOf (.get now :: l) = _
            simp only [ticksOf]; rw [e1]; simp, e2, e3⟩
      · exact h6 f hf

/-- **C52** Whatever the history of ticks and queries, every reported frequency is zero or is exactly the
number of ticks in some stretch of the history divided by the time they span. -/
theorem C52_reported_is_ticks_per_span (factor : Nat) (ops : List Op) :
    ∀ f ∈ (run { factor := factor } ops).2, f = .zero ∨ WindowRate (ticksOf ops) f := by
  have h0 : Inv [] ({ factor := factor } : State) :=
    ⟨fun c hc => by simp at hc, fun c hc => by simp at hc⟩
  have := (inv_run ops [] { factor := factor } h0).2
  simpa using this

theorem addTicks_cur (ts : List Int) : ∀ (st : State) (c : Calc), st.cur = some c →
    (ts.foldl addTick st).cur = some { c with counted := c.counted + ts.length, last := ts.getLastD c.last } ∧
    (ts ≠ [] → (ts.foldl addTick st).received = true) ∧ (ts.foldl addTick st).factor = st.factor := by
  induction ts with
  | nil => intro st c h; exact ⟨h, fun hh => absurd rfl hh, rfl⟩
  | cons t l ih =>
    intro st c h
    have h1 : (addTick st t).cur = some (c.addTick t) := by simp [addTick, h]
    obtain ⟨h2, h3, h4⟩ := ih (addTick st t) _ h1
    refine ⟨?_, ?_, ?_⟩
    · rw [List.foldl_cons, h2]
      have e : (t :: l).getLastD c.last = l.getLastD t := List.getLastD_cons ..
      rw [e]
      simp only [Calc.addTick, List.length_cons]
      have e2 : c.counted + 1 + l.length = c.counted + (l.length + 1) := by omega
      rw [e2]
    · intro _
      rw [List.foldl_cons]
      cases l with
      | nil => rfl
      | cons a l => exact h3 (by simp)
    · rw [List.foldl_cons, h4]; rfl

/-- **C52** The window is the one since the last query: if the calculator's reference point is `b` and `ts`
ticks arrive, the next query reports `ts.length` per (time from `b` to the last of them). -/
theorem C52_window (st : State) (c : Calc) (ts : List Int) (now : Int) (hc : st.cur = some c)
    (h0 : c.counted = 0) (hne : ts ≠ []) :
    IsRate (get (ts.foldl addTick st) now).2 ts.length (ts.getLastD c.last - c.first) := by
  obtain ⟨h1, h2, _⟩ := addTicks_cur ts st c hc
  have hl : ts.length ≠ 0 := fun h => hne (List.length_eq_zero_iff.mp h)
  have h3 : c.counted + ts.length ≠ 0 := by omega
  simp only [get, h1, Calc.get, if_neg h3, h2 hne]
  have hnz : calculate c.first (ts.getLastD c.last) (c.counted + ts.length) ≠ .zero := by
    unfold calculate; split <;> simp
  simp only [if_neg hnz, if_true]
  unfold IsRate calculate
  rw [h0, Nat.zero_add]
  by_cases hd : ts.getLastD c.last - c.first = 0
  · left; exact ⟨hd, by rw [if_pos hd]⟩
  · right; exact ⟨hd, by rw [if_neg hd]⟩

/-- **C52** The first window: `n+1` ticks from `t0` on give `n` periods. -/
theorem C52_first_window (factor : Nat) (t0 : Int) (ts : List Int) (now : Int) (hne : ts ≠ []) :
    IsRate (get (ts.foldl addTick (addTick { factor := factor } t0)) now).2 ts.length (ts.getLastD t0 - t0) :=
  C52_window (addTick { factor := factor } t0) (Calc.mk' t0) ts now rfl rfl hne

example : (get ([10000000, 20000000, 30000000].foldl addTick (addTick { factor := 3 } 0)) 31000000).2 =
    .ratio 3 30000000 := by decide +kernel

/-- **C52** Silence: two queries without a tick in between, the first reporting `n` ticks per `d`
nanoseconds.  The second reports zero exactly if it comes later than the last tick plus the reset factor
times the period (in whole nanoseconds), and repeats the frequency otherwise. -/
theorem C52_drops_to_zero_partial (st : State) (n1 n2 : Int) (n : Nat) (d : Int)
    (h1 : (get st n1).2 = .ratio n d) :
    (get (get st n1).1 n2).2 =
      if n2 > st.last + (d * st.factor).tdiv n then .zero else .ratio n d := by
  unfold get at h1
  cases hx : st.cur with
  | none => rw [hx] at h1; cases h1
  | some c =>
    rw [hx] at h1
    simp only at h1
    have hcg : c.get.1.get = (c.get.1, c.get.2) := by
      unfold Calc.get
      by_cases h0 : c.counted = 0
      · rw [if_pos h0]; simp [h0]
      · rw [if_neg h0]; simp
    have key : ∀ s : State, s.cur = some c.get.1 → s.received = false → s.last = st.last →
        s.factor = st.factor → c.get.2 = .ratio n d →
        (get s n2).2 = if n2 > st.last + (d * st.factor).tdiv n then .zero else .ratio n d := by
      intro s hs1 hs2 hs3 hs4 hf
      simp only [get, hs1, hcg, hs2, hs3, hs4, hf]
      have hnz : Frq.ratio n d ≠ .zero := by simp
      rw [if_neg hnz]
      simp only [Bool.false_eq_true, if_false]
      have hpat : patience st.factor (.ratio n d) = (d * st.factor).tdiv n := rfl
      by_cases hq : n2 > st.last + (d * st.factor).tdiv n
      · rw [if_pos hq, if_pos (by rw [hpat]; exact hq)]
      · rw [if_neg hq, if_neg (by rw [hpat]; exact hq)]
    by_cases hz : c.get.2 = .zero
    · rw [if_pos hz] at h1; cases h1
    · rw [if_neg hz] at h1
      by_cases hr : st.received = true
      · rw [if_pos hr] at h1
        have e : (get st n1).1 = { st with cur := some c.get.1, received := false } := by
          simp only [get, hx]
          rw [if_neg hz, if_pos hr]
        rw [e]
        exact key _ rfl rfl rfl rfl h1
      · rw [if_neg hr] at h1
        by_cases hn : n1 > st.last + patience st.factor c.get.2
        · rw [if_pos hn] at h1; cases h1
        · rw [if_neg hn] at h1
          have e : (get st n1).1 = { st with cur := some c.get.1 } := by
            simp only [get, hx]
            rw [if_neg hz, if_neg hr, if_neg hn]
          rw [e]
          exact key _ rfl (by simpa using hr) rfl rfl h1

example : (get (addTick (addTick { factor := 3 } 0) 10000000) 11000000).2 = .ratio 1 10000000 := by
  decide +kernel

/-- Zero stays zero until two more ticks came. -/
theorem C52_zero_until_two_ticks (st : State) (now t n2 : Int) (h : st.cur = none) :
    (get st now).2 = .zero ∧ (get (addTick (get st now).1 t) n2).2 = .zero := by
  simp [get, h, addTick, Calc.mk', Calc.get]

example : (run { factor := 3 } [.tick 0, .tick 10, .get 11, .get 100]).1.cur = none := by decide +kernel

/-! ### Conversion to milli-hertz -/

/-- **C52** The conversion to a 32 bit number of milli-hertz is defined and exact (rounded down) as long as
the ticks are on average more than 466 ns apart. -/
theorem C52_milliHz_partial (n : Nat) (d : Int) (hd : (466 : Int) * n ≤ d) (hp : 0 < d) :
    toMilliHz (.ratio n d) = some (((n : Int) * 1000000000000) / d) := by
  have e : ((n : Int) * 1000000000 * 1000).tdiv d = ((n : Int) * 1000000000000) / d := by
    rw [Int.mul_assoc]
    exact Int.tdiv_eq_ediv_of_nonneg (by omega)
  simp only [toMilliHz, e]
  have h1 : (0 : Int) ≤ ((n : Int) * 1000000000000) / d := Int.ediv_nonneg (by omega) (by omega)
  have h2 : ((n : Int) * 1000000000000) / d < 2 ^ 31 := by
    apply Int.ediv_lt_of_lt_mul hp
    omega
  rw [if_pos ⟨by omega, h2⟩]

example : toMilliHz (.ratio 3 30000000) = some 100000 := by decide +kernel

/-! ### Violations -/

/-- **C52, violation**: two ticks with the same time stamp, or only 400 ns apart, between two queries: the
conversion of the frequency is undefined. -/
theorem C52_violated_overflow :
    (run { factor := 3 } [.tick 0, .tick 0, .get 1]).2.map toMilliHz = [none] ∧
    (run { factor := 3 } [.tick 0, .tick 400, .get 1000]).2.map toMilliHz = [none] := by
  decide +kernel

/-- **C52, violation**: the first query after a silence of eleven days still reports 100 Hz. -/
theorem C52_violated_first_query_after_silence :
    (run { factor := 3 } [.tick 0, .tick 10000000, .get 1000000000000000]).2 = [.ratio 1 10000000] := by
  decide +kernel

/-- The full statement about silence fails. -/
theorem C52_violated :
    ¬ ∀ (t0 t1 now : Int), t0 < t1 → now > t1 + 3 * (t1 - t0) →
        (run { factor := 3 } [.tick t0, .tick t1, .get now]).2 = [.zero] := by
  intro h
  have := h 0 10000000 1000000000000000 (by decide) (by decide)
  rw [C52_violated_first_query_after_silence] at this
  simp at this

end Ecal.Util.Freq
