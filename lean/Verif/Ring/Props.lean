import Verif.Ring.Lemmas

/-!
# C03: the shared event ring keeps exactly the newest events
-/

namespace Ecal.Ring

variable {α : Type}

/-! ### Specification: a bounded list, oldest event first -/

/-- Keep the newest `cap` elements. -/
def newest (cap : Nat) (l : List α) : List α := l.drop (l.length - cap)

theorem newest_push (cap : Nat) (l : List α) (v : α) (hcap : 0 < cap) :
    newest cap (newest cap l ++ [v]) = newest cap (l ++ [v]) := by
  simp only [newest]
  by_cases hl : l.length ≤ cap
  · rw [show l.length - cap = 0 by omega]; simp
  · rw [← List.drop_append_of_le_length (by omega), List.drop_drop]
    congr 1; simp; omega

/-- Abstract state: capacity and the events not yet popped. -/
def specStep (s : Nat × List α) : Op α → Nat × List α
  | .push v  => (s.1, newest s.1 (s.2 ++ [v]))
  | .pop     => (s.1, s.2.tail)
  | .reset n => (n, [])

def specRun (s : Nat × List α) (h : List (Op α)) : Nat × List α := h.foldl specStep s

/-- No call resets the ring to capacity 0 (the code asserts this). -/
def ValidResets (h : List (Op α)) : Prop := ∀ n, Op.reset n ∈ h → 0 < n

/-! ### Properties -/

theorem spec_of_inv {r : Ring α} (hi : r.Inv) (h : List (Op α)) (hv : ValidResets h) :
    ∃ r', r.run h = some r' ∧ r'.Inv ∧
      specRun (r.maxSize, r.contents) h = (r'.maxSize, r'.contents) := by
  induction h generalizing r with
  | nil => exact ⟨r, rfl, hi, rfl⟩
  | cons op h ih =>
    have hv' : ValidResets h := fun n hn => hv n (by simp [hn])
    cases op with
    | push v =>
      obtain ⟨r1, h1, h2, h3, h4⟩ := hi.push v
      obtain ⟨r', h5, h6, h7⟩ := ih h2 hv'
      refine ⟨r', by simp [Ring.run, Ring.step, h1, h5], h6, ?_⟩
      rw [← h7]
      have : specStep (r.maxSize, r.contents) (.push v) = (r1.maxSize, r1.contents) := by
        simp only [specStep, newest, h3, h4]
        have hl := r.contents_length
        have := hi.size
        congr 1
        split
        · rw [show (r.contents ++ [v]).length - r.maxSize = 0 by simp [hl]; omega]; rfl
        · have e : (r.contents ++ [v]).length - r.maxSize = 1 := by simp [hl]; omega
          have hne : r.contents ≠ [] := by
            intro h0; rw [h0] at hl; have := hi.pos; simp at hl; omega
          rw [e]
          cases hc : r.contents with
          | nil => exact absurd hc hne
          | cons a l => rfl
      simp [specRun, this]
    | pop =>
      rcases hi.pop with ⟨h0, h1⟩ | ⟨r1, h1, h2, h3, h4⟩
      · obtain ⟨r', h5, h6, h7⟩ := ih hi hv'
        refine ⟨r', by simp [Ring.run, Ring.step, h1, h5], h6, ?_⟩
        rw [← h7]
        have : r.contents = [] := by
          apply List.eq_nil_of_length_eq_zero; rw [r.contents_length, h0]
        simp [specRun, specStep, this]
      · obtain ⟨r', h5, h6, h7⟩ := ih h2 hv'
        refine ⟨r', by simp [Ring.run, Ring.step, h1, h5], h6, ?_⟩
        rw [← h7]
        simp [specRun, specStep, h3, h4]
    | reset n =>
      obtain ⟨r1, h1, h2, h3, h4⟩ := Ring.Inv.reset r n (hv n (by simp))
      obtain ⟨r', h5, h6, h7⟩ := ih h2 hv'
      refine ⟨r', by simp [Ring.run, Ring.step, h1, h5], h6, ?_⟩
      rw [← h7]
      simp [specRun, specStep, h3, h4]

/-- C03: starting from memory with arbitrary content that is reset to a capacity `cap > 0`,
after any sequence of push, pop and reset the loop over the ring ends and visits exactly the
events of the bounded-list specification, newest first; there is no access outside the
storage on the way, and the reported size is their number. -/
theorem C03_ring_holds_newest (r0 : Ring α) (cap : Nat) (hcap : 0 < cap) (h : List (Op α))
    (hv : ValidResets h) :
    ∃ r, r0.run (.reset cap :: h) = some r ∧
      r.iterate = some (specRun (cap, []) h).2.reverse ∧
      r.size = (specRun (cap, []) h).2.length := by
  obtain ⟨r1, h1, h2, h3, h4⟩ := Ring.Inv.reset r0 cap hcap
  obtain ⟨r', h5, h6, h7⟩ := spec_of_inv h2 h hv
  refine ⟨r', by simp [Ring.run, Ring.step, h1, h5], ?_, ?_⟩
  · rw [h6.iterate, ← h4, ← h3, h7]
  · rw [← h4, ← h3, h7, r'.contents_length]

/-- C03: with pushes only, the ring holds exactly the last `min n cap` pushed events. -/
theorem C03_pushes_keep_last (r0 : Ring α) (cap : Nat) (hcap : 0 < cap) (vs : List α) :
    ∃ r, r0.run (.reset cap :: vs.map .push) = some r ∧
      r.iterate = some (newest cap vs).reverse := by
  obtain ⟨r, h1, h2, _⟩ := C03_ring_holds_newest r0 cap hcap (vs.map .push)
    (by intro n hn; simp at hn)
  refine ⟨r, h1, ?_⟩
  rw [h2]
  have gen : ∀ (vs l : List α), specRun (cap, newest cap l) (vs.map .push)
      = (cap, newest cap (l ++ vs)) := by
    intro vs
    induction vs with
    | nil => intro l; simp [specRun]
    | cons v vs ih =>
      intro l
      have e : specStep (cap, newest cap l) (.push v) = (cap, newest cap (l ++ [v])) := by
        simp only [specStep]
        rw [newest_push cap l v hcap]
      have := ih (l ++ [v])
      simp only [specRun, List.map_cons, List.foldl_cons, e] at this ⊢
      rw [this]; simp
  have := gen vs []
  simp only [newest, List.drop_nil, List.nil_append] at this ⊢
  rw [this]

/-- C03: pop on an empty ring is an error (and, by `Ring.run`, changes nothing); pop on a
reachable non-empty ring is not. -/
theorem C03_pop_error_iff_empty (r0 : Ring α) (cap : Nat) (hcap : 0 < cap) (h : List (Op α))
    (hv : ValidResets h) :
    ∃ r, r0.run (.reset cap :: h) = some r ∧
      (r.pop = .outOfRange ↔ (specRun (cap, []) h).2 = []) := by
  obtain ⟨r1, h1, h2, h3, h4⟩ := Ring.Inv.reset r0 cap hcap
  obtain ⟨r', h5, h6, h7⟩ := spec_of_inv h2 h hv
  refine ⟨r', by simp [Ring.run, Ring.step, h1, h5], ?_⟩
  rw [h3, h4] at h7
  rw [h7]
  have hl := r'.contents_length
  constructor
  · intro hp
    apply List.eq_nil_of_length_eq_zero
    rw [hl]
    rcases h6.pop with ⟨h0, _⟩ | ⟨r2, hr2, _⟩
    · exact h0
    · rw [hp] at hr2; cases hr2
  · intro hc
    simp only at hc
    rw [hc] at hl
    simp [Ring.pop, ← hl]

/-- Non-vacuity: capacity 2, three pushes and a pop over a storage full of garbage. -/
example : ∃ r, ({ maxSize := 7, front := 5, back := 3, size := 9, cells := fun i => i } : Ring Nat).run
      [.reset 2, .push 10, .push 11, .push 12, .pop] = some r ∧ r.iterate = some [12] :=
  ⟨_, rfl, rfl⟩
example : ValidResets [Op.push 10, .pop, .reset 3, .push (12 : Nat)] := by
  intro n hn; simp at hn; omega

/-- **C03 (`Front` and `Back`).**  On a ring that holds events, the oldest and the newest of them are returned; on an empty
ring the result is undefined. -/
theorem C03_front_back (r0 : Ring α) (cap : Nat) (hcap : 0 < cap) (h : List (Op α)) (hv : ValidResets h) :
    ∃ r, r0.run (.reset cap :: h) = some r ∧
      (∀ v, (specRun (cap, []) h).2.head? = some v → r.frontVal = .ok v) ∧
      (∀ v, (specRun (cap, []) h).2.getLast? = some v → r.backVal = .ok v) ∧
      ((specRun (cap, []) h).2 = [] → r.frontVal = .ub ∧ r.backVal = .ub) := by
  obtain ⟨r1, h1, h2, h3, h4⟩ := Ring.Inv.reset r0 cap hcap
  obtain ⟨r', h5, h6, h7⟩ := spec_of_inv h2 h hv
  have e : (specRun (cap, []) h).2 = r'.contents := by rw [← h4, ← h3, h7]
  rw [e]
  refine ⟨r', by simp [Ring.run, Ring.step, h1, h5], ?_, ?_, ?_⟩
  · intro v hv
    by_cases h0 : r'.size = 0
    · rw [List.eq_nil_of_length_eq_zero (r'.contents_length.trans h0)] at hv; cases hv
    · have : r'.contents[0]? = some v := by rw [← List.head?_eq_getElem?]; exact hv
      have hf := h6.front
      simp only [Ring.contents, List.getElem?_map, List.getElem?_range (Nat.pos_of_ne_zero h0), Option.map_some,
        Nat.add_zero, Nat.mod_eq_of_lt hf, Option.some.injEq] at this
      simp [Ring.frontVal, h0, this]
  · intro v hv
    by_cases h0 : r'.size = 0
    · rw [List.eq_nil_of_length_eq_zero (r'.contents_length.trans h0)] at hv; cases hv
    · rw [List.getLast?_eq_getElem?, r'.contents_length] at hv
      have hb := h6.back
      rw [if_neg h0] at hb
      simp only [Ring.contents, List.getElem?_map, List.getElem?_range (show r'.size - 1 < r'.size by omega),
        Option.map_some, Option.some.injEq] at hv
      simp [Ring.backVal, h0, hb, hv]
  · intro hn
    have h0 : r'.size = 0 := by rw [← r'.contents_length, hn]; rfl
    simp [Ring.frontVal, Ring.backVal, h0]

example : (specRun (2, []) [.push 7, .push 8, .push 9]).2.head? = some 8 ∧
    (specRun (2, []) [.push 7, .push 8, .push 9]).2.getLast? = some 9 := by decide

end Ecal.Ring
