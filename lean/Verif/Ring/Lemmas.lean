import Verif.Ring.Model

namespace Ecal.Ring

variable {α : Type}

/-- The events held, oldest first. -/
def Ring.contents (r : Ring α) : List α :=
  (List.range r.size).map (fun i => r.cells ((r.front + i) % r.maxSize))

/-- Representation invariant. -/
structure Ring.Inv (r : Ring α) : Prop where
  pos   : 0 < r.maxSize
  size  : r.size ≤ r.maxSize
  front : r.front < r.maxSize
  back  : r.back = if r.size = 0 then r.front else (r.front + (r.size - 1)) % r.maxSize

theorem Ring.Inv.reset (r : Ring α) (n : Nat) (h : 0 < n) :
    ∃ r', r.reset n = .ok r' ∧ r'.Inv ∧ r'.contents = [] ∧ r'.maxSize = n := by
  refine ⟨{ r with maxSize := n, front := 0, back := 0, size := 0 }, ?_, ?_, ?_, rfl⟩
  · simp [Ring.reset, Nat.ne_of_gt h]
  · constructor <;> simp [h]
  · simp [Ring.contents]

theorem wrap {f n i : Nat} (hf : f < n) (hi : i ≤ n) :
    (f + i) % n = if f + i < n then f + i else f + i - n := by
  split
  · rw [Nat.mod_eq_of_lt]; assumption
  · rw [Nat.mod_eq_sub_mod (by omega), Nat.mod_eq_of_lt (by omega)]

theorem Ring.Inv.push {r : Ring α} (h : r.Inv) (v : α) :
    ∃ r', r.push v = .ok r' ∧ r'.Inv ∧ r'.maxSize = r.maxSize ∧
      r'.contents = if r.size < r.maxSize then r.contents ++ [v] else r.contents.tail ++ [v] := by
  obtain ⟨hpos, hsz, hfr, hbk⟩ := h
  have hback' : (if r.size ≠ 0 then (r.back + 1) % r.maxSize else r.back)
      = (r.front + r.size) % r.maxSize := by
    by_cases h0 : r.size = 0
    · simp [h0] at hbk ⊢; rw [hbk, Nat.mod_eq_of_lt hfr]
    · simp only [ne_eq, h0, not_false_eq_true, if_true]
      simp only [h0, if_false] at hbk
      rw [hbk, wrap hfr (by omega), wrap hfr hsz]
      by_cases hw : r.front + (r.size - 1) < r.maxSize
      · simp only [hw, if_true]
        by_cases hw2 : r.front + r.size < r.maxSize
        · simp only [hw2, if_true]; rw [Nat.mod_eq_of_lt (by omega)]; omega
        · simp only [hw2, if_false]
          rw [show r.front + (r.size - 1) + 1 = r.maxSize by omega, Nat.mod_self]; omega
      · simp only [hw, if_false]
        rw [if_neg (by omega), Nat.mod_eq_of_lt (by omega)]; omega
  have hlt : (r.front + r.size) % r.maxSize < r.maxSize := Nat.mod_lt _ hpos
  unfold Ring.push
  rw [if_neg (by omega)]
  simp only [hback']
  rw [if_neg (by omega)]
  by_cases hfull : r.size ≠ r.maxSize
  · have hlt' : r.size < r.maxSize := by omega
    rw [if_pos hfull]
    refine ⟨_, rfl, ?_, rfl, ?_⟩
    · constructor
      · exact hpos
      · simp [Ring.write]; omega
      · simpa [Ring.write] using hfr
      · simp [Ring.write]
    · rw [if_pos hlt']
      simp only [Ring.contents, Ring.write, List.range_succ, List.map_append, List.map_cons,
        List.map_nil, if_true]
      congr 1
      apply List.map_congr_left
      intro i hi
      have hi := List.mem_range.1 hi
      rw [if_neg]
      rw [wrap hfr (by omega), wrap hfr (by omega)]
      split <;> split <;> omega
  · have hsm : r.size = r.maxSize := by omega
    rw [if_neg hfull]
    refine ⟨_, rfl, ?_, rfl, ?_⟩
    · constructor
      · exact hpos
      · simpa [Ring.write] using hsz
      · simpa [Ring.write] using Nat.mod_lt _ hpos
      · simp only [Ring.write]
        rw [if_neg (by omega), hsm]
        rw [wrap hfr (by omega : r.maxSize ≤ r.maxSize), if_neg (by omega)]
        rw [wrap hfr (by omega : 1 ≤ r.maxSize)]
        split
        · rw [Nat.mod_eq_sub_mod (by omega), Nat.mod_eq_of_lt (by omega)]; omega
        · rw [Nat.mod_eq_of_lt (by omega)]; omega
    · rw [if_neg (by omega)]
      apply List.ext_getElem
      · simp [Ring.contents, Ring.write]; omega
      · intro i h1 h2
        have hi : i < r.maxSize := by simpa [Ring.contents, Ring.write, hsm] using h1
        have e1 : ((r.front + 1) % r.maxSize + i) % r.maxSize = (r.front + (i + 1)) % r.maxSize := by
          rw [Nat.mod_add_mod]; congr 1; omega
        have e2 : (r.front + r.size) % r.maxSize = r.front := by
          rw [hsm, Nat.add_mod_right, Nat.mod_eq_of_lt hfr]
        simp only [Ring.contents, Ring.write, List.getElem_map, List.getElem_range, e1, e2]
        by_cases hl : i = r.maxSize - 1
        · have e3 : (r.front + (i + 1)) % r.maxSize = r.front := by
            rw [hl, show r.maxSize - 1 + 1 = r.maxSize by omega, Nat.add_mod_right,
              Nat.mod_eq_of_lt hfr]
          rw [if_pos e3, List.getElem_append_right (by simp; omega)]
          simp
        · rw [if_neg]
          · rw [List.getElem_append_left (by simp; omega)]
            simp [List.getElem_tail]
          · rw [wrap hfr (by omega)]; split <;> omega

theorem Ring.Inv.pop {r : Ring α} (h : r.Inv) :
    (r.size = 0 ∧ r.pop = .outOfRange) ∨
    ∃ r', r.pop = .ok r' ∧ r'.Inv ∧ r'.maxSize = r.maxSize ∧ r'.contents = r.contents.tail := by
  obtain ⟨hpos, hsz, hfr, hbk⟩ := h
  by_cases h0 : r.size = 0
  · exact Or.inl ⟨h0, by simp [Ring.pop, h0]⟩
  · right
    unfold Ring.pop
    rw [if_neg h0]
    simp only [h0, if_false] at hbk
    by_cases h1 : r.size - 1 = 0
    · simp only [h1, ne_eq, not_true_eq_false, if_false]
      refine ⟨_, rfl, ?_, rfl, ?_⟩
      · constructor
        · exact hpos
        · simp
        · exact hfr
        · simp [hbk, h1, Nat.mod_eq_of_lt hfr]
      · have : r.size = 1 := by omega
        simp [Ring.contents, this, List.range_succ]
    · simp only [ne_eq, h1, not_false_eq_true, if_true]
      rw [if_neg (by omega)]
      refine ⟨_, rfl, ?_, rfl, ?_⟩
      · constructor
        · exact hpos
        · simp; omega
        · simpa using Nat.mod_lt _ hpos
        · simp only [h1, if_false]
          rw [hbk, Nat.mod_add_mod]; congr 1; omega
      · apply List.ext_getElem
        · simp [Ring.contents]
        · intro i h2 h3
          simp only [Ring.contents, List.getElem_map, List.getElem_range, List.getElem_tail]
          congr 1
          rw [Nat.mod_add_mod]; congr 1; omega

theorem Ring.contents_length (r : Ring α) : r.contents.length = r.size := by
  simp [Ring.contents]

theorem Ring.iterFrom_spec {r : Ring α} (hpos : 0 < r.maxSize) (hfr : r.front < r.maxSize)
    (k fuel : Nat) (hk : k < r.maxSize) (hf : k < fuel) :
    r.iterFrom fuel ((r.front + k) % r.maxSize) =
      some ((List.range (k + 1)).map (fun i => r.cells ((r.front + i) % r.maxSize))).reverse := by
  induction k generalizing fuel with
  | zero =>
    obtain ⟨fuel, rfl⟩ : ∃ f, fuel = f + 1 := ⟨fuel - 1, by omega⟩
    simp [Ring.iterFrom, Nat.mod_eq_of_lt hfr]
  | succ k ih =>
    obtain ⟨fuel, rfl⟩ : ∃ f, fuel = f + 1 := ⟨fuel - 1, by omega⟩
    have hne : (r.front + (k + 1)) % r.maxSize ≠ r.front := by
      rw [wrap hfr (by omega)]; split <;> omega
    have hprev : ((r.front + (k + 1)) % r.maxSize + r.maxSize - 1) % r.maxSize
        = (r.front + k) % r.maxSize := by
      rw [wrap hfr (by omega), wrap hfr (by omega)]
      by_cases ha : r.front + (k + 1) < r.maxSize
      · rw [if_pos ha, if_pos (by omega), Nat.mod_eq_sub_mod (by omega),
          Nat.mod_eq_of_lt (by omega)]; omega
      · rw [if_neg ha]
        by_cases hb : r.front + k < r.maxSize
        · rw [if_pos hb, Nat.mod_eq_of_lt (by omega)]; omega
        · rw [if_neg hb, Nat.mod_eq_sub_mod (by omega), Nat.mod_eq_of_lt (by omega)]; omega
    rw [Ring.iterFrom, if_neg hne, hprev, ih fuel (by omega) (by omega)]
    rw [List.range_succ (n := k + 1)]
    simp

theorem Ring.Inv.iterate {r : Ring α} (h : r.Inv) : r.iterate = some r.contents.reverse := by
  obtain ⟨hpos, hsz, hfr, hbk⟩ := h
  unfold Ring.iterate
  by_cases h0 : r.size = 0
  · simp [h0, Ring.contents]
  · rw [if_neg h0]
    simp only [h0, if_false] at hbk
    rw [hbk, Ring.iterFrom_spec hpos hfr (r.size - 1) r.maxSize (by omega) (by omega)]
    rw [show r.size - 1 + 1 = r.size by omega]; rfl

end Ecal.Ring
