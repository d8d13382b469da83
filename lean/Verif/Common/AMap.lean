/-!
# Association maps

`AMap K V` is the model of `std::map` / `std::unordered_map` used in all areas: a list of
key/value pairs.  Simplification: the iteration order of the C++ container (sorted by key)
is not modelled; every statement that iterates a map is about membership or counts, or says
explicitly that it holds for the iteration order chosen here.
-/

namespace Ecal

abbrev AMap (K V : Type) := List (K × V)

namespace AMap

variable {K V : Type} [DecidableEq K]

/-- `std::map::find`. -/
def find : AMap K V → K → Option V
  | [], _ => none
  | (k, v) :: m, x => if k = x then some v else find m x

/-- `m[k] = v` (insert or overwrite). -/
def set : AMap K V → K → V → AMap K V
  | [], x, w => [(x, w)]
  | (k, v) :: m, x, w => if k = x then (k, w) :: m else (k, v) :: set m x w

/-- `std::map::erase(key)`. -/
def erase : AMap K V → K → AMap K V
  | [], _ => []
  | (k, v) :: m, x => if k = x then erase m x else (k, v) :: erase m x

/-- The keys in iteration order. -/
def keys (m : AMap K V) : List K := m.map Prod.fst

omit [DecidableEq K] in
@[simp] theorem keys_nil : keys ([] : AMap K V) = [] := rfl
omit [DecidableEq K] in
@[simp] theorem keys_cons (p : K × V) (m : AMap K V) : keys (p :: m) = p.1 :: keys m := rfl

@[simp] theorem find_nil (x : K) : find ([] : AMap K V) x = none := rfl

theorem find_cons (k : K) (v : V) (m : AMap K V) (x : K) :
    find ((k, v) :: m) x = if k = x then some v else find m x := rfl

theorem find_set (m : AMap K V) (k : K) (w : V) (x : K) :
    find (set m k w) x = if k = x then some w else find m x := by
  induction m with
  | nil => simp [set, find]
  | cons p m ih =>
    obtain ⟨a, b⟩ := p
    simp only [set]
    by_cases h : a = k
    · subst h; simp only [if_true, find]; split <;> rfl
    · simp only [h, if_false, find, ih]
      by_cases hx : a = x
      · subst hx; simp [Ne.symm h]
      · simp [hx]

@[simp] theorem find_set_self (m : AMap K V) (k : K) (w : V) : find (set m k w) k = some w := by
  simp [find_set]

theorem find_set_ne (m : AMap K V) (k : K) (w : V) (x : K) (h : k ≠ x) :
    find (set m k w) x = find m x := by simp [find_set, h]

theorem find_erase (m : AMap K V) (k x : K) :
    find (erase m k) x = if k = x then none else find m x := by
  induction m with
  | nil => simp [erase, find]
  | cons p m ih =>
    obtain ⟨a, b⟩ := p
    simp only [erase]
    by_cases h : a = k
    · subst h; simp only [if_true, ih, find]; by_cases hx : a = x <;> simp [hx]
    · simp only [h, if_false, find, ih]
      by_cases hx : a = x
      · subst hx; simp [Ne.symm h]
      · simp [hx]

@[simp] theorem find_erase_self (m : AMap K V) (k : K) : find (erase m k) k = none := by
  simp [find_erase]

theorem find_erase_ne (m : AMap K V) (k x : K) (h : k ≠ x) :
    find (erase m k) x = find m x := by simp [find_erase, h]

theorem find_none_iff (m : AMap K V) (x : K) : find m x = none ↔ x ∉ keys m := by
  induction m with
  | nil => simp
  | cons p m ih =>
    obtain ⟨a, b⟩ := p
    simp only [find, keys_cons, List.mem_cons]
    by_cases h : a = x
    · simp [h]
    · simp [h, ih, Ne.symm h]

theorem mem_of_find {m : AMap K V} {x : K} {v : V} (h : find m x = some v) : (x, v) ∈ m := by
  induction m with
  | nil => simp at h
  | cons p m ih =>
    obtain ⟨a, b⟩ := p
    simp only [find] at h
    by_cases hx : a = x
    · simp [hx] at h; subst h; subst hx; simp
    · simp [hx] at h; exact List.mem_cons_of_mem _ (ih h)

theorem find_of_mem {m : AMap K V} (hn : (keys m).Nodup) {x : K} {v : V} (h : (x, v) ∈ m) :
    find m x = some v := by
  induction m with
  | nil => simp at h
  | cons p m ih =>
    obtain ⟨a, b⟩ := p
    simp only [keys_cons, List.nodup_cons] at hn
    rcases List.mem_cons.1 h with h | h
    · cases h; simp [find]
    · have : a ≠ x := by
        intro e; subst e
        exact hn.1 (List.mem_map.2 ⟨(a, v), h, rfl⟩)
      simp [find, this, ih hn.2 h]

theorem keys_set (m : AMap K V) (k : K) (w : V) :
    keys (set m k w) = if k ∈ keys m then keys m else keys m ++ [k] := by
  induction m with
  | nil => simp [set]
  | cons p m ih =>
    obtain ⟨a, b⟩ := p
    simp only [set]
    by_cases h : a = k
    · simp [h]
    · simp only [h, if_false, keys_cons, ih, List.mem_cons, Ne.symm h, false_or]
      split <;> simp

theorem mem_keys_set (m : AMap K V) (k : K) (w : V) (x : K) :
    x ∈ keys (set m k w) ↔ x = k ∨ x ∈ keys m := by
  rw [keys_set]; split
  · constructor
    · exact Or.inr
    · rintro (h | h)
      · subst h; assumption
      · exact h
  · simp [or_comm]

theorem nodup_set {m : AMap K V} (h : (keys m).Nodup) (k : K) (w : V) :
    (keys (set m k w)).Nodup := by
  rw [keys_set]; split
  · exact h
  · rw [List.nodup_append]; simp_all
    intro a ha hak; subst hak; contradiction

theorem keys_erase (m : AMap K V) (k : K) :
    keys (erase m k) = (keys m).filter (fun x => decide (x ≠ k)) := by
  induction m with
  | nil => simp [erase]
  | cons p m ih =>
    obtain ⟨a, b⟩ := p
    simp only [erase]
    by_cases h : a = k <;> simp [h, ih]

theorem mem_keys_erase (m : AMap K V) (k x : K) :
    x ∈ keys (erase m k) ↔ x ∈ keys m ∧ x ≠ k := by
  rw [keys_erase]; simp

theorem nodup_erase {m : AMap K V} (h : (keys m).Nodup) (k : K) :
    (keys (erase m k)).Nodup := by
  rw [keys_erase]; exact h.filter _

theorem erase_of_not_mem {m : AMap K V} {k : K} (h : k ∉ keys m) : erase m k = m := by
  induction m with
  | nil => rfl
  | cons p m ih =>
    obtain ⟨a, b⟩ := p
    simp only [keys_cons, List.mem_cons, not_or] at h
    simp [erase, Ne.symm h.1, ih h.2]

theorem length_set (m : AMap K V) (k : K) (w : V) :
    (set m k w).length = if k ∈ keys m then m.length else m.length + 1 := by
  have := congrArg List.length (keys_set m k w)
  simp only [keys, List.length_map] at this
  rw [this]; simp only [keys]; by_cases h : k ∈ List.map Prod.fst m <;> simp [h]

theorem find_isSome_iff (m : AMap K V) (x : K) : (find m x).isSome ↔ x ∈ keys m := by
  have := find_none_iff m x
  cases h : find m x with
  | none => simp [this.1 h]
  | some v =>
    simp only [Option.isSome_some, true_iff]
    by_cases hx : x ∈ keys m
    · exact hx
    · rw [this.2 hx] at h; cases h

theorem mem_keys_of_find {m : AMap K V} {x : K} {v : V} (h : find m x = some v) : x ∈ keys m := by
  rw [← find_isSome_iff, h]; rfl

end AMap
end Ecal
