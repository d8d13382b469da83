/-!
# Combined topic type strings

core/src/ecal_util.cpp L535-562.  Strings are lists of characters (bytes in C++).
-/

namespace Ecal.Util

/-- `std::string::find(':')` followed by the two `substr` calls (L537, L546-547): the part
before the first colon and the part after it, if there is a colon. -/
def cut : List Char → Option (List Char × List Char)
  | [] => none
  | c :: cs =>
    if c = ':' then some ([], cs)
    else match cut cs with
      | none => none
      | some (a, b) => some (c :: a, b)

/-- `SplitCombinedTopicType` (L535-550): (encoding, type). -/
def split (s : List Char) : List Char × List Char :=
  match cut s with
  | none => ([], s)
  | some (enc, type) => (enc, type)

/-- `CombinedTopicEncodingAndType` (L552-562). -/
def combine (enc type : List Char) : List Char :=
  if enc = [] then type else enc ++ ':' :: type

theorem cut_none_iff (s : List Char) : cut s = none ↔ ':' ∉ s := by
  induction s with
  | nil => simp [cut]
  | cons c cs ih =>
    simp only [cut]
    by_cases h : c = ':'
    · simp [h]
    · rw [if_neg h]
      cases hc : cut cs with
      | none => simp [ih.1 hc, Ne.symm h]
      | some p => simp only [reduceCtorEq, List.mem_cons, false_iff, Decidable.not_not]; right
                  exact Decidable.not_not.1 (fun hn => by rw [ih.2 hn] at hc; cases hc)

theorem cut_some (s a b : List Char) (h : cut s = some (a, b)) : s = a ++ ':' :: b ∧ ':' ∉ a := by
  induction s generalizing a b with
  | nil => cases h
  | cons c cs ih =>
    simp only [cut] at h
    by_cases hc : c = ':'
    · rw [if_pos hc] at h
      cases h
      simp [hc]
    · rw [if_neg hc] at h
      cases hcc : cut cs with
      | none => simp [hcc] at h
      | some p =>
        obtain ⟨x, y⟩ := p
        simp only [hcc, Option.some.injEq, Prod.mk.injEq] at h
        obtain ⟨rfl, rfl⟩ := h
        obtain ⟨h1, h2⟩ := ih x y hcc
        simp [h1, h2, Ne.symm hc]

theorem cut_append (a b : List Char) (h : ':' ∉ a) : cut (a ++ ':' :: b) = some (a, b) := by
  induction a with
  | nil => simp [cut]
  | cons c cs ih =>
    simp only [List.mem_cons, not_or] at h
    simp [cut, Ne.symm h.1, ih h.2]

/-- **C44.** Exactly when the combined string determines its parts: splitting gives back the
encoding and type it was built from iff the encoding contains no colon and, if the encoding
is empty, the type contains no colon either. -/
theorem C44_split_combine_iff (enc type : List Char) :
    split (combine enc type) = (enc, type) ↔ ':' ∉ enc ∧ (enc = [] → ':' ∉ type) := by
  unfold split combine
  by_cases he : enc = []
  · subst he
    simp only [if_true, List.not_mem_nil, not_false_eq_true, true_and, true_implies]
    cases hc : cut type with
    | none => simp [(cut_none_iff type).1 hc]
    | some p =>
      obtain ⟨a, b⟩ := p
      obtain ⟨h1, h2⟩ := cut_some _ _ _ hc
      simp only [Prod.mk.injEq]
      constructor
      · rintro ⟨rfl, rfl⟩
        exfalso
        have := congrArg List.length h1
        simp at this
      · intro h; exfalso; apply h; rw [h1]; simp
  · rw [if_neg he]
    constructor
    · intro h
      refine ⟨fun hm => ?_, fun h => absurd h he⟩
      cases hc : cut (enc ++ ':' :: type) with
      | none =>
        rw [cut_none_iff] at hc
        exact hc (by simp)
      | some p =>
        obtain ⟨a, b⟩ := p
        rw [hc] at h
        simp only [Prod.mk.injEq] at h
        obtain ⟨rfl, rfl⟩ := h
        exact (cut_some _ _ _ hc).2 hm
    · rintro ⟨h, _⟩
      simp [cut_append enc type h]

/-- **C44.** Combining the two parts of any string gives the string back, unless it starts
with a colon (then the leading colon is lost). -/
theorem C44_combine_split (s : List Char) :
    combine (split s).1 (split s).2 = if s.head? = some ':' then s.tail else s := by
  unfold split combine
  cases hc : cut s with
  | none =>
    have := (cut_none_iff s).1 hc
    cases s with
    | nil => simp
    | cons c cs => simp at this ⊢; exact Ne.symm this.1
  | some p =>
    obtain ⟨a, b⟩ := p
    obtain ⟨h1, h2⟩ := cut_some _ _ _ hc
    simp only
    cases a with
    | nil => simp [h1]
    | cons c cs =>
      simp only [List.mem_cons, not_or] at h2
      simp [h1, Ne.symm h2.1]

/-- **C44 (violated in general).** A type containing a colon with an empty encoding is split
into something else. -/
theorem C44_violated_by_colon_in_type :
    ∃ enc type, split (combine enc type) ≠ (enc, type) ∧ ':' ∉ enc :=
  ⟨[], ['a', ':', 'b'], by decide, by decide⟩

example : split (combine "proto".toList "pb.People.Person".toList)
    = ("proto".toList, "pb.People.Person".toList) := by decide
example : ':' ∉ "proto".toList ∧ ("proto".toList = [] → ':' ∉ "a::b".toList) := by decide

end Ecal.Util
