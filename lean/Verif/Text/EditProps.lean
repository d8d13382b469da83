import Verif.Text.Edit

/-! # Properties of replacing, trimming, centring, escaping and comparing (C72) -/

namespace Ecal.Text

/-! ### `Replace` -/

/-- `t` is `s` with every occurrence of `pat`, from left to right and without overlap, replaced. -/
inductive Replaced (pat to : Str) : Str → Str → Prop where
  | last (s : Str) (h : ∀ i, ¬ pat <+: s.drop i) : Replaced pat to s s
  | next (x r t : Str) (h : ∀ i, i < x.length → ¬ pat <+: (x ++ pat ++ r).drop i)
      (hr : Replaced pat to r t) : Replaced pat to (x ++ pat ++ r) (x ++ to ++ t)

theorem go_skip (pat to : Str) (k : Nat) (s : Str) : replaceGo pat to k s = replaceGo pat to 0 (s.drop k) := by
  induction s generalizing k with
  | nil => cases k <;> simp [replaceGo]
  | cons c r ih =>
    cases k with
    | zero => rfl
    | succ k => simp only [replaceGo, List.drop_succ_cons]; exact ih k

theorem isPrefixOf_iff (p s : Str) : p.isPrefixOf s = true ↔ p <+: s := List.isPrefixOf_iff_prefix

theorem go_prefix (pat to r : Str) (hp : pat ≠ []) :
    replaceGo pat to 0 (pat ++ r) = to ++ replaceGo pat to 0 r := by
  obtain ⟨c, p, rfl⟩ := List.exists_cons_of_ne_nil hp
  have h : (c :: p).isPrefixOf (c :: (p ++ r)) = true := by
    rw [isPrefixOf_iff]; exact List.prefix_append (c :: p) r
  simp only [List.cons_append, replaceGo, h, if_true]
  rw [go_skip]
  simp

theorem go_free (pat to x r : Str) (h : ∀ i, i < x.length → ¬ pat <+: (x ++ r).drop i) :
    replaceGo pat to 0 (x ++ r) = x ++ replaceGo pat to 0 r := by
  induction x with
  | nil => rfl
  | cons c x ih =>
    have h0 : ¬ pat.isPrefixOf (c :: (x ++ r)) = true := by
      rw [isPrefixOf_iff]; simpa using h 0 (by simp)
    simp only [List.cons_append, replaceGo, if_neg h0]
    rw [ih (fun i hi => by simpa using h (i + 1) (by simpa using hi))]

/-- There is a first occurrence, or none. -/
theorem first_occurrence (pat s : Str) :
    (∀ i, ¬ pat <+: s.drop i) ∨
      ∃ x r, s = x ++ pat ++ r ∧ ∀ i, i < x.length → ¬ pat <+: s.drop i := by
  induction s with
  | nil =>
    by_cases h : pat = []
    · right; exact ⟨[], [], by simp [h], by simp⟩
    · left; intro i hp; simp at hp; exact h hp
  | cons c s ih =>
    by_cases h0 : pat <+: c :: s
    · right
      obtain ⟨r, hr⟩ := h0
      exact ⟨[], r, by simp [hr], by simp⟩
    · rcases ih with h | ⟨x, r, h1, h2⟩
      · left
        intro i
        cases i with
        | zero => simpa using h0
        | succ i => simpa using h i
      · right
        refine ⟨c :: x, r, by simp [h1], ?_⟩
        intro i hi
        cases i with
        | zero => simpa using h0
        | succ i => simpa using h2 i (by simpa using hi)

theorem go_replaced (pat to : Str) (hp : pat ≠ []) (n : Nat) (s : Str) (hn : s.length ≤ n) :
    Replaced pat to s (replaceGo pat to 0 s) := by
  induction n generalizing s with
  | zero =>
    have : s = [] := List.eq_nil_of_length_eq_zero (by omega)
    subst this
    exact .last [] (fun i h => by simp at h; exact hp h)
  | succ n ih =>
    rcases first_occurrence pat s with h | ⟨x, r, h1, h2⟩
    · have e : replaceGo pat to 0 s = s := by
        have := go_free pat to s [] (fun i _ => by simpa using h i)
        simpa [replaceGo] using this
      rw [e]; exact .last s h
    · have hpl : 0 < pat.length := List.length_pos_iff.2 hp
      have hr : r.length ≤ n := by
        have := congrArg List.length h1
        simp at this; omega
      rw [h1] at h2 ⊢
      rw [List.append_assoc, go_free pat to x (pat ++ r) (by simpa using h2), go_prefix pat to r hp,
        ← List.append_assoc, ← List.append_assoc]
      exact .next x r _ h2 (ih r hr)

/-- C72: all occurrences behind the start position are replaced, from left to right, everything else is
unchanged. -/
theorem C72_replace (str pat to : Str) (start : Nat) (hp : pat ≠ []) (hs : start ≤ str.length) :
    ∃ t, replace str pat to start = .value (str.take start ++ t) ∧
      Replaced pat to (str.drop start) t := by
  refine ⟨replaceGo pat to 0 (str.drop start), ?_, go_replaced pat to hp _ _ (Nat.le_refl _)⟩
  unfold replace
  rw [if_neg (by omega), if_neg hp]

/-- The specification determines the result. -/
theorem C72_replaced_unique (pat to s t t' : Str) (hp : pat ≠ []) (h : Replaced pat to s t)
    (h' : Replaced pat to s t') : t = t' := by
  have key : ∀ s t, Replaced pat to s t → t = replaceGo pat to 0 s := by
    intro s t h
    induction h with
    | last s h =>
      have := go_free pat to s [] (fun i _ => by simpa using h i)
      simpa [replaceGo] using this.symm
    | next x r t h _ ih =>
      rw [List.append_assoc x pat r, go_free pat to x (pat ++ r) (by simpa using h), go_prefix pat to r hp,
        ih, List.append_assoc]
  rw [key s t h, key s t' h']

/-- C72: replacing a text by itself changes nothing. -/
theorem C72_replace_self (str pat : Str) (start : Nat) (hp : pat ≠ []) (hs : start ≤ str.length) :
    replace str pat pat start = .value str := by
  obtain ⟨t, h1, h2⟩ := C72_replace str pat pat start hp hs
  have : ∀ s t, Replaced pat pat s t → t = s := by
    intro s t h
    induction h with
    | last s _ => rfl
    | next x r t _ _ ih => rw [ih]
  rw [h1, this _ _ h2, List.take_append_drop]

/-- C72: outside the documented precondition (the pattern is not empty, L32) the call never returns. -/
theorem C72_empty_pattern (str to : Str) : replace str [] to 0 = .diverges := by
  unfold replace; simp

/-- C72: a start position behind the end throws. -/
theorem C72_replace_throws (str pat to : Str) (start : Nat) (h : str.length < start) :
    replace str pat to start = .thrown := by
  unfold replace; rw [if_pos h]

/-! ### `Trim` -/

theorem takeWhile_all (p : UInt8 → Bool) (s : Str) : ∀ c ∈ s.takeWhile p, p c = true := by
  induction s with
  | nil => simp
  | cons c r ih =>
    intro x hx
    by_cases h : p c = true
    · rw [List.takeWhile_cons_of_pos h] at hx
      rcases List.mem_cons.1 hx with rfl | hx
      · exact h
      · exact ih x hx
    · rw [List.takeWhile_cons_of_neg h] at hx; simp at hx

theorem head_dropWhile (p : UInt8 → Bool) (s : Str) (c : UInt8) (h : (s.dropWhile p).head? = some c) :
    p c = false := by
  induction s with
  | nil => simp at h
  | cons x r ih =>
    by_cases hx : p x = true
    · rw [List.dropWhile_cons_of_pos hx] at h; exact ih h
    · rw [List.dropWhile_cons_of_neg hx] at h
      simp only [List.head?_cons, Option.some.injEq] at h
      subst h; simpa using hx

theorem trim_decomp (s : Str) : ∃ a b, s = a ++ trim s ++ b ∧ (∀ c ∈ a, isSpace c = true) ∧
    ∀ c ∈ b, isSpace c = true := by
  refine ⟨s.takeWhile isSpace, ((s.dropWhile isSpace).reverse.takeWhile isSpace).reverse, ?_,
    takeWhile_all _ _, ?_⟩
  · unfold trim
    have h1 := List.takeWhile_append_dropWhile (p := isSpace) (l := s)
    have h2 := List.takeWhile_append_dropWhile (p := isSpace) (l := (s.dropWhile isSpace).reverse)
    have h3 := congrArg List.reverse h2
    simp only [List.reverse_append, List.reverse_reverse] at h3
    rw [List.append_assoc, h3, h1]
  · intro c hc
    exact takeWhile_all _ _ c (List.mem_reverse.1 hc)

/-- C72: trimming removes white space at both ends and nothing else; the result does not begin or end
with white space. -/
theorem C72_trim (s : Str) :
    (∃ a b, s = a ++ trim s ++ b ∧ (∀ c ∈ a, isSpace c = true) ∧ ∀ c ∈ b, isSpace c = true) ∧
      (∀ c, (trim s).head? = some c → isSpace c = false) ∧
      ∀ c, (trim s).getLast? = some c → isSpace c = false := by
  refine ⟨trim_decomp s, fun c hc => ?_, fun c hc => ?_⟩
  · unfold trim at hc
    rw [List.head?_reverse] at hc
    have hd := head_dropWhile isSpace s
    -- the last element of a suffix of the reversed text is its last element, the head of the text
    have hsuf : (s.dropWhile isSpace).reverse.dropWhile isSpace <:+ (s.dropWhile isSpace).reverse :=
      List.dropWhile_suffix _
    obtain ⟨pre, hpre⟩ := hsuf
    have hne : (s.dropWhile isSpace).reverse.dropWhile isSpace ≠ [] := by
      intro h; rw [h] at hc; simp at hc
    have : (s.dropWhile isSpace).reverse.getLast? = some c := by
      rw [← hpre, List.getLast?_append, hc]; rfl
    rw [List.getLast?_reverse] at this
    exact hd c this
  · unfold trim at hc
    rw [List.getLast?_reverse] at hc
    exact head_dropWhile isSpace _ c hc

/-- C72: trimming twice is trimming once. -/
theorem C72_trim_idem (s : Str) : trim (trim s) = trim s := by
  obtain ⟨_, h2, h3⟩ := C72_trim s
  have fix : ∀ t : Str, (∀ c, t.head? = some c → isSpace c = false) → t.dropWhile isSpace = t := by
    intro t h
    cases t with
    | nil => rfl
    | cons c r =>
      rw [List.dropWhile_cons_of_neg]
      rw [h c rfl]; simp
  show ((List.dropWhile isSpace (trim s)).reverse.dropWhile isSpace).reverse = trim s
  rw [fix (trim s) h2, fix (trim s).reverse (by simpa [List.head?_reverse] using h3), List.reverse_reverse]

/-! ### `CenterString` -/

/-- C72: a centred text has the requested length, the text in the middle and padding on both sides that
differs by at most one; a text that is too long stays unchanged. -/
theorem C72_center (str : Str) (pad : UInt8) (max : Nat) :
    (str.length < max → ∃ l r, center str pad max = (List.replicate l pad ++ str ++ List.replicate r pad, true) ∧
      l + str.length + r = max ∧ l ≤ r ∧ r ≤ l + 1) ∧
    (max ≤ str.length → center str pad max = (str, false)) := by
  constructor
  · intro h
    refine ⟨(max - str.length) / 2, (max - str.length) - (max - str.length) / 2, ?_, by omega, by omega, by omega⟩
    unfold center
    rw [if_neg (by omega)]
  · intro h
    unfold center
    rw [if_pos h]

/-! ### `htmlEscape` -/

/-- Reading of the five entities. -/
def unescape : Str → Str
  | [] => []
  | 38 :: 97 :: 109 :: 112 :: 59 :: r => 38 :: unescape r
  | 38 :: 113 :: 117 :: 111 :: 116 :: 59 :: r => 34 :: unescape r
  | 38 :: 97 :: 112 :: 111 :: 115 :: 59 :: r => 39 :: unescape r
  | 38 :: 108 :: 116 :: 59 :: r => 60 :: unescape r
  | 38 :: 103 :: 116 :: 59 :: r => 62 :: unescape r
  | c :: r => c :: unescape r

theorem unescape_char (c : UInt8) (r : Str) : unescape (htmlChar c ++ r) = c :: unescape r := by
  unfold htmlChar
  by_cases h1 : c = 38
  · subst h1; simp [unescape]
  · rw [if_neg h1]
    by_cases h2 : c = 34
    · subst h2; simp [unescape]
    · rw [if_neg h2]
      by_cases h3 : c = 39
      · subst h3; simp [unescape]
      · rw [if_neg h3]
        by_cases h4 : c = 60
        · subst h4; simp [unescape]
        · rw [if_neg h4]
          by_cases h5 : c = 62
          · subst h5; simp [unescape]
          · rw [if_neg h5]
            simp only [List.cons_append, List.nil_append]
            rw [unescape]
            all_goals (intros; contradiction)

/-- C72: reading the entities of an escaped text gives the text back … -/
theorem C72_html_roundtrip (s : Str) : unescape (htmlEscape s) = s := by
  induction s with
  | nil => rfl
  | cons c r ih =>
    have e : htmlEscape (c :: r) = htmlChar c ++ htmlEscape r := by simp [htmlEscape]
    rw [e, unescape_char, ih]

/-- … and an escaped text contains no quotes and angle brackets. -/
theorem C72_html_safe (s : Str) : ∀ c ∈ htmlEscape s, c ≠ 34 ∧ c ≠ 39 ∧ c ≠ 60 ∧ c ≠ 62 := by
  intro c hc
  simp only [htmlEscape, List.mem_flatMap] at hc
  obtain ⟨x, _, hx⟩ := hc
  have : ∀ x : UInt8, ∀ c ∈ htmlChar x, c ≠ 34 ∧ c ≠ 39 ∧ c ≠ 60 ∧ c ≠ 62 := by
    intro x
    unfold htmlChar
    repeat' split
    all_goals intro c hc
    all_goals simp only [List.mem_cons, List.not_mem_nil, or_false] at hc
    · rcases hc with rfl | rfl | rfl | rfl | rfl <;> decide
    · rcases hc with rfl | rfl | rfl | rfl | rfl | rfl <;> decide
    · rcases hc with rfl | rfl | rfl | rfl | rfl | rfl <;> decide
    · rcases hc with rfl | rfl | rfl | rfl <;> decide
    · rcases hc with rfl | rfl | rfl | rfl <;> decide
    · subst hc
      exact ⟨by assumption, by assumption, by assumption, by assumption⟩
  exact this x c hx

/-! ### Case-insensitive comparison -/

/-- Lower case letters become upper case, other characters stay. -/
def upper (c : UInt8) : UInt8 := if 97 ≤ c ∧ c ≤ 122 then c - 32 else c

theorem equalGo_ascii (s t : Str) (hl : s.length = t.length) (hs : ∀ c ∈ s, c < 128) (ht : ∀ c ∈ t, c < 128) :
    equalGo s t = some (decide (s.map upper = t.map upper)) := by
  induction s generalizing t with
  | nil =>
    cases t with
    | nil => rfl
    | cons b r => simp at hl
  | cons a r ih =>
    cases t with
    | nil => simp at hl
    | cons b r' =>
      have ha := hs a List.mem_cons_self
      have hb := ht b List.mem_cons_self
      have e : icharEq a b = some (upper a == upper b) := by
        simp only [icharEq, toUpper, if_pos (Or.inl ha), if_pos (Or.inl hb)]; rfl
      simp only [equalGo, e]
      have ihr := ih r' (by simpa using hl) (fun c hc => hs c (List.mem_cons_of_mem _ hc))
        (fun c hc => ht c (List.mem_cons_of_mem _ hc))
      by_cases h : upper a = upper b
      · simp [h, ihr]
      · have hf : (upper a == upper b) = false := by simpa using h
        simp [hf, h]

/-- C72 (partial: ASCII texts): texts compare equal exactly if they are equal up to the case of letters. -/
theorem C72_icompare_partial (s t : Str) (hs : ∀ c ∈ s, c < 128) (ht : ∀ c ∈ t, c < 128) :
    icompare s t = some (decide (s.map upper = t.map upper)) := by
  unfold icompare
  by_cases h : s.length = t.length
  · rw [if_pos h, equalGo_ascii s t h hs ht]
  · rw [if_neg h]
    congr 1
    symm
    rw [decide_eq_false_iff_not]
    intro he
    have := congrArg List.length he
    simp at this; exact h this

/-- C72 is violated for other characters: the behaviour is undefined, e.g. for the UTF-8 text "ä". -/
theorem C72_violated_non_ascii : icompare [195, 164] [195, 164] = none := by decide

/-- C72: the first entry that is equal up to case is found. -/
theorem C72_find (v : Str) (l : List Str) (hv : ∀ c ∈ v, c < 128) (hl : ∀ s ∈ l, ∀ c ∈ s, c < 128) :
    findCI v l = some (l.findIdx (fun s => decide (s.map upper = v.map upper))) := by
  induction l with
  | nil => rfl
  | cons s r ih =>
    simp only [findCI, C72_icompare_partial s v (hl s List.mem_cons_self) hv, List.findIdx_cons]
    by_cases h : s.map upper = v.map upper
    · simp [h]
    · simp only [h, decide_false]
      rw [ih (fun x hx => hl x (List.mem_cons_of_mem _ hx))]
      simp

/-- The hypotheses of the C72 theorems are met. -/
example : replace [97, 98, 97, 98, 97] [97, 98] [99] 0 = .value [99, 99, 97] := by decide +kernel
example : replace [97, 97, 97] [97, 97] [98] 0 = .value [98, 97] := by decide +kernel
example : trim [32, 9, 97, 32, 98, 10] = [97, 32, 98] := by decide +kernel
example : center [97] 45 4 = ([45, 97, 45, 45], true) := by decide +kernel
example : findCI [65] [[98], [97]] = some 1 := by decide +kernel

end Ecal.Text
