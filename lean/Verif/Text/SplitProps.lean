import Verif.Text.Split

/-! # Properties of splitting and joining (C71) -/

namespace Ecal.Text

/-! ### `Split` -/

theorem splitFrom_parts (delim : Str) (s cur : Str) (hc : ∀ c ∈ cur, c ∉ delim) :
    ∀ p ∈ splitFrom delim cur s, p ≠ [] ∧ ∀ c ∈ p, c ∉ delim := by
  induction s generalizing cur with
  | nil =>
    intro p hp
    simp only [splitFrom] at hp
    by_cases h : cur = []
    · simp [h] at hp
    · simp only [if_neg h, List.mem_singleton] at hp; subst hp; exact ⟨h, hc⟩
  | cons c r ih =>
    intro p hp
    simp only [splitFrom] at hp
    by_cases hd : delim.contains c = true
    · rw [if_pos hd] at hp
      by_cases h : cur = []
      · rw [if_pos h] at hp; exact ih [] (by simp) p hp
      · rw [if_neg h] at hp
        rcases List.mem_cons.1 hp with rfl | hp
        · exact ⟨h, hc⟩
        · exact ih [] (by simp) p hp
    · rw [if_neg hd] at hp
      refine ih (cur ++ [c]) (fun x hx => ?_) p hp
      rcases List.mem_append.1 hx with hx | hx
      · exact hc x hx
      · simp only [List.mem_singleton] at hx; subst hx; simpa using hd

/-- C71: parts are never empty and contain no delimiter. -/
theorem C71_parts_clean (delim s : Str) : ∀ p ∈ split delim s, p ≠ [] ∧ ∀ c ∈ p, c ∉ delim :=
  splitFrom_parts delim s [] (by simp)

theorem splitFrom_flatten (delim : Str) (s cur : Str) :
    (splitFrom delim cur s).flatten = cur ++ s.filter (fun c => !delim.contains c) := by
  induction s generalizing cur with
  | nil =>
    simp only [splitFrom]
    by_cases h : cur = [] <;> simp [h]
  | cons c r ih =>
    simp only [splitFrom]
    by_cases hd : delim.contains c = true
    · rw [if_pos hd, List.filter_cons_of_neg (by simpa using hd)]
      by_cases h : cur = []
      · rw [if_pos h, ih]; simp [h]
      · rw [if_neg h, List.flatten_cons, ih]; simp
    · rw [if_neg hd, ih, List.filter_cons_of_pos (by simpa using hd)]; simp

/-- C71: nothing but delimiters is lost, nothing is added and the order is kept. -/
theorem C71_nothing_lost (delim s : Str) :
    (split delim s).flatten = s.filter (fun c => !delim.contains c) := by
  simpa [split] using splitFrom_flatten delim s []

/-- A text made of parts, each behind a gap, and a trailing gap. -/
def spread : List (Str × Str) → Str → Str
  | [], tail => tail
  | (g, p) :: r, tail => g ++ p ++ spread r tail

theorem splitFrom_gap (delim g rest : Str) (hg : ∀ c ∈ g, c ∈ delim) :
    splitFrom delim [] (g ++ rest) = splitFrom delim [] rest := by
  induction g with
  | nil => rfl
  | cons c r ih =>
    have hc : delim.contains c = true := by simpa using hg c List.mem_cons_self
    simp only [List.cons_append, splitFrom, hc, if_true]
    exact ih (fun x hx => hg x (List.mem_cons_of_mem _ hx))

theorem splitFrom_gap_cur (delim g rest cur : Str) (hg : ∀ c ∈ g, c ∈ delim) (hne : g ≠ [])
    (hc : cur ≠ []) : splitFrom delim cur (g ++ rest) = cur :: splitFrom delim [] rest := by
  cases g with
  | nil => exact absurd rfl hne
  | cons c r =>
    have h : delim.contains c = true := by simpa using hg c List.mem_cons_self
    simp only [List.cons_append, splitFrom, h, if_true, if_neg hc]
    rw [splitFrom_gap delim r rest (fun x hx => hg x (List.mem_cons_of_mem _ hx))]

theorem splitFrom_word (delim p rest cur : Str) (hp : ∀ c ∈ p, c ∉ delim) :
    splitFrom delim cur (p ++ rest) = splitFrom delim (cur ++ p) rest := by
  induction p generalizing cur with
  | nil => simp
  | cons c r ih =>
    have h : ¬ delim.contains c = true := by simpa using hp c List.mem_cons_self
    simp only [List.cons_append, splitFrom, if_neg h]
    rw [ih _ (fun x hx => hp x (List.mem_cons_of_mem _ hx))]
    simp

/-- C71: exactly the maximal stretches without delimiters are returned, in order: whatever gaps of
delimiters (at least one character between two parts) surround the parts. -/
theorem C71_split_exact (delim : Str) (l : List (Str × Str)) (tail : Str)
    (hp : ∀ x ∈ l, x.2 ≠ [] ∧ ∀ c ∈ x.2, c ∉ delim) (hg : ∀ x ∈ l, ∀ c ∈ x.1, c ∈ delim)
    (hsep : ∀ x ∈ l.tail, x.1 ≠ []) (ht : ∀ c ∈ tail, c ∈ delim) :
    split delim (spread l tail) = l.map (·.2) := by
  unfold split
  have main : ∀ (l : List (Str × Str)) (cur : Str), (∀ x ∈ l, x.2 ≠ [] ∧ ∀ c ∈ x.2, c ∉ delim) →
      (∀ x ∈ l, ∀ c ∈ x.1, c ∈ delim) → (∀ x ∈ l, x.1 ≠ []) → cur ≠ [] →
      splitFrom delim cur (spread l tail) = cur :: l.map (·.2) := by
    intro l
    induction l with
    | nil =>
      intro cur _ _ _ hc
      simp only [spread, List.map_nil]
      by_cases hte : tail = []
      · subst hte; simp [splitFrom, hc]
      · have := splitFrom_gap_cur delim tail [] cur ht hte hc
        simpa [splitFrom] using this
    | cons x r ih =>
      intro cur h1 h2 h3 hc
      obtain ⟨g, p⟩ := x
      simp only [spread, List.map_cons]
      rw [List.append_assoc, splitFrom_gap_cur delim g _ cur (h2 _ List.mem_cons_self) (h3 _ List.mem_cons_self) hc,
        splitFrom_word delim p _ [] (h1 _ List.mem_cons_self).2]
      congr 1
      exact ih p (fun y hy => h1 y (List.mem_cons_of_mem _ hy))
        (fun y hy => h2 y (List.mem_cons_of_mem _ hy)) (fun y hy => h3 y (List.mem_cons_of_mem _ hy))
        (h1 _ List.mem_cons_self).1
  cases l with
  | nil =>
    simp only [spread, List.map_nil]
    have := splitFrom_gap delim tail [] ht
    simpa [splitFrom] using this
  | cons x r =>
    obtain ⟨g, p⟩ := x
    simp only [spread, List.map_cons]
    rw [List.append_assoc, splitFrom_gap delim g _ (hg _ List.mem_cons_self),
      splitFrom_word delim p _ [] (hp _ List.mem_cons_self).2]
    exact main r p (fun y hy => hp y (List.mem_cons_of_mem _ hy))
      (fun y hy => hg y (List.mem_cons_of_mem _ hy)) hsep (hp _ List.mem_cons_self).1

theorem join_spread (d a : Str) (r : List Str) :
    join d (a :: r) = spread (([], a) :: r.map (fun x => (d, x))) [] := by
  induction r generalizing a with
  | nil => simp [join, spread]
  | cons b r ih =>
    simp only [join, ih b, spread, List.map_cons]
    simp

/-- C71: splitting undoes joining, for parts that are not empty and contain no delimiter. -/
theorem C71_split_join (delim d : Str) (parts : List Str) (hd : d ≠ []) (hdd : ∀ c ∈ d, c ∈ delim)
    (hp : ∀ p ∈ parts, p ≠ [] ∧ ∀ c ∈ p, c ∉ delim) : split delim (join d parts) = parts := by
  cases parts with
  | nil => rfl
  | cons a r =>
    rw [join_spread, C71_split_exact]
    · simp [Function.comp_def]
    · intro x hx
      rcases List.mem_cons.1 hx with rfl | hx
      · exact hp a List.mem_cons_self
      · simp only [List.mem_map] at hx
        obtain ⟨b, hb, rfl⟩ := hx
        exact hp b (List.mem_cons_of_mem _ hb)
    · intro x hx
      rcases List.mem_cons.1 hx with rfl | hx
      · simp
      · simp only [List.mem_map] at hx
        obtain ⟨b, hb, rfl⟩ := hx
        exact hdd
    · intro x hx
      simp only [List.tail_cons, List.mem_map] at hx
      obtain ⟨b, hb, rfl⟩ := hx
      exact hd
    · simp

/-- Empty parts do not survive. -/
theorem C71_violated_empty_part : split [44] (join [44] [[97], [], [98]]) = [[97], [98]] := by decide +kernel

/-! ### `SplitQuotedString` -/

/-- The usual quoting of an argument: escape quotes and escape characters, add quotes. -/
def escArg (e : UInt8) : Str → Str
  | [] => []
  | c :: r => if c = 34 ∨ c = e then e :: c :: escArg e r else c :: escArg e r

def quoteArg (e : UInt8) (a : Str) : Str := 34 :: (escArg e a ++ [34])

theorem sqLoop_plain (o : QOpt) (q : Q) (c : UInt8) (r : Str) (h : ∀ d, isEscape o q c d = false) :
    sqLoop o q (c :: r) = sqLoop o (plain o q c) r := by
  cases r with
  | nil => rfl
  | cons d r => simp [sqLoop, h d]

theorem sqLoop_escape (o : QOpt) (q : Q) (c d : UInt8) (r : Str) (h : isEscape o q c d = true) :
    sqLoop o q (c :: d :: r) = sqLoop o (escape q d) r := by
  simp [sqLoop, h]

theorem isEscape_ne (o : QOpt) (q : Q) (c d : UInt8) (h : c ≠ o.escape) : isEscape o q c d = false := by
  simp [isEscape, h]
theorem isEscape_quote (o : QOpt) (q : Q) (d : UInt8) : isEscape o q quote d = false := by
  simp [isEscape]

theorem sq_body (o : QOpt) (he : o.escape ≠ 34) (a rest cur : Str) (parts : List Str) :
    sqLoop o ⟨.quoted, cur, parts⟩ (escArg o.escape a ++ quote :: rest) =
      sqLoop o ⟨.string, if o.removeQuotes then cur ++ a else cur ++ a ++ [34], parts⟩ rest := by
  induction a generalizing cur with
  | nil =>
    simp only [escArg, List.nil_append]
    rw [sqLoop_plain _ _ _ _ (fun d => isEscape_quote o _ d)]
    simp only [plain, List.append_nil]
    simp [quote]
  | cons c r ih =>
    simp only [escArg]
    by_cases hc : c = 34 ∨ c = o.escape
    · rw [if_pos hc, List.cons_append, List.cons_append, sqLoop_escape]
      · simp only [escape, if_true]
        rw [ih]; simp
      · have h1 : (o.escape != quote) = true := by simpa [quote] using he
        have h2 : (c == quote || c == o.escape) = true := by
          rcases hc with rfl | rfl <;> simp [quote]
        simp [isEscape, h1, h2]
    · rw [if_neg hc, List.cons_append, sqLoop_plain _ _ _ _ (fun d => isEscape_ne o _ c d (fun h => hc (Or.inr h)))]
      have h1 : (c == quote) = false := by
        simp only [quote, beq_eq_false_iff_ne]; exact fun h => hc (Or.inl h)
      simp only [plain, h1, Bool.false_eq_true, if_false]
      rw [ih]; simp

theorem sq_arg (o : QOpt) (he : o.escape ≠ 34) (hr : o.removeQuotes = true) (a rest : Str)
    (parts : List Str) :
    sqLoop o ⟨.outside, [], parts⟩ (quoteArg o.escape a ++ rest) = sqLoop o ⟨.string, a, parts⟩ rest := by
  have e : quoteArg o.escape a ++ rest = quote :: (escArg o.escape a ++ quote :: rest) := by
    simp [quoteArg, quote]
  rw [e, sqLoop_plain _ _ _ _ (fun d => isEscape_quote o _ d)]
  have e2 : plain o ⟨.outside, [], parts⟩ quote = ⟨.quoted, [], parts⟩ := by
    simp [plain, hr]
    decide
  rw [e2, sq_body o he, hr]
  simp

/-- A blank ends an argument. -/
theorem sq_blank (o : QOpt) (he : o.escape ≠ 32) (cur rest : Str) (parts : List Str) :
    sqLoop o ⟨.string, cur, parts⟩ (32 :: rest) = sqLoop o ⟨.outside, [], parts ++ [cur]⟩ rest := by
  rw [sqLoop_plain _ _ _ _ (fun d => isEscape_ne o _ _ d (Ne.symm he))]
  have : isSpace 32 = true := by decide
  simp [plain, this]

theorem sq_args (o : QOpt) (he : o.escape ≠ 34) (he2 : o.escape ≠ 32) (hr : o.removeQuotes = true)
    (a : Str) (r : List Str) (parts : List Str) :
    ∃ q, sqLoop o ⟨.outside, [], parts⟩ (join [32] ((a :: r).map (quoteArg o.escape))) = q ∧
      q.parts ++ [q.cur] = parts ++ (a :: r) ∧ some q.cur = (a :: r).getLast? := by
  induction r generalizing a parts with
  | nil =>
    refine ⟨_, rfl, ?_⟩
    have := sq_arg o he hr a [] parts
    simp only [List.append_nil] at this
    simp only [List.map_cons, List.map_nil, join, this]
    simp [sqLoop]
  | cons b r ih =>
    obtain ⟨q, h1, h2, h3⟩ := ih b (parts ++ [a])
    refine ⟨q, ?_, by simpa using h2, by rw [h3]; simp⟩
    have e : join [32] ((a :: b :: r).map (quoteArg o.escape)) =
        quoteArg o.escape a ++ (32 :: join [32] ((b :: r).map (quoteArg o.escape))) := by
      simp [join]
    rw [e, sq_arg o he hr, sq_blank o he2, h1]

/-- C71 (partial: the last argument is not empty): arguments quoted in the usual way and separated by
blanks are recovered exactly, whatever characters they contain. -/
theorem C71_quoted_partial (o : QOpt) (args : List Str) (he : o.escape ≠ 34) (he2 : o.escape ≠ 32)
    (hr : o.removeQuotes = true) (hk : o.keepEmpty = false) (hl : args.getLast? ≠ some []) :
    splitQuoted o (join [32] (args.map (quoteArg o.escape))) = args := by
  cases args with
  | nil => simp [splitQuoted, join, sqLoop, hk]
  | cons a r =>
    obtain ⟨q, h1, h2, h3⟩ := sq_args o he he2 hr a r []
    have hc : q.cur ≠ [] := by
      intro h; rw [h] at h3; exact hl h3.symm
    have hc' : q.cur.isEmpty = false := by simpa using hc
    unfold splitQuoted
    rw [h1]
    simp only [hk, hc', Bool.not_false, Bool.true_or, if_true]
    simpa using h2

/-- C71 (partial: at least one argument): with the option to keep empty strings they all survive. -/
theorem C71_quoted_keep_partial (o : QOpt) (args : List Str) (he : o.escape ≠ 34) (he2 : o.escape ≠ 32)
    (hr : o.removeQuotes = true) (hk : o.keepEmpty = true) (hl : args ≠ []) :
    splitQuoted o (join [32] (args.map (quoteArg o.escape))) = args := by
  cases args with
  | nil => exact absurd rfl hl
  | cons a r =>
    obtain ⟨q, h1, h2, h3⟩ := sq_args o he he2 hr a r []
    unfold splitQuoted
    rw [h1]
    simp only [hk, Bool.or_true, if_true]
    simpa using h2

/-- C71 is violated for a quoted empty argument at the end: it is lost, although one in the middle is
kept. -/
theorem C71_violated_last_empty :
    splitQuoted {} (join [32] ([[97], []].map (quoteArg 92))) = [[97]] ∧
      splitQuoted {} (join [32] ([[], [97]].map (quoteArg 92))) = [[], [97]] := by decide +kernel

/-- … and with empty strings kept, no arguments at all become one empty argument, and a blank at the end
adds another. -/
theorem C71_violated_keep_empty :
    splitQuoted { keepEmpty := true } [] = [[]] ∧ splitQuoted { keepEmpty := true } [97, 32] = [[97], []] := by
  decide +kernel

/-- A word without blanks, quotes and escape characters. -/
def PlainWord (o : QOpt) (w : Str) : Prop := w ≠ [] ∧ ∀ c ∈ w, isSpace c = false ∧ c ≠ 34 ∧ c ≠ o.escape

theorem sq_word (o : QOpt) (w rest cur : Str) (parts : List Str)
    (h : ∀ c ∈ w, isSpace c = false ∧ c ≠ 34 ∧ c ≠ o.escape) :
    sqLoop o ⟨.string, cur, parts⟩ (w ++ rest) = sqLoop o ⟨.string, cur ++ w, parts⟩ rest := by
  induction w generalizing cur with
  | nil => simp
  | cons c r ih =>
    obtain ⟨h1, h2, h3⟩ := h c List.mem_cons_self
    rw [List.cons_append, sqLoop_plain _ _ _ _ (fun d => isEscape_ne o _ c d h3)]
    have h4 : (c == quote) = false := by simpa [quote] using h2
    simp only [plain, h1, h4, Bool.false_eq_true, if_false]
    rw [ih _ (fun x hx => h x (List.mem_cons_of_mem _ hx))]
    simp

theorem sq_plain (o : QOpt) (w rest : Str) (parts : List Str) (h : PlainWord o w) :
    sqLoop o ⟨.outside, [], parts⟩ (w ++ rest) = sqLoop o ⟨.string, w, parts⟩ rest := by
  obtain ⟨hne, h⟩ := h
  cases w with
  | nil => exact absurd rfl hne
  | cons c r =>
    obtain ⟨h1, h2, h3⟩ := h c List.mem_cons_self
    rw [List.cons_append, sqLoop_plain _ _ _ _ (fun d => isEscape_ne o _ c d h3)]
    have h4 : (c == quote) = false := by simpa [quote] using h2
    simp only [plain, h1, h4, Bool.false_eq_true, if_false]
    rw [sq_word o r rest _ parts (fun x hx => h x (List.mem_cons_of_mem _ hx))]
    simp

/-- C71: words without special characters are split at blanks. -/
theorem C71_words (o : QOpt) (ws : List Str) (he2 : o.escape ≠ 32) (hk : o.keepEmpty = false)
    (h : ∀ w ∈ ws, PlainWord o w) : splitQuoted o (join [32] ws) = ws := by
  have main : ∀ (r : List Str) (a : Str) (parts : List Str), (∀ w ∈ a :: r, PlainWord o w) →
      ∃ q, sqLoop o ⟨.outside, [], parts⟩ (join [32] (a :: r)) = q ∧
        q.parts ++ [q.cur] = parts ++ (a :: r) ∧ q.cur ≠ [] := by
    intro r
    induction r with
    | nil =>
      intro a parts hw
      refine ⟨_, rfl, ?_⟩
      have := sq_plain o a [] parts (hw a List.mem_cons_self)
      simp only [List.append_nil] at this
      simp only [join, this, sqLoop]
      exact ⟨trivial, (hw a List.mem_cons_self).1⟩
    | cons b r ih =>
      intro a parts hw
      obtain ⟨q, h1, h2, h3⟩ := ih b (parts ++ [a]) (fun w hw' => hw w (List.mem_cons_of_mem _ hw'))
      refine ⟨q, ?_, by simpa using h2, h3⟩
      have e : join [32] (a :: b :: r) = a ++ (32 :: join [32] (b :: r)) := by simp [join]
      rw [e, sq_plain o a _ parts (hw a List.mem_cons_self), sq_blank o he2, h1]
  cases ws with
  | nil => simp [splitQuoted, join, sqLoop, hk]
  | cons a r =>
    obtain ⟨q, h1, h2, h3⟩ := main r a [] h
    have hc' : q.cur.isEmpty = false := by simpa using h3
    unfold splitQuoted
    rw [h1]
    simp only [hk, hc', Bool.not_false, Bool.true_or, if_true]
    simpa using h2

/-- The hypotheses of the C71 theorems are met. -/
example : split [44, 59] (spread [([44], [97, 98]), ([59, 44], [99])] [44]) = [[97, 98], [99]] := by
  decide +kernel
example : splitQuoted {} (join [32] ([[97, 32, 34], [], [92, 92]].map (quoteArg 92))) =
    [[97, 32, 34], [], [92, 92]] := by decide +kernel
example : PlainWord {} [97, 98] := by
  refine ⟨by simp, ?_⟩
  intro c hc
  simp at hc
  rcases hc with rfl | rfl <;> decide

end Ecal.Text
