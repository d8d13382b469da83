import Verif.Mon.Filter

/-! # C46: the monitoring topic filter -/

namespace Ecal.Mon.Filter

/-! ### Tokens -/

/-- `t` is a non-empty maximal piece of `str` between delimiters. -/
def Piece (str t : List Char) : Prop :=
  t ≠ [] ∧ (∀ c ∈ t, c ≠ ',' ∧ c ≠ ';') ∧
    ∃ a b, str = a ++ t ++ b ∧ (a = [] ∨ a.getLast? = some ',' ∨ a.getLast? = some ';') ∧
      (b = [] ∨ b.head? = some ',' ∨ b.head? = some ';')

theorem isDelim_iff (c : Char) : isDelim c = true ↔ c = ',' ∨ c = ';' := by
  simp [isDelim]

def FreeOf (t : List Char) : Prop := ∀ c ∈ t, c ≠ ',' ∧ c ≠ ';'

/-- Relational description of scanning with a pending piece. -/
def PieceFrom (cur str t : List Char) : Prop :=
  t ≠ [] ∧ FreeOf t ∧
    ((∃ b, cur ++ str = t ++ b ∧ cur.length ≤ t.length ∧ (b = [] ∨ b.head? = some ',' ∨ b.head? = some ';')) ∨
     (∃ a b, str = a ++ t ++ b ∧ (a.getLast? = some ',' ∨ a.getLast? = some ';') ∧
      (b = [] ∨ b.head? = some ',' ∨ b.head? = some ';')))

theorem freeOf_prefix {t u b r : List Char} {c : Char} (hc : c = ',' ∨ c = ';') (ht : FreeOf t)
    (h : u ++ c :: r = t ++ b) (hl : u.length ≤ t.length) : t = u ∧ b = c :: r := by
  rcases List.append_eq_append_iff.mp h with ⟨x, h1, h2⟩ | ⟨x, h1, h2⟩
  · cases x with
    | nil => simp at h1 h2; exact ⟨h1, h2.symm⟩
    | cons d l =>
      simp only [List.cons_append, List.cons.injEq] at h2
      have := ht d (by rw [h1]; simp)
      rw [← h2.1] at this
      rcases hc with hc | hc
      · exact absurd hc this.1
      · exact absurd hc this.2
  · have : x.length = 0 := by
      have := congrArg List.length h1
      simp at this; omega
    have hx := List.length_eq_zero_iff.mp this
    subst hx
    simp at h1 h2; exact ⟨h1.symm, h2⟩

theorem mem_scan (str : List Char) : ∀ (cur t : List Char), FreeOf cur → (t ∈ scan cur str ↔ PieceFrom cur str t) := by
  induction str with
  | nil =>
    intro cur t hcur
    simp only [scan]
    constructor
    · intro h
      split at h
      · cases h
      · rename_i hne
        simp only [List.mem_singleton] at h
        subst h
        exact ⟨hne, hcur, Or.inl ⟨[], by simp, Nat.le_refl _, Or.inl rfl⟩⟩
    · rintro ⟨hne, hf, ⟨b, h1, h2, h3⟩ | ⟨a, b, h1, h2, h3⟩⟩
      · have hl := congrArg List.length h1
        simp at hl
        have hb : b = [] := List.length_eq_zero_iff.mp (by omega)
        subst hb
        simp at h1
        subst h1
        rw [if_neg hne]; simp
      · have : a = [] := by
          cases a with
          | nil => rfl
          | cons x l => simp at h1
        subst this
        simp at h2
  | cons c r ih =>
    intro cur t hcur
    simp only [scan]
    by_cases hd : isDelim c = true
    · rw [if_pos hd]
      have hc := (isDelim_iff c).mp hd
      have key : (t ∈ scan [] r ∨ (cur ≠ [] ∧ t = cur)) ↔ PieceFrom cur (c :: r) t := by
        rw [ih [] t (by intro x hx; cases hx)]
        constructor
        · rintro (⟨hne, hf, h⟩ | ⟨hne, rfl⟩)
          · refine ⟨hne, hf, Or.inr ?_⟩
            rcases h with ⟨b, h1, h2, h3⟩ | ⟨a, b, h1, h2, h3⟩
            · refine ⟨[c], b, ?_, ?_, h3⟩
              · simp at h1; rw [h1]; rfl
              · rcases hc with rfl | rfl <;> simp
            · refine ⟨c :: a, b, ?_, ?_, h3⟩
              · rw [h1]; rfl
              · cases a with
                | nil => simp at h2
                | cons x l => simpa [List.getLast?_cons_cons] using h2
          · refine ⟨hne, hcur, Or.inl ⟨c :: r, rfl, Nat.le_refl _, ?_⟩⟩
            rcases hc with rfl | rfl <;> simp
        · rintro ⟨hne, hf, ⟨b, h1, h2, h3⟩ | ⟨a, b, h1, h2, h3⟩⟩
          · obtain ⟨h4, _⟩ := freeOf_prefix hc hf h1 h2
            exact Or.inr ⟨by rw [← h4]; exact hne, h4⟩
          · refine Or.inl ⟨hne, hf, ?_⟩
            cases a with
            | nil => simp at h2
            | cons x l =>
              simp only [List.cons_append, List.cons.injEq] at h1
              cases l with
              | nil => exact Or.inl ⟨b, by simpa using h1.2, by simp, h3⟩
              | cons y l' => exact Or.inr ⟨y :: l', b, h1.2, by simpa [List.getLast?_cons_cons] using h2, h3⟩
      by_cases hcur0 : cur = []
      · rw [if_pos hcur0, ← key]
        constructor
        · exact Or.inl
        · rintro (h | h)
          · exact h
          · exact absurd hcur0 h.1
      · rw [if_neg hcur0, List.mem_cons, ← key]
        constructor
        · rintro (h | h)
          · exact Or.inr ⟨hcur0, h⟩
          · exact Or.inl h
        · rintro (h | h)
          · exact Or.inr h
          · exact Or.inl h.2
    · rw [if_neg hd]
      have hnd : c ≠ ',' ∧ c ≠ ';' := by
        constructor <;> (intro h; exact hd ((isDelim_iff c).mpr (by simp [h])))
      have hcur' : FreeOf (cur ++ [c]) := by
        intro x hx
        rcases List.mem_append.mp hx with hx | hx
        · exact hcur x hx
        · simp only [List.mem_singleton] at hx; subst hx; exact hnd
      rw [ih (cur ++ [c]) t hcur']
      constructor
      · rintro ⟨hne, hf, ⟨b, h1, h2, h3⟩ | ⟨a, b, h1, h2, h3⟩⟩
        · refine ⟨hne, hf, Or.inl ⟨b, by simpa using h1, ?_, h3⟩⟩
          simp at h2; omega
        · refine ⟨hne, hf, Or.inr ⟨c :: a, b, by rw [h1]; rfl, ?_, h3⟩⟩
          cases a with
          | nil => simp at h2
          | cons x l => simpa [List.getLast?_cons_cons] using h2
      · rintro ⟨hne, hf, ⟨b, h1, h2, h3⟩ | ⟨a, b, h1, h2, h3⟩⟩
        · refine ⟨hne, hf, Or.inl ⟨b, by simpa using h1, ?_, h3⟩⟩
          rcases Nat.lt_or_ge cur.length t.length with hlt | hge
          · simp; omega
          · have hlen : cur.length = t.length := by omega
            obtain ⟨e1, e2⟩ := List.append_inj h1 hlen
            rw [← e2] at h3
            rcases h3 with h3 | h3 | h3
            · cases h3
            · simp at h3; exact absurd h3 hnd.1
            · simp at h3; exact absurd h3 hnd.2
        · refine ⟨hne, hf, Or.inr ?_⟩
          cases a with
          | nil => simp at h2
          | cons x l =>
            simp only [List.cons_append, List.cons.injEq] at h1
            cases l with
            | nil =>
              simp at h2
              rw [← h1.1] at h2
              rcases h2 with h2 | h2
              · exact absurd h2 hnd.1
              · exact absurd h2 hnd.2
            | cons y l' => exact ⟨y :: l', b, h1.2, by simpa [List.getLast?_cons_cons] using h2, h3⟩

/-- **C46** The tokenizer finds exactly the non-empty pieces between commas and semicolons. -/
theorem C46_tokens (str t : List Char) : t ∈ scan [] str ↔ Piece str t := by
  rw [mem_scan str [] t (by intro x hx; cases hx)]
  constructor
  · rintro ⟨hne, hf, ⟨b, h1, h2, h3⟩ | ⟨a, b, h1, h2, h3⟩⟩
    · exact ⟨hne, hf, [], b, by simpa using h1, Or.inl rfl, h3⟩
    · exact ⟨hne, hf, a, b, h1, Or.inr h2, h3⟩
  · rintro ⟨hne, hf, a, b, h1, h2, h3⟩
    refine ⟨hne, hf, ?_⟩
    rcases h2 with h2 | h2
    · subst h2
      exact Or.inl ⟨b, by simpa using h1, by simp, h3⟩
    · exact Or.inr ⟨a, b, h1, h2, h3⟩

example : scan [] [',', 'a', 'b', ';', ';', 'c'] = [['a', 'b'], ['c']] := by decide +kernel

/-! ### The decision -/

theorem anyMatch_spec (M : List Char → List Char → Option Bool) (topic : List Char) (ps : List (List Char))
    (hw : ∀ p ∈ ps, M p topic ≠ none) :
    ∃ b, anyMatch M topic ps = some b ∧ (b = true ↔ ∃ p ∈ ps, M p topic = some true) := by
  induction ps with
  | nil => exact ⟨false, rfl, by simp⟩
  | cons p ps ih =>
    obtain ⟨b, h1, h2⟩ := ih (fun q hq => hw q (List.mem_cons_of_mem _ hq))
    have hp := hw p (List.mem_cons_self ..)
    cases hm : M p topic with
    | none => exact absurd hm hp
    | some m =>
      cases m with
      | true => exact ⟨true, by simp [anyMatch, hm], by simp [hm]⟩
      | false => exact ⟨b, by simp [anyMatch, hm, h1], by simp [hm, h2]⟩

/-- **C46** Decision for well-formed patterns: shown iff no exclusion pattern matches and, if there are
inclusion patterns, one of them matches. -/
theorem C46_decision (M : List Char → List Char → Option Bool) (s : State) (topic : List Char)
    (hw : ∀ p, p ∈ s.excl ∨ p ∈ s.incl → M p topic ≠ none) :
    ∃ b, shown M s topic = some b ∧
      (b = true ↔ (∀ p ∈ s.excl, M p topic = some false) ∧
        (s.incl = [] ∨ ∃ p ∈ s.incl, M p topic = some true)) := by
  obtain ⟨b1, h1, h2⟩ := anyMatch_spec M topic s.excl (fun p hp => hw p (Or.inl hp))
  obtain ⟨b2, h3, h4⟩ := anyMatch_spec M topic s.incl (fun p hp => hw p (Or.inr hp))
  have hall : b1 = false ↔ ∀ p ∈ s.excl, M p topic = some false := by
    constructor
    · intro hb p hp
      cases hm : M p topic with
      | none => exact absurd hm (hw p (Or.inl hp))
      | some m =>
        cases m with
        | false => rfl
        | true =>
          have := h2.mpr ⟨p, hp, hm⟩
          rw [hb] at this; cases this
    · intro h
      cases hb : b1 with
      | false => rfl
      | true =>
        obtain ⟨p, hp, hm⟩ := h2.mp hb
        rw [h p hp] at hm; cases hm
  cases b1 with
  | true =>
    refine ⟨false, by simp [shown, h1], ?_⟩
    simp only [Bool.false_eq_true, false_iff, not_and]
    intro h
    have := hall.mpr h
    cases this
  | false =>
    by_cases hi : s.incl = []
    · exact ⟨true, by simp [shown, h1, hi], by simp only [true_iff]; exact ⟨hall.mp rfl, Or.inl hi⟩⟩
    · refine ⟨b2, by simp [shown, h1, hi, h3], ?_⟩
      rw [h4]
      constructor
      · intro h; exact ⟨hall.mp rfl, Or.inr h⟩
      · rintro ⟨_, h | h⟩
        · exact absurd h hi
        · exact h

/-! ### Which patterns are active -/

theorem insertCI_mem {s : List (List Char)} {t x : List Char} (h : x ∈ insertCI s t) : x ∈ s ∨ x = t := by
  unfold insertCI at h
  split at h
  · exact Or.inl h
  · rcases List.mem_append.mp h with h | h
    · exact Or.inl h
    · exact Or.inr (by simpa using h)

theorem insertCI_covers {s : List (List Char)} {t x : List Char}
    (h : x = t ∨ ∃ y ∈ s, lower x = lower y) : ∃ y ∈ insertCI s t, lower x = lower y := by
  unfold insertCI
  by_cases hs : s.any (sameCI t) = true
  · rw [if_pos hs]
    rcases h with rfl | h
    · obtain ⟨y, hy, hxy⟩ := List.any_eq_true.mp hs
      exact ⟨y, hy, by simpa [sameCI] using hxy⟩
    · exact h
  · rw [if_neg hs]
    rcases h with rfl | ⟨y, hy, hxy⟩
    · exact ⟨x, by simp, rfl⟩
    · exact ⟨y, by simp [hy], hxy⟩

theorem fold_insert (ts : List (List Char)) : ∀ s : List (List Char),
    (∀ x ∈ ts.foldl insertCI s, x ∈ s ∨ x ∈ ts) ∧
    (∀ x, (x ∈ ts ∨ ∃ y ∈ s, lower x = lower y) → ∃ y ∈ ts.foldl insertCI s, lower x = lower y) := by
  induction ts with
  | nil =>
    intro s
    refine ⟨fun x hx => Or.inl hx, ?_⟩
    rintro x (h | h)
    · cases h
    · exact h
  | cons t ts ih =>
    intro s
    obtain ⟨h1, h2⟩ := ih (insertCI s t)
    constructor
    · intro x hx
      rcases h1 x hx with h | h
      · rcases insertCI_mem h with h | h
        · exact Or.inl h
        · exact Or.inr (by rw [h]; exact List.mem_cons_self ..)
      · exact Or.inr (List.mem_cons_of_mem _ h)
    · intro x hx
      apply h2
      rcases hx with h | h
      · rcases List.mem_cons.mp h with h | h
        · exact Or.inr (insertCI_covers (Or.inl h))
        · exact Or.inl h
      · exact Or.inr (insertCI_covers (Or.inr h))

/-- No switching of the filter in these operations. -/
def NoSwitch (os : List Op) : Prop := ∀ b, Op.setState b ∉ os

/-- The strings in force after some operations. -/
def lastExcl : List Char → List Op → List Char
  | s, [] => s
  | _, .setExcl f :: os => lastExcl f os
  | s, _ :: os => lastExcl s os

def lastIncl : List Char → List Op → List Char
  | s, [] => s
  | _, .setIncl f :: os => lastIncl f os
  | s, _ :: os => lastIncl s os

theorem run_strings (os : List Op) : ∀ s, (run s os).exclS = lastExcl s.exclS os ∧
    (run s os).inclS = lastIncl s.inclS os := by
  induction os with
  | nil => intro s; exact ⟨rfl, rfl⟩
  | cons o os ih =>
    intro s
    have := ih (step s o)
    cases o with
    | setExcl f => exact this
    | setIncl f => exact this
    | setState b => cases b <;> exact this

theorem run_noSwitch (os : List Op) : ∀ s, NoSwitch os → (run s os).excl = s.excl ∧ (run s os).incl = s.incl := by
  induction os with
  | nil => intro s _; exact ⟨rfl, rfl⟩
  | cons o os ih =>
    intro s h
    have := ih (step s o) (fun b hb => h b (List.mem_cons_of_mem _ hb))
    cases o with
    | setExcl f => exact this
    | setIncl f => exact this
    | setState b => exact absurd (List.mem_cons_self ..) (h b)

theorem run_append (a b : List Op) : ∀ s, run s (a ++ b) = run (run s a) b := by
  induction a with
  | nil => intro s; rfl
  | cons o a ih => intro s; exact ih _

/-- Does any piece of the text match? -/
def TextMatches (M : List Char → List Char → Option Bool) (str topic : List Char) : Prop :=
  ∃ p, Piece str p ∧ M p topic = some true

theorem tokenizeInto_nil_match {M : List Char → List Char → Option Bool} {topic : List Char}
    (hci : ∀ p q, lower p = lower q → M p topic = M q topic) (str : List Char) :
    ((∃ p ∈ tokenizeInto [] str, M p topic = some true) ↔ TextMatches M str topic) ∧
    (tokenizeInto [] str = [] ↔ ¬ ∃ p, Piece str p) := by
  obtain ⟨h1, h2⟩ := fold_insert (scan [] str) []
  refine ⟨⟨?_, ?_⟩, ?_, ?_⟩
  · rintro ⟨p, hp, hm⟩
    rcases h1 p hp with h | h
    · cases h
    · exact ⟨p, (C46_tokens str p).mp h, hm⟩
  · rintro ⟨p, hp, hm⟩
    obtain ⟨y, hy, hxy⟩ := h2 p (Or.inl ((C46_tokens str p).mpr hp))
    exact ⟨y, hy, by rw [← hci p y hxy]; exact hm⟩
  · rintro h ⟨p, hp⟩
    obtain ⟨y, hy, _⟩ := h2 p (Or.inl ((C46_tokens str p).mpr hp))
    have : y ∈ tokenizeInto [] str := hy
    rw [h] at this; cases this
  · intro h
    cases ht : tokenizeInto [] str with
    | nil => rfl
    | cons y l =>
      have hy : y ∈ tokenizeInto [] str := by rw [ht]; exact List.mem_cons_self ..
      rcases h1 y hy with h' | h'
      · cases h'
      · exact absurd ⟨y, (C46_tokens str y).mp h'⟩ h

/-- **C46** If the filter is switched off, possibly reconfigured, switched on, and possibly
reconfigured again (not yet effective), a topic is shown exactly as the texts configured at the moment of
switching on say - provided no pattern is malformed and matching does not depend on the case of
the pattern's letters. -/
theorem C46_filter_partial (M : List Char → List Char → Option Bool) (before between after : List Op)
    (s0 : State) (topic : List Char) (hb : NoSwitch between) (ha : NoSwitch after)
    (hci : ∀ p q, lower p = lower q → M p topic = M q topic) (hw : ∀ p, M p topic ≠ none) :
    let os := before ++ [Op.setState false] ++ between
    ∃ b, shown M (run s0 (os ++ [Op.setState true] ++ after)) topic = some b ∧
      (b = true ↔ ¬ TextMatches M (lastExcl s0.exclS os) topic ∧
        ((¬ ∃ p, Piece (lastIncl s0.inclS os) p) ∨ TextMatches M (lastIncl s0.inclS os) topic)) := by
  intro os
  have hoff : (run s0 os).excl = [] ∧ (run s0 os).incl = [] := by
    show (run s0 (before ++ [Op.setState false] ++ between)).excl = [] ∧ _
    rw [run_append, run_append]
    exact run_noSwitch between _ hb
  have hstr := run_strings os s0
  obtain ⟨h1, h2⟩ := run_noSwitch after (run s0 (os ++ [Op.setState true])) ha
  rw [← run_append] at h1 h2
  have h3 : (run s0 (os ++ [Op.setState true])).excl = tokenizeInto [] (lastExcl s0.exclS os) := by
    rw [run_append, ← hstr.1, ← hoff.1]; rfl
  have h4 : (run s0 (os ++ [Op.setState true])).incl = tokenizeInto [] (lastIncl s0.inclS os) := by
    rw [run_append, ← hstr.2, ← hoff.2]; rfl
  rw [h3] at h1
  rw [h4] at h2
  obtain ⟨b, hb1, hb2⟩ := C46_decision M (run s0 (os ++ [Op.setState true] ++ after)) topic (fun p _ => hw p)
  refine ⟨b, hb1, ?_⟩
  rw [hb2, h1, h2]
  obtain ⟨e1, _⟩ := tokenizeInto_nil_match hci (lastExcl s0.exclS os)
  obtain ⟨i1, i2⟩ := tokenizeInto_nil_match hci (lastIncl s0.inclS os)
  rw [i2, i1, ← e1]
  have : (∀ p ∈ tokenizeInto [] (lastExcl s0.exclS os), M p topic = some false) ↔
      ¬ ∃ p ∈ tokenizeInto [] (lastExcl s0.exclS os), M p topic = some true := by
    constructor
    · rintro h ⟨p, hp, hm⟩
      rw [h p hp] at hm; cases hm
    · intro h p hp
      cases hm : M p topic with
      | none => exact absurd hm (hw p)
      | some m =>
        cases m with
        | false => rfl
        | true => exact absurd ⟨p, hp, hm⟩ h
  rw [this]

/-- Matching of patterns without special characters, regardless of case. -/
def plain (p topic : List Char) : Option Bool := some (sameCI p topic)

example : (∀ p q, lower p = lower q → plain p ['x'] = plain q ['x']) ∧ (∀ p, plain p ['x'] ≠ none) := by
  constructor
  · intro p q h; simp [plain, sameCI, h]
  · intro p; simp [plain]

/-! ### Violations -/

/-- **C46, violation**: switching on again adds the new patterns to the old ones: topic `a` stays hidden
although the exclusion text no longer mentions it. -/
theorem C46_violated_old_patterns_kept :
    shown plain (run {} [.setExcl ['a'], .setState true, .setExcl ['b'], .setState true]) ['a'] = some false ∧
    ¬ TextMatches plain ['b'] ['a'] := by
  constructor
  · decide +kernel
  · rintro ⟨p, ⟨hne, _, a, b, h1, _, _⟩, h2⟩
    simp only [plain, Option.some.injEq, sameCI, beq_iff_eq] at h2
    have hmem : ∀ c ∈ p, c = 'b' := by
      intro c hc
      have : c ∈ ['b'] := by rw [h1]; simp [hc]
      simpa using this
    cases p with
    | nil => exact hne rfl
    | cons c l =>
      have hc := hmem c (List.mem_cons_self ..)
      subst hc
      simp [lower] at h2

/-- Matching in which the two patterns "digit" and "no digit" differ only in case. -/
def classes (p topic : List Char) : Option Bool :=
  if p = ['\\', 'd'] then some (match topic with | [c] => 48 ≤ c.toNat && c.toNat ≤ 57 | _ => false)
  else if p = ['\\', 'D'] then some (match topic with | [c] => !(48 ≤ c.toNat && c.toNat ≤ 57) | _ => false)
  else some false

/-- **C46, violation**: patterns that differ only in the case of a letter are merged, although case is
significant in escapes: of `\d;\D` only `\d` is kept and topic `x` is not excluded. -/
theorem C46_violated_case_merge :
    shown classes (run {} [.setExcl ['\\', 'd', ';', '\\', 'D'], .setState true]) ['x'] = some true ∧
    TextMatches classes ['\\', 'd', ';', '\\', 'D'] ['x'] := by
  constructor
  · decide +kernel
  · refine ⟨['\\', 'D'], ⟨by decide, ?_, ['\\', 'd', ';'], [], rfl, Or.inr (Or.inr rfl), Or.inl rfl⟩, ?_⟩
    · intro c hc
      simp only [List.mem_cons, List.not_mem_nil, or_false] at hc
      rcases hc with rfl | rfl <;> decide
    · decide +kernel

/-- **C46, violation**: one malformed pattern makes every topic registration (that no earlier pattern
decides) end with an exception. -/
theorem C46_violated_malformed :
    shown (fun p t => if p = ['('] then none else plain p t) (run {} [.setExcl ['('], .setState true]) ['x'] =
      none := by
  decide +kernel

end Ecal.Mon.Filter
