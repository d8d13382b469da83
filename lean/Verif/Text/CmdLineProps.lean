import Verif.Text.CmdLine

/-! # C82: command lines are taken apart as they were put together -/

namespace Ecal.Text.CmdLine
open Ecal.Text

/-! ## Lemmas -/

/-- White space: blank, tab, line feed, vertical tab, form feed, carriage return. -/
def White (c : UInt8) : Prop := c = 32 ∨ c = 9 ∨ c = 10 ∨ c = 11 ∨ c = 12 ∨ c = 13

theorem isSpace_iff (c : UInt8) : isSpace c = true ↔ White c := by
  have h : ∀ c : UInt8, isSpace c = decide (c = 32 ∨ c = 9 ∨ c = 10 ∨ c = 11 ∨ c = 12 ∨ c = 13) := by
    intro c
    have hall : ∀ n : Fin 256, isSpace (UInt8.ofNat n.1) = decide (UInt8.ofNat n.1 = 32 ∨ UInt8.ofNat n.1 = 9 ∨ UInt8.ofNat n.1 = 10 ∨
        UInt8.ofNat n.1 = 11 ∨ UInt8.ofNat n.1 = 12 ∨ UInt8.ofNat n.1 = 13) := by decide +kernel
    have := hall ⟨c.toNat, c.toNat_lt⟩
    simpa using this
  rw [h c, decide_eq_true_eq]; rfl

@[local simp] theorem blank_beq_dquote : (blank == dquote) = false := by decide
@[local simp] theorem blank_ne_dquote : blank ≠ dquote := by decide
@[local simp] theorem blank_beq_squote : (blank == squote) = false := by decide
@[local simp] theorem blank_ne_squote : blank ≠ squote := by decide
@[local simp] theorem blank_beq_bslash : (blank == bslash) = false := by decide
@[local simp] theorem blank_ne_bslash : blank ≠ bslash := by decide
@[local simp] theorem space_blank : isSpace blank = true := by decide
@[local simp] theorem dquote_beq_blank : (dquote == blank) = false := by decide
@[local simp] theorem dquote_ne_blank : dquote ≠ blank := by decide
@[local simp] theorem dquote_beq_squote : (dquote == squote) = false := by decide
@[local simp] theorem dquote_ne_squote : dquote ≠ squote := by decide
@[local simp] theorem dquote_beq_bslash : (dquote == bslash) = false := by decide
@[local simp] theorem dquote_ne_bslash : dquote ≠ bslash := by decide
@[local simp] theorem space_dquote : isSpace dquote = false := by decide
@[local simp] theorem squote_beq_blank : (squote == blank) = false := by decide
@[local simp] theorem squote_ne_blank : squote ≠ blank := by decide
@[local simp] theorem squote_beq_dquote : (squote == dquote) = false := by decide
@[local simp] theorem squote_ne_dquote : squote ≠ dquote := by decide
@[local simp] theorem squote_beq_bslash : (squote == bslash) = false := by decide
@[local simp] theorem squote_ne_bslash : squote ≠ bslash := by decide
@[local simp] theorem space_squote : isSpace squote = false := by decide
@[local simp] theorem bslash_beq_blank : (bslash == blank) = false := by decide
@[local simp] theorem bslash_ne_blank : bslash ≠ blank := by decide
@[local simp] theorem bslash_beq_dquote : (bslash == dquote) = false := by decide
@[local simp] theorem bslash_ne_dquote : bslash ≠ dquote := by decide
@[local simp] theorem bslash_beq_squote : (bslash == squote) = false := by decide
@[local simp] theorem bslash_ne_squote : bslash ≠ squote := by decide
@[local simp] theorem space_bslash : isSpace bslash = false := by decide

theorem argv_nb (q sq ins : Bool) (cur : Str) (c : UInt8) (r : Str) (h : (c == bslash) = false) :
    argvGo q sq ins cur (c :: r) =
      if ins && !q && !sq && isSpace c then cur :: argvGo q sq false [] r
      else if c == squote && !q then argvGo q (!sq) true cur r
      else if c == dquote && !sq then argvGo (!q) sq true cur r
      else if q || sq then argvGo q sq ins (cur ++ [c]) r
      else if !isSpace c then argvGo q sq true (cur ++ [c]) r
      else argvGo q sq ins cur r := by
  rw [argvGo.eq_def]; simp only [h]; rfl

theorem piece_nb (dq sq : Bool) (c : UInt8) (r : Str) (h : (c == bslash) = false) :
    pieceLen dq sq (c :: r) =
      if c == blank && !dq && !sq then 0
      else if c == dquote then 1 + pieceLen (if sq then dq else !dq) sq r
      else if c == squote then 1 + pieceLen dq (if dq then sq else !sq) r
      else 1 + pieceLen dq sq r := by
  rw [pieceLen.eq_def]; simp only [h]; rfl

/-- The words of a text. -/
def wordsGo (cur : Str) : Str → List Str
  | [] => if cur = [] then [] else [cur]
  | c :: r => if isSpace c then (if cur = [] then wordsGo [] r else cur :: wordsGo [] r) else wordsGo (cur ++ [c]) r

/-- The rest of the text starts with a blank or is empty. -/
def Bound (r : Str) : Prop := r = [] ∨ ∃ t, r = blank :: t

theorem argv_bound (ins : Bool) (cur r : Str) (h : Bound r) (hi : ins = false → cur = []) :
    argvGo false false ins cur r = (if ins then [cur] else []) ++ argvGo false false false [] r := by
  rcases h with rfl | ⟨t, rfl⟩
  · simp [argvGo]
  · cases ins
    · rw [hi rfl]; simp
    · simp [argv_nb]

theorem quoted_step (a cur r : Str) :
    argvGo true false true cur (a.flatMap escC ++ r) = argvGo true false true (cur ++ a) r := by
  induction a generalizing cur with
  | nil => simp
  | cons c a ih =>
    rw [List.flatMap_cons, List.append_assoc]
    by_cases hc : (c == bslash || c == dquote || c == squote) = true
    · simp only [escC, hc, if_true, List.cons_append, List.nil_append]
      have : argvGo true false true cur (bslash :: c :: (List.flatMap escC a ++ r)) =
          argvGo true false true (cur ++ [c]) (List.flatMap escC a ++ r) := by
        simp [argv_nb, argvGo]
      rw [this, ih, List.append_assoc]; rfl
    · rw [Bool.not_eq_true] at hc
      have hc' := hc
      simp only [Bool.or_eq_false_iff] at hc
      rw [show escC c = [c] by simp [escC, hc'], List.cons_append, List.nil_append]
      have : argvGo true false true cur (c :: (List.flatMap escC a ++ r)) =
          argvGo true false true (cur ++ [c]) (List.flatMap escC a ++ r) := by
        simp [argv_nb, argvGo, hc.1.1, hc.1.2]
      rw [this, ih, List.append_assoc]; rfl

theorem unquoted_step (a cur r : Str) (h : Bound r) :
    argvGo false false (decide (cur ≠ [])) cur (a.flatMap escC ++ r) = wordsGo cur a ++ argvGo false false false [] r := by
  induction a generalizing cur with
  | nil =>
    simp only [List.flatMap_nil, List.nil_append, wordsGo]
    rw [argv_bound _ _ _ h (by simp)]
    by_cases hc : cur = [] <;> simp [hc]
  | cons c a ih =>
    rw [List.flatMap_cons, List.append_assoc]
    by_cases hc : (c == bslash || c == dquote || c == squote) = true
    · simp only [escC, hc, if_true, List.cons_append, List.nil_append]
      have hs : isSpace c = false := by
        simp only [Bool.or_eq_true, beq_iff_eq] at hc
        rcases hc with (rfl | rfl) | rfl <;> decide
      have h1 : argvGo false false (decide (cur ≠ [])) cur (bslash :: c :: (List.flatMap escC a ++ r)) =
          argvGo false false true (cur ++ [c]) (List.flatMap escC a ++ r) := by
        have : isSpace bslash = false := by decide
        simp [argv_nb, argvGo]
      have h2 := ih (cur ++ [c])
      rw [show decide (cur ++ [c] ≠ []) = true by simp] at h2
      rw [h1, h2]
      simp [wordsGo, hs]
    · rw [Bool.not_eq_true] at hc
      have hc' := hc
      simp only [Bool.or_eq_false_iff] at hc
      rw [show escC c = [c] by simp [escC, hc'], List.cons_append, List.nil_append]
      by_cases hs : isSpace c = true
      · by_cases hcur : cur = []
        · have h1 : argvGo false false (decide (cur ≠ [])) cur (c :: (List.flatMap escC a ++ r)) =
              argvGo false false false [] (List.flatMap escC a ++ r) := by
            simp [argv_nb, argvGo, hc.1.1, hc.1.2, hc.2, hs, hcur]
          have h2 := ih []
          rw [show decide (([] : Str) ≠ []) = false by simp] at h2
          rw [h1, h2]
          simp [wordsGo, hs, hcur]
        · have h1 : argvGo false false (decide (cur ≠ [])) cur (c :: (List.flatMap escC a ++ r)) =
              cur :: argvGo false false false [] (List.flatMap escC a ++ r) := by
            simp [argv_nb, hc.1.1, hs, hcur]
          have h2 := ih []
          rw [show decide (([] : Str) ≠ []) = false by simp] at h2
          rw [h1, h2]
          simp [wordsGo, hs, hcur]
      · rw [Bool.not_eq_true] at hs
        have h1 : argvGo false false (decide (cur ≠ [])) cur (c :: (List.flatMap escC a ++ r)) =
            argvGo false false true (cur ++ [c]) (List.flatMap escC a ++ r) := by
          simp [argv_nb, argvGo, hc.1.1, hc.1.2, hc.2, hs]
        have h2 := ih (cur ++ [c])
        rw [show decide (cur ++ [c] ≠ []) = true by simp] at h2
        rw [h1, h2]
        simp [wordsGo, hs]

/-- What becomes of an argument. -/
def back (a : Str) : List Str := if a.contains blank ∨ a = [] then [a] else wordsGo [] a

theorem escC_ne (c : UInt8) : escC c ≠ [] := by
  unfold escC; split <;> simp

theorem esc_nil (a : Str) (h : a.flatMap escC = []) : a = [] := by
  cases a with
  | nil => rfl
  | cons c a =>
    rw [List.flatMap_cons] at h
    exact absurd (List.append_eq_nil_iff.1 h).1 (escC_ne c)

theorem arg_step (a r : Str) (h : Bound r) : toArgv (escArg a ++ r) = back a ++ toArgv r := by
  unfold escArg back toArgv
  by_cases hb : a.contains blank = true
  · rw [if_pos hb, if_pos (Or.inl hb)]
    have h1 : argvGo false false false [] ([dquote] ++ a.flatMap escC ++ [dquote] ++ r) =
        argvGo true false true [] (a.flatMap escC ++ (dquote :: r)) := by
      simp [argv_nb, argvGo]
    rw [h1, quoted_step]
    have h2 : argvGo true false true ([] ++ a) (dquote :: r) = argvGo false false true a r := by
      simp [argv_nb, argvGo]
    rw [h2, argv_bound _ _ _ h (by simp)]
    simp
  · rw [if_neg hb]
    by_cases he : a.flatMap escC = []
    · have := esc_nil a he
      subst this
      rw [if_pos he, if_pos (Or.inr rfl)]
      have h1 : argvGo false false false [] ([dquote, dquote] ++ r) = argvGo false false true [] r := by
        simp [argv_nb, argvGo]
      rw [h1, argv_bound _ _ _ h (by simp)]
      simp
    · have hne : a ≠ [] := by intro h; subst h; exact he rfl
      rw [if_neg he, if_neg (by simp only [not_or]; exact ⟨hb, hne⟩)]
      have := unquoted_step a [] r h
      rw [show decide (([] : Str) ≠ []) = false by simp] at this
      exact this

theorem toArgv_blank (r : Str) : toArgv (blank :: r) = toArgv r := by
  have : isSpace blank = true := by decide
  have h2 : (blank == bslash) = false := by decide
  have h3 : (blank == squote) = false := by decide
  have h4 : (blank == dquote) = false := by decide
  unfold toArgv
  simp [argv_nb]

theorem line_back (args : List Str) : toArgv (toCommandLine args) = args.flatMap back := by
  unfold toCommandLine
  induction args with
  | nil => rfl
  | cons a l ih =>
    cases l with
    | nil =>
      have := arg_step a [] (Or.inl rfl)
      simpa [join, toArgv, argvGo] using this
    | cons b l =>
      have h1 : join [blank] ((a :: b :: l).map escArg) = escArg a ++ (blank :: join [blank] ((b :: l).map escArg)) := by
        simp [join]
      rw [h1, arg_step a _ (Or.inr ⟨_, rfl⟩), toArgv_blank, ih, List.flatMap_cons (xs := b :: l)]

theorem wordsGo_clean (cur a : Str) (h : ∀ c ∈ a, isSpace c = false) (hne : cur ++ a ≠ []) : wordsGo cur a = [cur ++ a] := by
  induction a generalizing cur with
  | nil => simp only [List.append_nil] at hne ⊢; simp [wordsGo, hne]
  | cons c a ih =>
    rw [wordsGo, if_neg (by simp [h c List.mem_cons_self]), ih (cur ++ [c]) (fun d hd => h d (List.mem_cons_of_mem _ hd)) (by simp)]
    simp

theorem wordsGo_mem (cur a w : Str) (hc : ∀ c ∈ cur, isSpace c = false) (hw : w ∈ wordsGo cur a) : ∀ c ∈ w, isSpace c = false := by
  induction a generalizing cur with
  | nil =>
    unfold wordsGo at hw
    by_cases h : cur = []
    · rw [if_pos h] at hw; cases hw
    · rw [if_neg h] at hw; rw [List.mem_singleton.1 hw]; exact hc
  | cons d a ih =>
    rw [wordsGo] at hw
    by_cases hd : isSpace d = true
    · rw [if_pos hd] at hw
      by_cases h : cur = []
      · rw [if_pos h] at hw; exact ih [] (by simp) hw
      · rw [if_neg h] at hw
        rcases List.mem_cons.1 hw with rfl | hw
        · exact hc
        · exact ih [] (by simp) hw
    · rw [if_neg hd] at hw
      refine ih (cur ++ [d]) ?_ hw
      intro c hcm
      rcases List.mem_append.1 hcm with h | h
      · exact hc c h
      · rw [List.mem_singleton.1 h]; exact Bool.not_eq_true _ ▸ hd

/-! ## Property theorems -/

/-- **C82, round trip.**  A command line put together from arguments is taken apart into the same arguments exactly
if every argument with white space contains a blank.  In particular it is for arguments with blanks, quotes of both
kinds, backslashes, and for empty arguments. -/
theorem C82_roundtrip_partial (args : List Str) :
    toArgv (toCommandLine args) = args ↔ ∀ a ∈ args, (∃ c ∈ a, White c) → (32 : UInt8) ∈ a := by
  rw [line_back]
  have hcont : ∀ a : Str, a.contains blank = true ↔ (32 : UInt8) ∈ a := by intro a; simp [blank]
  constructor
  · intro h a ha ⟨c, hc, hw⟩
    rw [← h] at ha
    obtain ⟨b, _, hab⟩ := List.mem_flatMap.1 ha
    unfold back at hab
    by_cases hb : b.contains blank = true ∨ b = []
    · rw [if_pos hb] at hab
      rw [List.mem_singleton.1 hab] at hc ⊢
      rcases hb with hb | hb
      · exact (hcont b).1 hb
      · rw [hb] at hc; cases hc
    · rw [if_neg hb] at hab
      have := wordsGo_mem [] b a (by simp) hab c hc
      rw [(isSpace_iff c).2 hw] at this
      cases this
  · intro h
    have hback : ∀ a ∈ args, back a = [a] := by
      intro a ha
      unfold back
      by_cases hb : a.contains blank = true ∨ a = []
      · rw [if_pos hb]
      · rw [if_neg hb]
        rw [not_or] at hb
        have : ∀ c ∈ a, isSpace c = false := by
          intro c hc
          cases hsp : isSpace c
          · rfl
          · exact absurd ((hcont a).2 (h a ha ⟨c, hc, (isSpace_iff c).1 hsp⟩)) hb.1
        simpa using wordsGo_clean [] a this (by simpa using hb.2)
    clear h
    induction args with
    | nil => rfl
    | cons a l ih =>
      rw [List.flatMap_cons, hback a List.mem_cons_self, ih (fun b hb => hback b (List.mem_cons_of_mem _ hb))]
      rfl

/-- Arguments with blanks, quotes, backslashes, tabs beside blanks, and an empty one:
`a b`, `say "hi"`, `it's`, `C:\`, `` and tab-blank. -/
example : ∀ a ∈ ([[97, 32, 98], [34, 104, 34], [105, 39, 115], [67, 92], [], [9, 32]] : List Str),
    (∃ c ∈ a, White c) → (32 : UInt8) ∈ a := by
  intro a ha ⟨c, hc, hw⟩
  simp only [List.mem_cons, List.not_mem_nil, or_false] at ha
  unfold White at hw
  rcases ha with rfl | rfl | rfl | rfl | rfl | rfl <;> simp at hc ⊢ <;> rcases hc with rfl | rfl | rfl <;> simp at hw

/-- **C82 (violated by a tab).**  "Every list of arguments comes back" is wrong: an argument with a tab (or a line
feed) and without a blank is not quoted, and becomes two arguments. -/
theorem C82_violated_tab : toArgv (toCommandLine [[97, 9, 98]]) = [[97], [98]] := by decide +kernel

/-- An argument that is a single line feed is lost. -/
theorem C82_violated_line_feed : toArgv (toCommandLine [[97], [10], [98]]) = [[97], [98]] := by decide +kernel

/-! ### Splitting -/

/-- Parts with gaps around them. -/
def weave : List Str → List Str → Str
  | g :: gs, p :: ps => g ++ p ++ weave gs ps
  | [g], [] => g
  | _, _ => []

theorem pieceLen_pos (c : UInt8) (r : Str) (h : isSpace c = false) : 1 ≤ pieceLen false false (c :: r) := by
  have hb : (c == blank) = false := by
    cases hc : c == blank
    · rfl
    · rw [eq_of_beq hc] at h; cases h
  rw [pieceLen.eq_def]
  simp only [hb]
  split
  · split <;> omega
  · simp only [Bool.false_and, Bool.false_eq_true, if_false]
    split
    · omega
    · split <;> omega

theorem dropWhile_split (s : Str) : ∃ g : Str, (∀ c ∈ g, isSpace c = true) ∧ s = g ++ s.dropWhile isSpace := by
  refine ⟨s.takeWhile isSpace, ?_, List.takeWhile_append_dropWhile.symm⟩
  intro c hc
  have := List.all_takeWhile (l := s) (p := isSpace)
  exact List.all_eq_true.1 this c hc

theorem dropWhile_head (s : Str) (c : UInt8) (r : Str) (h : s.dropWhile isSpace = c :: r) : isSpace c = false := by
  have := List.head?_dropWhile_not isSpace s
  rw [h] at this
  simpa using this

theorem dropWhile_length (s : Str) : (s.dropWhile isSpace).length ≤ s.length := by
  have := (List.dropWhile_suffix (l := s) isSpace).length_le
  exact this

theorem splitGo_spec (n : Nat) (lft : Option Nat) (s : Str) (hn : s.length < n) (hl : lft ≠ some 0) :
    ∃ gaps : List Str, gaps.length = (splitGo n lft s).length + 1 ∧ (∀ g ∈ gaps, ∀ c ∈ g, isSpace c = true) ∧
      s = weave gaps (splitGo n lft s) ∧ (∀ p ∈ splitGo n lft s, p ≠ []) ∧
      (∀ m, lft = some m → (splitGo n lft s).length ≤ m) := by
  induction n generalizing lft s with
  | zero => omega
  | succ n ih =>
    obtain ⟨g, hg, hs⟩ := dropWhile_split s
    rw [splitGo, if_neg hl]
    cases ht : s.dropWhile isSpace with
    | nil =>
      simp only [if_true]
      refine ⟨[g], rfl, by simpa using hg, ?_, by simp, by simp⟩
      rw [ht, List.append_nil] at hs
      simpa [weave] using hs
    | cons c r =>
      have hc := dropWhile_head s c r ht
      simp only [reduceCtorEq, if_false]
      by_cases h1 : lft = some 1
      · rw [if_pos h1]
        refine ⟨[g, []], rfl, by simpa using hg, ?_, by simp, ?_⟩
        · rw [ht] at hs; simpa [weave] using hs
        · intro m hm; rw [h1] at hm; cases hm; simp
      · rw [if_neg h1]
        have hp := pieceLen_pos c r hc
        have hlen : ((c :: r).drop (pieceLen false false (c :: r))).length < n := by
          have := dropWhile_length s
          rw [ht] at this
          rw [List.length_drop]
          simp only [List.length_cons] at this ⊢
          omega
        have hl' : lft.map (· - 1) ≠ some 0 := by
          cases lft with
          | none => simp
          | some m =>
            simp only [Option.map_some, ne_eq, Option.some.injEq]
            have h0 : m ≠ 0 := fun h => hl (by rw [h])
            have h1' : m ≠ 1 := fun h => h1 (by rw [h])
            omega
        obtain ⟨gs, hgl, hgw, hgs, hne, hm⟩ := ih (lft.map (· - 1)) ((c :: r).drop (pieceLen false false (c :: r))) hlen hl'
        refine ⟨g :: gs, by simp [hgl], ?_, ?_, ?_, ?_⟩
        · intro g' hg'
          rcases List.mem_cons.1 hg' with rfl | hg'
          · exact hg
          · exact hgw g' hg'
        · rw [weave, ← hgs, List.append_assoc, List.take_append_drop]
          rw [ht] at hs; exact hs
        · intro p hp'
          rcases List.mem_cons.1 hp' with rfl | hp'
          · cases hk : pieceLen false false (c :: r) with
            | zero => omega
            | succ k => simp
          · exact hne p hp'
        · intro m hm'
          subst hm'
          have h0 : m ≠ 0 := fun h => hl (by rw [h])
          have := hm (m - 1) rfl
          simp only [List.length_cons]
          omega

/-- **C82, splitting loses nothing.**  The parts of a command line, with white space before, between and behind
them, are the command line; no part is empty; with a maximum there are no more parts than that. -/
theorem C82_split_lossless (s : Str) (max : Nat) :
    (∃ gaps : List Str, gaps.length = (splitCommandLine s max).length + 1 ∧ (∀ g ∈ gaps, ∀ c ∈ g, White c) ∧
      s = weave gaps (splitCommandLine s max)) ∧ (∀ p ∈ splitCommandLine s max, p ≠ []) ∧
      (max ≠ 0 → (splitCommandLine s max).length ≤ max) := by
  have h0 : (if max = 0 then none else some max) ≠ some 0 := by
    by_cases h : max = 0
    · rw [if_pos h]; simp
    · rw [if_neg h]; simpa using h
  obtain ⟨gs, hgl, hgw, hgs, hne, hm⟩ := splitGo_spec (s.length + 1) _ s (Nat.lt_succ_self _) h0
  refine ⟨⟨gs, hgl, fun g hg c hc => (isSpace_iff c).1 (hgw g hg c hc), hgs⟩, hne, ?_⟩
  intro hmax
  exact hm max (by rw [if_neg hmax])

/-- Taking a command line apart in two steps: first the part, then the rest. -/
theorem piece_argv : ∀ (t : Str) (dq sq ins : Bool) (cur : Str), (ins = false → cur = [] ∧ dq = false ∧ sq = false) → argvGo dq sq ins cur t =
    argvGo dq sq ins cur (t.take (pieceLen dq sq t)) ++ toArgv (t.drop (pieceLen dq sq t))
  | [], dq, sq, ins, cur, hi => by simp [piece_nb, pieceLen, argvGo, toArgv]
  | c :: r, dq, sq, ins, cur, hi => by
    by_cases hbs : c = bslash
    · subst hbs
      have hsp : isSpace bslash = false := by decide
      cases r with
      | nil => simp [piece_nb, pieceLen, argvGo, toArgv]
      | cons d r' =>
        have ih := piece_argv r' dq sq true (cur ++ [d]) (by simp)
        have hp : pieceLen dq sq (bslash :: d :: r') = 2 + pieceLen dq sq r' := by simp [pieceLen]
        rw [hp, Nat.add_comm, List.take_succ_cons, List.take_succ_cons, List.drop_succ_cons, List.drop_succ_cons]
        have ha : ∀ x, argvGo dq sq ins cur (bslash :: d :: x) = argvGo dq sq true (cur ++ [d]) x := by
          intro x; simp [argv_nb, argvGo]
        rw [ha, ha, ih]
    · by_cases hbl : c = blank ∧ dq = false ∧ sq = false
      · obtain ⟨rfl, rfl, rfl⟩ := hbl
        have hp : pieceLen false false (blank :: r) = 0 := by simp [piece_nb, pieceLen]
        rw [hp]
        simp only [List.take_zero, List.drop_zero]
        rw [argv_bound ins cur (blank :: r) (Or.inr ⟨r, rfl⟩) (fun h => (hi h).1)]
        simp [argv_nb, argvGo, toArgv]
      · -- an ordinary character of the part
        have hstep : ∀ (dq' sq' ins' : Bool) (cur' : Str) (o : List Str),
            (ins' = false → cur' = [] ∧ dq' = false ∧ sq' = false) →
            pieceLen dq sq (c :: r) = 1 + pieceLen dq' sq' r →
            (∀ x, argvGo dq sq ins cur (c :: x) = o ++ argvGo dq' sq' ins' cur' x) →
            argvGo dq sq ins cur (c :: r) =
              argvGo dq sq ins cur ((c :: r).take (pieceLen dq sq (c :: r))) ++ toArgv ((c :: r).drop (pieceLen dq sq (c :: r))) := by
          intro dq' sq' ins' cur' o hi' hp ha
          have ih := piece_argv r dq' sq' ins' cur' hi'
          rw [hp, Nat.add_comm, List.take_succ_cons, List.drop_succ_cons, ha, ha, ih, List.append_assoc]
        have hb' : (c == bslash) = false := by simpa using hbs
        have hbl' : (c == blank && !dq && !sq) = false := by
          cases hc : (c == blank && !dq && !sq)
          · rfl
          · simp only [Bool.and_eq_true, beq_iff_eq, Bool.not_eq_true'] at hc
            exact absurd ⟨hc.1.1, hc.1.2, hc.2⟩ hbl
        by_cases hdq : c = dquote
        · subst hdq
          have hsp : isSpace dquote = false := by decide
          cases sq with
          | false =>
            refine hstep (!dq) false true cur [] (by simp) ?_ ?_
            · simp [piece_nb, pieceLen]
            · intro x; simp [argv_nb, argvGo]
          | true =>
            refine hstep dq true ins (cur ++ [dquote]) [] (fun h => by have := hi h; simp at this) ?_ ?_
            · simp [piece_nb, pieceLen]
            · intro x; simp [argv_nb, argvGo]
        · by_cases hsq : c = squote
          · subst hsq
            have hsp : isSpace squote = false := by decide
            cases dq with
            | false =>
              refine hstep false (!sq) true cur [] (by simp) ?_ ?_
              · simp [piece_nb, pieceLen]
              · intro x; simp [argv_nb, argvGo]
            | true =>
              refine hstep true sq ins (cur ++ [squote]) [] (fun h => by have := hi h; simp at this) ?_ ?_
              · simp [piece_nb, pieceLen]
              · intro x; simp [argv_nb, argvGo]
          · have hdq' : (c == dquote) = false := by simpa using hdq
            have hsq' : (c == squote) = false := by simpa using hsq
            have hp : pieceLen dq sq (c :: r) = 1 + pieceLen dq sq r := by simp [piece_nb, pieceLen, hb', hbl', hdq', hsq']
            by_cases hq : dq = true ∨ sq = true
            · refine hstep dq sq ins (cur ++ [c]) [] (fun h => by have := hi h; rcases hq with rfl | rfl <;> simp at this) hp ?_
              intro x
              rcases hq with rfl | rfl <;> simp [argv_nb, argvGo, hdq', hsq', hb']
            · rw [not_or, Bool.not_eq_true, Bool.not_eq_true] at hq
              obtain ⟨rfl, rfl⟩ := hq
              by_cases hs : isSpace c = true
              · cases ins with
                | true =>
                  refine hstep false false false [] [cur] (by simp) hp ?_
                  intro x; simp [argv_nb, hs, hb']
                | false =>
                  refine hstep false false false cur [] (fun _ => ⟨(hi rfl).1, rfl, rfl⟩) hp ?_
                  intro x; simp [argv_nb, argvGo, hs, hdq', hsq', hb']
              · rw [Bool.not_eq_true] at hs
                refine hstep false false true (cur ++ [c]) [] (by simp) hp ?_
                intro x; simp [argv_nb, argvGo, hs, hdq', hsq', hb']
termination_by t => t.length

theorem toArgv_dropWhile (s : Str) : toArgv (s.dropWhile isSpace) = toArgv s := by
  induction s with
  | nil => rfl
  | cons c r ih =>
    by_cases h : isSpace c = true
    · rw [List.dropWhile_cons_of_pos h, ih]
      have h1 : c ≠ squote := by intro hc; rw [hc] at h; cases h
      have h2 : c ≠ dquote := by intro hc; rw [hc] at h; cases h
      have h3 : c ≠ bslash := by intro hc; rw [hc] at h; cases h
      unfold toArgv
      rw [argvGo.eq_def false false false [] (c :: r)]
      simp [h, h1, h2, h3]
    · rw [List.dropWhile_cons_of_neg h]

theorem splitGo_argv (n : Nat) (lft : Option Nat) (s : Str) (hn : s.length < n) (hl : lft ≠ some 0) :
    (splitGo n lft s).flatMap toArgv = toArgv s := by
  induction n generalizing lft s with
  | zero => omega
  | succ n ih =>
    rw [splitGo, if_neg hl, ← toArgv_dropWhile s]
    cases ht : s.dropWhile isSpace with
    | nil => rfl
    | cons c r =>
      have hc := dropWhile_head s c r ht
      simp only [reduceCtorEq, if_false]
      by_cases h1 : lft = some 1
      · rw [if_pos h1]; simp
      · rw [if_neg h1]
        have hp := pieceLen_pos c r hc
        have hlen : ((c :: r).drop (pieceLen false false (c :: r))).length < n := by
          have := dropWhile_length s
          rw [ht] at this
          rw [List.length_drop]
          simp only [List.length_cons] at this ⊢
          omega
        have hl' : lft.map (· - 1) ≠ some 0 := by
          cases lft with
          | none => simp
          | some m =>
            simp only [Option.map_some, ne_eq, Option.some.injEq]
            have h0 : m ≠ 0 := fun h => hl (by rw [h])
            have h1' : m ≠ 1 := fun h => h1 (by rw [h])
            omega
        rw [List.flatMap_cons, ih _ _ hlen hl']
        exact (piece_argv (c :: r) false false false [] (by simp)).symm

/-- **C82, splitting and taking apart agree.**  The arguments of a command line are the arguments of its parts, one
part after the other, for every command line (also with quotes that are never closed and a backslash at the end) and
every maximum number of parts. -/
theorem C82_split_argv (s : Str) (max : Nat) : (splitCommandLine s max).flatMap toArgv = toArgv s := by
  have h0 : (if max = 0 then none else some max) ≠ some 0 := by
    by_cases h : max = 0
    · rw [if_pos h]; simp
    · rw [if_neg h]; simpa using h
  exact splitGo_argv (s.length + 1) _ s (Nat.lt_succ_self _) h0

/-- **C82 (violated: a part is not always an argument).**  A tab separates arguments but not parts: `a<tab>b` is one
part and two arguments. -/
theorem C82_violated_parts : splitCommandLine [97, 9, 98] 0 = [[97, 9, 98]] ∧ toArgv [97, 9, 98] = [[97], [98]] := by
  decide +kernel

/-! ### Parts of a command line that was put together -/

theorem pieceLen_unquoted (a r : Str) (hb : blank ∉ a) (h : Bound r) :
    pieceLen false false (a.flatMap escC ++ r) = (a.flatMap escC).length := by
  induction a with
  | nil =>
    rcases h with rfl | ⟨t, rfl⟩
    · rfl
    · simp [piece_nb, pieceLen]
  | cons c a ih =>
    have ih := ih (fun h => hb (List.mem_cons_of_mem _ h))
    have hcb : (c == blank) = false := by
      cases hc : c == blank
      · rfl
      · exact absurd (by rw [eq_of_beq hc]; exact List.mem_cons_self) hb
    rw [List.flatMap_cons, List.append_assoc]
    by_cases hc : (c == bslash || c == dquote || c == squote) = true
    · simp only [escC, hc, if_true, List.cons_append, List.nil_append, List.length_cons]
      rw [show pieceLen false false (bslash :: c :: (List.flatMap escC a ++ r)) = 2 + pieceLen false false (List.flatMap escC a ++ r)
        by simp [pieceLen], ih]
      omega
    · rw [Bool.not_eq_true] at hc
      have hc' := hc
      simp only [Bool.or_eq_false_iff] at hc
      rw [show escC c = [c] by simp [escC, hc']]
      simp only [List.cons_append, List.nil_append, List.length_cons]
      rw [show pieceLen false false (c :: (List.flatMap escC a ++ r)) = 1 + pieceLen false false (List.flatMap escC a ++ r)
        by simp [piece_nb, pieceLen, hc.1.1, hc.1.2, hc.2, hcb], ih]
      omega

theorem pieceLen_quoted (a r : Str) :
    pieceLen true false (a.flatMap escC ++ r) = (a.flatMap escC).length + pieceLen true false r := by
  induction a with
  | nil => simp
  | cons c a ih =>
    rw [List.flatMap_cons, List.append_assoc]
    by_cases hc : (c == bslash || c == dquote || c == squote) = true
    · simp only [escC, hc, if_true, List.cons_append, List.nil_append, List.length_cons]
      rw [show pieceLen true false (bslash :: c :: (List.flatMap escC a ++ r)) = 2 + pieceLen true false (List.flatMap escC a ++ r)
        by simp [pieceLen], ih]
      omega
    · rw [Bool.not_eq_true] at hc
      have hc' := hc
      simp only [Bool.or_eq_false_iff] at hc
      rw [show escC c = [c] by simp [escC, hc']]
      simp only [List.cons_append, List.nil_append, List.length_cons]
      rw [show pieceLen true false (c :: (List.flatMap escC a ++ r)) = 1 + pieceLen true false (List.flatMap escC a ++ r)
        by simp [piece_nb, pieceLen, hc.1.1, hc.1.2, hc.2], ih]
      omega

theorem pieceLen_arg (a r : Str) (h : Bound r) : pieceLen false false (escArg a ++ r) = (escArg a).length := by
  unfold escArg
  have hbound : pieceLen false false r = 0 := by
    rcases h with rfl | ⟨t, rfl⟩
    · rfl
    · simp [piece_nb, pieceLen]
  by_cases hb : a.contains blank = true
  · rw [if_pos hb]
    rw [show [dquote] ++ a.flatMap escC ++ [dquote] ++ r = dquote :: (a.flatMap escC ++ (dquote :: r)) by simp]
    rw [show pieceLen false false (dquote :: (a.flatMap escC ++ (dquote :: r))) = 1 + pieceLen true false (a.flatMap escC ++ (dquote :: r))
      by simp [piece_nb, pieceLen], pieceLen_quoted]
    rw [show pieceLen true false (dquote :: r) = 1 + pieceLen false false r by simp [piece_nb, pieceLen], hbound]
    simp
    omega
  · rw [if_neg hb]
    by_cases he : a.flatMap escC = []
    · rw [if_pos he]
      simp [piece_nb, pieceLen, hbound]
    · rw [if_neg he]
      exact pieceLen_unquoted a r (by simpa using hb) h

theorem escArg_head (a : Str) (h : (∃ c ∈ a, White c) → (32 : UInt8) ∈ a) : ∃ c r, escArg a = c :: r ∧ isSpace c = false := by
  unfold escArg
  by_cases hb : a.contains blank = true
  · rw [if_pos hb]; exact ⟨dquote, a.flatMap escC ++ [dquote], by simp, by decide⟩
  · rw [if_neg hb]
    by_cases he : a.flatMap escC = []
    · rw [if_pos he]; exact ⟨dquote, _, rfl, by decide⟩
    · rw [if_neg he]
      cases a with
      | nil => exact absurd rfl he
      | cons c a =>
        rw [List.flatMap_cons]
        by_cases hc : (c == bslash || c == dquote || c == squote) = true
        · exact ⟨bslash, c :: a.flatMap escC, by simp [escC, hc], by decide⟩
        · refine ⟨c, a.flatMap escC, by simp [escC, hc], ?_⟩
          cases hs : isSpace c
          · rfl
          · exact absurd (by simpa [blank] using h ⟨c, List.mem_cons_self, (isSpace_iff c).1 hs⟩) hb

theorem splitGo_line (args : List Str) (h : ∀ a ∈ args, (∃ c ∈ a, White c) → (32 : UInt8) ∈ a) (n : Nat) (pre : Str)
    (hpre : pre = [] ∨ pre = [blank]) (hn : (pre ++ toCommandLine args).length < n) :
    splitGo n none (pre ++ toCommandLine args) = args.map escArg := by
  induction args generalizing n pre with
  | nil =>
    cases n with
    | zero => omega
    | succ n =>
      have : (pre ++ toCommandLine []).dropWhile isSpace = [] := by
        rcases hpre with rfl | rfl <;> decide
      rw [splitGo, if_neg (by simp), this]
      rfl
  | cons a l ih =>
    cases n with
    | zero => omega
    | succ n =>
      obtain ⟨c, r, hcr, hc⟩ := escArg_head a (h a List.mem_cons_self)
      -- the rest of the line after the first argument
      have hline : ∃ q, (q = [] ∨ q = [blank]) ∧ toCommandLine (a :: l) = escArg a ++ (q ++ toCommandLine l) ∧ Bound (q ++ toCommandLine l) := by
        cases l with
        | nil => exact ⟨[], Or.inl rfl, by simp [toCommandLine, join], Or.inl (by simp [toCommandLine, join])⟩
        | cons b l =>
          exact ⟨[blank], Or.inr rfl, by simp [toCommandLine, join], Or.inr ⟨_, rfl⟩⟩
      obtain ⟨q, hq, hl, hbd⟩ := hline
      have hdrop : (pre ++ toCommandLine (a :: l)).dropWhile isSpace = escArg a ++ (q ++ toCommandLine l) := by
        have hb : isSpace blank = true := by decide
        rw [hl, hcr]
        rcases hpre with rfl | rfl
        · simp [hc]
        · simp [hb, hc]
      have hlen : (q ++ toCommandLine l).length < n := by
        rw [hl, hcr] at hn
        simp only [List.length_append, List.length_cons] at hn ⊢
        omega
      rw [splitGo, if_neg (by simp), hdrop, if_neg (by rw [hcr]; simp), if_neg (by simp)]
      rw [pieceLen_arg a _ hbd, List.take_left, List.drop_left]
      rw [show Option.map (fun x : Nat => x - 1) none = none by rfl, ih (fun b hb => h b (List.mem_cons_of_mem _ hb)) n q hq hlen]
      rfl

/-- **C82, parts of a command line that was put together (partial).**  If every argument with white space contains a
blank, then the command line has exactly one part for each argument, and the part is taken apart into that
argument.  Missing: other white space, see above. -/
theorem C82_split_roundtrip_partial (args : List Str) (h : ∀ a ∈ args, (∃ c ∈ a, White c) → (32 : UInt8) ∈ a) :
    (splitCommandLine (toCommandLine args) 0).map toArgv = args.map (fun a => [a]) := by
  have hs : splitCommandLine (toCommandLine args) 0 = args.map escArg := by
    have := splitGo_line args h ((toCommandLine args).length + 1) [] (Or.inl rfl) (by simp)
    simpa [splitCommandLine] using this
  rw [hs, List.map_map]
  apply List.map_congr_left
  intro a ha
  have h1 := (C82_roundtrip_partial [a]).2 (fun b hb => by rw [List.mem_singleton.1 hb]; exact h a ha)
  simpa [toCommandLine, join] using h1

end Ecal.Text.CmdLine
