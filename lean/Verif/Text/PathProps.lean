import Verif.Text.Path
import Verif.Text.SplitProps

/-! # Properties of path functions (C73) -/

namespace Ecal.Text.Path

/-! ### What a path means -/

/-- The text between slashes, empty parts included. -/
def segsFrom (cur : Str) : Str → List Str
  | [] => [cur]
  | c :: r => if c = 47 then cur :: segsFrom [] r else segsFrom (cur ++ [c]) r

def segs (p : Str) : List Str := segsFrom [] p

/-- One step through the directories (innermost first; the parent of the root is the root). -/
def move (d : List Str) (s : Str) : List Str :=
  if s = [] ∨ s = [46] then d else if s = [46, 46] then d.tail else s :: d

/-- The directory or file a path names, seen from the directory `cwd` (without symbolic links). -/
def resolve (cwd : List Str) (p : Str) : List Str :=
  (segs p).foldl move (if p.head? = some 47 then [] else cwd)

/-! ### Splitting -/

theorem contains_slash (c : UInt8) : ([slash] : Str).contains c = decide (c = 47) := by
  by_cases h : c = 47 <;> simp [slash, h]

theorem splitFrom_segs (s cur : Str) : splitFrom [slash] cur s = (segsFrom cur s).filter (fun x => !x.isEmpty) := by
  induction s generalizing cur with
  | nil => by_cases h : cur = [] <;> simp [splitFrom, segsFrom, h]
  | cons c r ih =>
    simp only [splitFrom, segsFrom, contains_slash]
    by_cases hc : c = 47
    · by_cases h : cur = [] <;> simp [hc, h, ih]
    · simp [hc, ih]

theorem foldl_move_filter (l : List Str) (d : List Str) :
    (l.filter (fun x => !x.isEmpty)).foldl move d = l.foldl move d := by
  induction l generalizing d with
  | nil => rfl
  | cons a r ih =>
    cases a with
    | nil => simp [ih, move]
    | cons x y => simp [ih]

theorem foldl_split (s : Str) (d : List Str) : (split [slash] s).foldl move d = (segs s).foldl move d := by
  unfold split segs
  rw [splitFrom_segs, foldl_move_filter]

theorem segsFrom_append (a b cur : Str) : segsFrom cur (a ++ 47 :: b) = segsFrom cur a ++ segs b := by
  induction a generalizing cur with
  | nil => simp [segsFrom, segs]
  | cons c r ih =>
    simp only [List.cons_append, segsFrom]
    by_cases hc : c = 47 <;> simp [hc, ih]

theorem splitFrom_slash_end (s cur : Str) : splitFrom [slash] cur (s ++ [47]) = splitFrom [slash] cur s := by
  induction s generalizing cur with
  | nil => by_cases h : cur = [] <;> simp [splitFrom, slash, h]
  | cons c r ih =>
    simp only [List.cons_append, splitFrom, contains_slash]
    by_cases hc : c = 47 <;> by_cases h : cur = [] <;> simp [hc, h, ih]

theorem split_slash_end (s : Str) : split [slash] (s ++ [47]) = split [slash] s := splitFrom_slash_end s []

theorem split_slash_begin (s : Str) : split [slash] (47 :: s) = split [slash] s := by
  simp [split, splitFrom, slash]

/-- A part between slashes. -/
def Part (x : Str) : Prop := x ≠ [] ∧ 47 ∉ x

theorem parts_of_split (s : Str) : ∀ x ∈ split [slash] s, Part x := by
  intro x hx
  obtain ⟨h1, h2⟩ := C71_parts_clean [slash] s x hx
  exact ⟨h1, fun h => by simpa [slash] using h2 47 h⟩

theorem split_join (l : List Str) (h : ∀ x ∈ l, Part x) : split [slash] (join [slash] l) = l := by
  refine C71_split_join [slash] [slash] l (by simp) (by simp) ?_
  intro p hp
  refine ⟨(h p hp).1, fun c hc hs => ?_⟩
  have : c = 47 := by simpa [slash] using hs
  exact (h p hp).2 (this ▸ hc)

theorem join_ne_nil (l : List Str) (h : ∀ x ∈ l, Part x) (hl : l ≠ []) : join [slash] l ≠ [] := by
  intro e
  have := split_join l h
  rw [e] at this
  exact hl this.symm

theorem join_head (l : List Str) (h : ∀ x ∈ l, Part x) : (join [slash] l).head? ≠ some 47 := by
  cases l with
  | nil => simp [join]
  | cons a r =>
    obtain ⟨h1, h2⟩ := h a List.mem_cons_self
    obtain ⟨c, t, rfl⟩ := List.exists_cons_of_ne_nil h1
    have hc : c ≠ 47 := fun e => h2 (by simp [e])
    cases r <;> simp [join, hc]

theorem join_last (l : List Str) (h : ∀ x ∈ l, Part x) : (join [slash] l).getLast? ≠ some 47 := by
  induction l with
  | nil => simp [join]
  | cons a r ih =>
    have ha := h a List.mem_cons_self
    cases r with
    | nil =>
      intro e
      exact ha.2 (List.mem_of_getLast? (by simpa [join] using e))
    | cons b r =>
      have hr := fun x hx => h x (List.mem_cons_of_mem _ hx)
      have hne := join_ne_nil (b :: r) hr (by simp)
      intro e
      apply ih hr
      simp only [join] at e
      rw [List.getLast?_append] at e
      cases hj : (join [slash] (b :: r)).getLast? with
      | none => exact absurd (List.getLast?_eq_none_iff.1 hj) hne
      | some c => rw [hj] at e; simpa using e

/-! ### The style of Unix -/

theorem toUnix_unix (s : Str) : toUnix .unix s = s := by
  unfold toUnix
  rw [List.map_congr_left (g := id)]
  · simp
  · intro c _
    by_cases h : c = 47 <;> simp [isSep, slash, h]

theorem root_unix (p : Str) : root .unix p = if p.head? = some 47 then [47] else [] := by
  cases p with
  | nil => simp [root]
  | cons c r =>
    by_cases h : c = 47 <;> simp [root, slash, h]

theorem abs_unix (p : Str) : isAbsolute .unix p = decide (p.head? = some 47) := by
  unfold isAbsolute
  rw [root_unix]
  by_cases h : p.head? = some 47 <;> simp [h]

theorem comps_unix (p : Str) : comps .unix p = compLoop (decide (p.head? = some 47)) (split [slash] p) := by
  unfold comps
  rw [abs_unix, toUnix_unix, root_unix]
  by_cases h : p.head? = some 47
  · cases p with
    | nil => simp at h
    | cons c r =>
      have hc : c = 47 := by simpa using h
      subst hc
      simp [split_slash_begin]
  · simp [h]

theorem compStep_abs (first : Bool) (st : List Str) (p : Str) : compStep true first st p = move st p := by
  simp only [compStep, move, dot, dotdot]
  simp

theorem compLoop_abs (l : List Str) : compLoop true l = (l.foldl move []).reverse := by
  cases l with
  | nil => rfl
  | cons p r =>
    simp only [compLoop, List.foldl_cons, compStep_abs]
    have : compStep true false = move := by funext st p; exact compStep_abs false st p
    rw [this]

theorem comps_abs (p : Str) (h : p.head? = some 47) : comps .unix p = (resolve [] p).reverse := by
  rw [comps_unix, h]
  simp only [decide_true, compLoop_abs, resolve, foldl_split]
  simp

/-- A name of a file or directory. -/
def Name (x : Str) : Prop := Part x ∧ x ≠ dot ∧ x ≠ dotdot

theorem foldl_move_names (l : List Str) (d : List Str) (hl : ∀ x ∈ l, Part x) (hd : ∀ x ∈ d, Name x) :
    ∀ x ∈ l.foldl move d, Name x := by
  induction l generalizing d with
  | nil => exact hd
  | cons a r ih =>
    simp only [List.foldl_cons]
    apply ih _ (fun x hx => hl x (List.mem_cons_of_mem _ hx))
    unfold move
    by_cases h1 : a = [] ∨ a = [46]
    · rw [if_pos h1]; exact hd
    · rw [if_neg h1]
      by_cases h2 : a = [46, 46]
      · rw [if_pos h2]; exact fun x hx => hd x (List.mem_of_mem_tail hx)
      · rw [if_neg h2]
        intro x hx
        rcases List.mem_cons.1 hx with rfl | hx
        · exact ⟨hl x List.mem_cons_self, fun e => h1 (Or.inr e), h2⟩
        · exact hd x hx

theorem resolve_names (p : Str) (d : List Str) (hd : ∀ x ∈ d, Name x) : ∀ x ∈ resolve d p, Name x := by
  unfold resolve
  rw [← foldl_split]
  apply foldl_move_names _ _ (parts_of_split p)
  by_cases h : p.head? = some 47
  · simp [h]
  · rw [if_neg h]; exact hd

theorem foldl_names (l : List Str) (d : List Str) (h : ∀ x ∈ l, Name x) : l.foldl move d = l.reverse ++ d := by
  induction l generalizing d with
  | nil => rfl
  | cons a r ih =>
    obtain ⟨⟨h1, _⟩, h2, h3⟩ := h a List.mem_cons_self
    have e : move d a = a :: d := by
      unfold move
      rw [if_neg (fun e => e.elim h1 h2)]
      exact if_neg h3
    rw [List.foldl_cons, e, ih _ (fun x hx => h x (List.mem_cons_of_mem _ hx))]
    simp

theorem join_intercalate (l : List Str) : join [slash] l = List.intercalate [47] l := by
  induction l with
  | nil => rfl
  | cons a r ih =>
    cases r with
    | nil => simp [join, List.intercalate]
    | cons b r =>
      simp only [join, ih, List.intercalate]
      simp [slash, List.intersperse]

/-- The form of a cleaned absolute path. -/
def absForm (names : List Str) (tail : Bool) : Str :=
  47 :: List.intercalate [47] names ++ (if tail = true ∧ names ≠ [] then [47] else [])

/-- C73: cleaning an absolute path gives the directory it names, written without detours; a separator at
the end is kept. -/
theorem C73_clean_absolute (p : Str) (h : p.head? = some 47) :
    clean .unix p = some (absForm (resolve [] p).reverse (decide (p.getLast? = some 47))) := by
  have hne : p ≠ [] := by rintro rfl; simp at h
  have hn : ∀ x ∈ (resolve [] p).reverse, Part x :=
    fun x hx => (resolve_names p [] (by simp) x (List.mem_reverse.1 hx)).1
  have hb : cleanBody .unix p = 47 :: join [slash] (resolve [] p).reverse := by
    unfold cleanBody
    rw [root_unix, if_pos h, toUnix_unix, comps_abs p h]
    simp [slash]
  unfold clean
  rw [if_neg hne, hb, toUnix_unix]
  unfold absForm
  rw [← join_intercalate]
  generalize hN : (resolve [] p).reverse = N at hn ⊢
  by_cases ht : p.getLast? = some 47
  · cases N with
    | nil => simp [ht, join, slash]
    | cons a r =>
      have h1 := join_ne_nil (a :: r) hn (by simp)
      have h2 := join_last (a :: r) hn
      have h3 : (47 :: join [slash] (a :: r)).getLast? ≠ some slash := by
        rw [List.getLast?_cons_of_ne_nil h1]
        exact h2
      rw [if_pos (by simpa [slash] using ht), if_neg (by simp), if_neg h3]
      simp [ht, slash]
  · simp [ht, slash]


/-! ### Relative paths -/

theorem foldl_step_meaning (cwd : List Str) (r st : List Str)
    (hst : dotdot ∉ r ∨ ∀ x ∈ st, x ≠ dot ∧ x ≠ []) (hr : ∀ x ∈ r, Part x) :
    (r.foldl (compStep false false) st).reverse.foldl move cwd = r.foldl move (st.reverse.foldl move cwd) := by
  induction r generalizing st with
  | nil => rfl
  | cons p r ih =>
    have hp := (hr p List.mem_cons_self).1
    have hr' := fun x hx => hr x (List.mem_cons_of_mem _ hx)
    simp only [List.foldl_cons]
    by_cases h1 : p = dot
    · have e : compStep false false st p = st := by simp [compStep, h1]
      have em : ∀ d, move d p = d := fun d => by simp [move, h1, dot]
      rw [e, em]
      refine ih st ?_ hr'
      rcases hst with h | h
      · exact Or.inl (fun hm => h (List.mem_cons_of_mem _ hm))
      · exact Or.inr h
    · by_cases h2 : p = dotdot
      · rcases hst with h | h
        · exact absurd (by simp [h2]) h
        · cases st with
          | nil =>
            have e : compStep false false [] p = [dotdot] := by simp [compStep, h2, dot, dotdot]
            rw [e, ih [dotdot] (Or.inr (by simp [dot, dotdot])) hr', h2]
            rfl
          | cons t u =>
            by_cases ht : t = dotdot
            · have e : compStep false false (t :: u) p = dotdot :: t :: u := by
                simp [compStep, h2, ht, dot, dotdot]
              rw [e, ih _ (Or.inr ?_) hr', h2]
              · simp
              · intro x hx
                rcases List.mem_cons.1 hx with rfl | hx
                · simp [dot, dotdot]
                · exact h x hx
            · have e : compStep false false (t :: u) p = u := by
                simp only [compStep]
                rw [if_neg (by simp), if_neg (by simp [h2, dot, dotdot]), if_pos h2]
                simp [ht]
              have htn := h t List.mem_cons_self
              rw [e, ih u (Or.inr (fun x hx => h x (List.mem_cons_of_mem _ hx))) hr', h2]
              congr 1
              simp only [List.reverse_cons, List.foldl_append, List.foldl_cons, List.foldl_nil]
              have e1 : ∀ d, move d t = t :: d := fun d => by
                unfold move
                rw [if_neg (fun e => e.elim htn.2 htn.1)]
                exact if_neg ht
              rw [e1]
              simp [move, dotdot]
      · have e : compStep false false st p = p :: st := by simp [compStep, h1, h2, hp]
        rw [e, ih (p :: st) ?_ hr']
        · simp
        · rcases hst with h | h
          · exact Or.inl (fun hm => h (List.mem_cons_of_mem _ hm))
          · refine Or.inr (fun x hx => ?_)
            rcases List.mem_cons.1 hx with rfl | hx
            · exact ⟨h1, hp⟩
            · exact h x hx

theorem compStep_first (st : List Str) (p : Str) (h : p ≠ dot) :
    compStep false true st p = compStep false false st p := by
  simp [compStep, h]

theorem comps_meaning (cwd : List Str) (l : List Str) (hl : ∀ x ∈ l, Part x)
    (h : l.head? ≠ some dot ∨ dotdot ∉ l) : (compLoop false l).foldl move cwd = l.foldl move cwd := by
  cases l with
  | nil => rfl
  | cons p r =>
    have hr := fun x hx => hl x (List.mem_cons_of_mem _ hx)
    simp only [compLoop]
    by_cases hp : p = dot
    · have hd : dotdot ∉ r := by
        rcases h with h | h
        · simp [hp] at h
        · exact fun hm => h (List.mem_cons_of_mem _ hm)
      rw [foldl_step_meaning cwd r _ (Or.inl hd) hr]
      simp [compStep, hp]
    · rw [compStep_first [] p hp]
      have := foldl_step_meaning cwd (p :: r) [] (Or.inr (by simp)) hl
      simpa using this

/-- The components are parts. -/
theorem foldl_step_parts (abs : Bool) (r st : List Str) (hr : ∀ x ∈ r, Part x) (hst : ∀ x ∈ st, Part x) :
    ∀ x ∈ r.foldl (compStep abs false) st, Part x := by
  induction r generalizing st with
  | nil => exact hst
  | cons p r ih =>
    simp only [List.foldl_cons]
    apply ih _ (fun x hx => hr x (List.mem_cons_of_mem _ hx))
    have hp := hr p List.mem_cons_self
    intro x hx
    unfold compStep at hx
    rw [if_neg (by simp)] at hx
    by_cases h1 : p = [] ∨ p = dot
    · rw [if_pos h1] at hx; exact hst x hx
    · rw [if_neg h1] at hx
      by_cases h2 : p = dotdot
      · rw [if_pos h2] at hx
        cases abs with
        | true => exact hst x (List.mem_of_mem_tail hx)
        | false =>
          simp only [Bool.false_eq_true, if_false] at hx
          cases st with
          | nil =>
            have : x = dotdot := by simpa using hx
            rw [this, ← h2]; exact hp
          | cons t u =>
            by_cases ht : t = dotdot
            · simp only [ht, if_true] at hx
              rcases List.mem_cons.1 hx with rfl | hx
              · rw [← h2]; exact hp
              · exact hst x (by rw [ht]; exact hx)
            · simp only [ht, if_false] at hx
              exact hst x (List.mem_cons_of_mem _ hx)
      · rw [if_neg h2] at hx
        rcases List.mem_cons.1 hx with rfl | hx
        · exact hp
        · exact hst x hx

theorem compLoop_parts (l : List Str) (hl : ∀ x ∈ l, Part x) : ∀ x ∈ compLoop false l, Part x := by
  cases l with
  | nil => simp [compLoop]
  | cons p r =>
    intro x hx
    simp only [compLoop, List.mem_reverse] at hx
    refine foldl_step_parts false r _ (fun x hx => hl x (List.mem_cons_of_mem _ hx)) ?_ x hx
    by_cases hp : p = dot
    · simp [compStep, hp]; exact hp ▸ hl p List.mem_cons_self
    · rw [compStep_first [] p hp]
      have := foldl_step_parts false [p] [] (by simpa using hl p List.mem_cons_self) (by simp)
      simpa using this

/-- The form of a cleaned relative path. -/
def relForm (cs : List Str) (tail : Bool) : Str :=
  List.intercalate [47] cs ++ (if tail = true then [47] else [])

theorem clean_relative (p : Str) (hne : p ≠ []) (h : p.head? ≠ some 47) :
    clean .unix p =
      if p.getLast? = some 47 ∧ comps .unix p = [] then none
      else some (relForm (comps .unix p) (decide (p.getLast? = some 47))) := by
  have hc : comps .unix p = compLoop false (split [slash] p) := by rw [comps_unix]; simp [h]
  have hpt : ∀ x ∈ comps .unix p, Part x := by rw [hc]; exact compLoop_parts _ (parts_of_split p)
  have hb : cleanBody .unix p = join [slash] (comps .unix p) := by
    unfold cleanBody
    rw [root_unix, if_neg h]
    simp [toUnix]
  unfold clean
  rw [if_neg hne, hb, toUnix_unix]
  unfold relForm
  rw [← join_intercalate]
  generalize comps .unix p = N at hpt ⊢
  by_cases ht : p.getLast? = some 47
  · cases N with
    | nil => simp [ht, join, slash]
    | cons a r =>
      have h1 := join_ne_nil (a :: r) hpt (by simp)
      have h2 := join_last (a :: r) hpt
      simp [slash] at h1 h2
      simp [ht, slash, h1, h2]
  · simp [ht, slash]

/-- C73 (partial: a relative path that begins with "." and contains ".." is excluded, as is the undefined
case): a cleaned path names the same file, seen from every directory. -/
theorem C73_clean_meaning_partial (p q : Str) (hq : clean .unix p = some q)
    (h : p.head? = some 47 ∨ ((segs p).filter (fun x => !x.isEmpty)).head? ≠ some [46] ∨ [46, 46] ∉ segs p)
    (cwd : List Str) : resolve cwd q = resolve cwd p := by
  by_cases hh : p.head? = some 47
  · rw [C73_clean_absolute p hh] at hq
    have hn : ∀ x ∈ (resolve [] p).reverse, Name x :=
      fun x hx => resolve_names p [] (by simp) x (List.mem_reverse.1 hx)
    have hR : resolve cwd p = resolve [] p := by simp [resolve, hh]
    rw [hR]
    obtain rfl := Option.some.inj hq
    generalize hN : (resolve [] p).reverse = N at hn
    have hr : resolve [] p = N.reverse := by rw [← hN, List.reverse_reverse]
    rw [hr]
    unfold resolve absForm
    rw [← foldl_split, ← join_intercalate]
    have hs : split [slash] (47 :: join [slash] N ++ if decide (p.getLast? = some 47) = true ∧ N ≠ [] then [47] else [])
        = N := by
      have h0 := split_join N (fun x hx => (hn x hx).1)
      split
      · rw [List.cons_append, split_slash_begin, split_slash_end, h0]
      · rw [List.append_nil, split_slash_begin, h0]
    rw [hs, foldl_names N _ hn]
    simp
  · by_cases hne : p = []
    · subst hne
      have : q = [] := by simpa [clean] using hq.symm
      rw [this]
    · rw [clean_relative p hne hh] at hq
      have hc : comps .unix p = compLoop false (split [slash] p) := by rw [comps_unix]; simp [hh]
      have hpt : ∀ x ∈ comps .unix p, Part x := by rw [hc]; exact compLoop_parts _ (parts_of_split p)
      by_cases hu : p.getLast? = some 47 ∧ comps .unix p = []
      · rw [if_pos hu] at hq; simp at hq
      · rw [if_neg hu] at hq
        obtain rfl := Option.some.inj hq
        have hm : (comps .unix p).foldl move cwd = (split [slash] p).foldl move cwd := by
          rw [hc]
          refine comps_meaning cwd _ (parts_of_split p) ?_
          rcases h with h | h | h
          · exact absurd h hh
          · left
            rw [split, splitFrom_segs]; exact h
          · right
            rw [split, splitFrom_segs]
            exact fun hm => h (List.mem_filter.1 hm).1
        have hs : split [slash] (relForm (comps .unix p) (decide (p.getLast? = some 47))) = comps .unix p := by
          unfold relForm
          rw [← join_intercalate]
          split
          · rw [split_slash_end, split_join _ hpt]
          · rw [List.append_nil, split_join _ hpt]
        have hhd : (relForm (comps .unix p) (decide (p.getLast? = some 47))).head? ≠ some 47 := by
          unfold relForm
          rw [← join_intercalate]
          by_cases hN : comps .unix p = []
          · have : ¬ p.getLast? = some 47 := fun e => hu ⟨e, hN⟩
            simp [hN, this, join]
          · have hj := join_ne_nil _ hpt hN
            have hjh := join_head _ hpt
            obtain ⟨c, t, e⟩ := List.exists_cons_of_ne_nil hj
            rw [e] at hjh ⊢
            simpa using hjh
        unfold resolve
        rw [if_neg hhd, if_neg hh, ← foldl_split, ← foldl_split, hs, hm]

/-- C73: when the result is undefined. -/
theorem C73_clean_undefined (p : Str) (hne : p ≠ []) :
    clean .unix p = none ↔ p.head? ≠ some 47 ∧ p.getLast? = some 47 ∧ comps .unix p = [] := by
  by_cases hh : p.head? = some 47
  · rw [C73_clean_absolute p hh]; simp [hh]
  · rw [clean_relative p hne hh]
    simp [hh]

/-- C73 is violated: cleaning "a/../" reads the last character of an empty string. -/
theorem C73_violated_undefined : clean .unix [97, 47, 46, 46, 47] = none := by decide +kernel

/-- C73 is violated: "./.." is cleaned to the empty path, the parent of the current directory becomes the
current directory; "./../x" becomes "x". -/
theorem C73_violated_dot : clean .unix [46, 47, 46, 46] = some [] ∧
    clean .unix [46, 47, 46, 46, 47, 120] = some [120] ∧
    resolve [[97]] [46, 47, 46, 46] = [] ∧ resolve [[97]] [] = [[97]] := by decide +kernel

example : clean .unix [46, 46, 47, 97, 47, 46, 47, 46, 46, 47, 98, 47] = some [46, 46, 47, 98, 47] := by
  decide +kernel
example : [46, 46] ∉ segs [46, 47, 97, 47, 46, 47, 98] ∧
    clean .unix [46, 47, 97, 47, 46, 47, 98] = some [46, 47, 97, 47, 98] := by decide +kernel
example : resolve [[99], [100]] [46, 46, 47, 97] = [[97], [100]] := by decide +kernel

/-! ### Cleaning twice -/

/-- The shape of the components of a relative path (last one first). -/
def Shape (st : List Str) : Prop :=
  ∃ names base, st = names ++ base ∧ (∀ x ∈ names, Name x) ∧ (base = [dot] ∨ ∃ k, base = List.replicate k dotdot)

theorem step_name (abs first : Bool) (st : List Str) (p : Str) (h : Name p) : compStep abs first st p = p :: st := by
  obtain ⟨⟨h1, _⟩, h2, h3⟩ := h
  simp [compStep, h1, h2, h3]

theorem shape_step (st : List Str) (p : Str) (hp : Part p) (h : Shape st) : Shape (compStep false false st p) := by
  obtain ⟨names, base, rfl, hn, hb⟩ := h
  by_cases h1 : p = dot
  · have e : compStep false false (names ++ base) p = names ++ base := by simp [compStep, h1]
    rw [e]; exact ⟨names, base, rfl, hn, hb⟩
  · by_cases h2 : p = dotdot
    · have e : ∀ st, compStep false false st p = match st with
        | [] => [dotdot]
        | t :: r => if t = dotdot then dotdot :: t :: r else r := by
        intro st
        unfold compStep
        rw [if_neg (by simp), if_neg (by simp [h2, dot, dotdot]), if_pos h2]
        cases st <;> simp
      rw [e]
      cases names with
      | cons t r =>
        have ht := (hn t List.mem_cons_self).2.2
        refine ⟨r, base, ?_, fun x hx => hn x (List.mem_cons_of_mem _ hx), hb⟩
        simp [ht]
      | nil =>
        rcases hb with rfl | ⟨k, rfl⟩
        · exact ⟨[], [], by simp [dot, dotdot], by simp, Or.inr ⟨0, rfl⟩⟩
        · refine ⟨[], List.replicate (k + 1) dotdot, ?_, by simp, Or.inr ⟨_, rfl⟩⟩
          cases k <;> simp [List.replicate_succ]
    · rw [step_name _ _ _ _ ⟨hp, h1, h2⟩]
      refine ⟨p :: names, base, rfl, ?_, hb⟩
      intro x hx
      rcases List.mem_cons.1 hx with rfl | hx
      · exact ⟨hp, h1, h2⟩
      · exact hn x hx

theorem shape_foldl (r st : List Str) (hr : ∀ x ∈ r, Part x) (h : Shape st) :
    Shape (r.foldl (compStep false false) st) := by
  induction r generalizing st with
  | nil => exact h
  | cons p r ih =>
    exact ih _ (fun x hx => hr x (List.mem_cons_of_mem _ hx)) (shape_step st p (hr p List.mem_cons_self) h)

theorem shape_loop (l : List Str) (hl : ∀ x ∈ l, Part x) : Shape (compLoop false l).reverse := by
  cases l with
  | nil => exact ⟨[], [], rfl, by simp, Or.inr ⟨0, rfl⟩⟩
  | cons p r =>
    simp only [compLoop, List.reverse_reverse]
    apply shape_foldl _ _ (fun x hx => hl x (List.mem_cons_of_mem _ hx))
    by_cases h : p = dot
    · exact ⟨[], [dot], by simp [compStep, h], by simp, Or.inl rfl⟩
    · rw [compStep_first _ _ h]
      exact shape_step [] p (hl p List.mem_cons_self) ⟨[], [], rfl, by simp, Or.inr ⟨0, rfl⟩⟩

theorem foldl_step_names (l st : List Str) (h : ∀ x ∈ l, Name x) :
    l.foldl (compStep false false) st = l.reverse ++ st := by
  induction l generalizing st with
  | nil => rfl
  | cons a r ih =>
    rw [List.foldl_cons, step_name _ _ _ _ (h a List.mem_cons_self), ih _ (fun x hx => h x (List.mem_cons_of_mem _ hx))]
    simp

theorem foldl_step_dots (k j : Nat) :
    (List.replicate k dotdot).foldl (compStep false false) (List.replicate (j + 1) dotdot) =
      List.replicate (j + 1 + k) dotdot := by
  induction k generalizing j with
  | zero => rfl
  | succ k ih =>
    have e0 : List.replicate (k + 1) dotdot = dotdot :: List.replicate k dotdot := rfl
    rw [e0, List.foldl_cons]
    have e : compStep false false (List.replicate (j + 1) dotdot) dotdot = List.replicate (j + 1 + 1) dotdot := by
      simp [compStep, List.replicate_succ, dot, dotdot]
    rw [e, ih]
    congr 1; omega

theorem shape_fixed (l : List Str) (h : Shape l.reverse) : compLoop false l = l := by
  obtain ⟨names, base, e, hn, hb⟩ := h
  have hl : l = base.reverse ++ names.reverse := by
    have := congrArg List.reverse e
    simpa using this
  subst hl
  have hn' : ∀ x ∈ names.reverse, Name x := fun x hx => hn x (List.mem_reverse.1 hx)
  rcases hb with rfl | ⟨k, rfl⟩
  · have e1 : compStep false true [] dot = [dot] := by simp [compStep]
    simp only [List.reverse_cons, List.reverse_nil, List.nil_append, List.cons_append, compLoop]
    rw [e1, foldl_step_names _ _ hn']
    simp
  · cases k with
    | zero =>
      simp only [List.replicate_zero, List.reverse_nil, List.nil_append]
      generalize names.reverse = m at hn'
      cases m with
      | nil => rfl
      | cons a r =>
        simp only [compLoop]
        rw [step_name _ _ _ _ (hn' a List.mem_cons_self), foldl_step_names _ _ (fun x hx => hn' x (List.mem_cons_of_mem _ hx))]
        simp
    | succ k =>
      rw [List.reverse_replicate, List.replicate_succ, List.cons_append]
      simp only [compLoop]
      have e1 : compStep false true [] dotdot = List.replicate (0 + 1) dotdot := by
        simp [compStep, dot, dotdot, List.replicate_succ]
      rw [e1, List.foldl_append, foldl_step_dots, foldl_step_names _ _ hn']
      simp only [List.reverse_append, List.reverse_reverse, List.reverse_replicate]
      have : 0 + 1 + k = k + 1 := by omega
      rw [this, List.replicate_succ, List.cons_append]

theorem rel_head (N : List Str) (t : Bool) (h : ∀ x ∈ N, Part x) (hN : N ≠ [] ∨ t = false) :
    (relForm N t).head? ≠ some 47 := by
  unfold relForm
  rw [← join_intercalate]
  by_cases hn : N = []
  · have ht : t = false := by rcases hN with h | h; exact absurd hn h; exact h
    simp [hn, ht, join]
  · have hj := join_ne_nil _ h hn
    have hjh := join_head _ h
    obtain ⟨c, r, e⟩ := List.exists_cons_of_ne_nil hj
    rw [e] at hjh ⊢
    simpa using hjh

theorem rel_last (N : List Str) (t : Bool) (h : ∀ x ∈ N, Part x) :
    decide ((relForm N t).getLast? = some 47) = t := by
  unfold relForm
  rw [← join_intercalate]
  have hl := join_last N h
  cases t with
  | true => simp
  | false => simpa [slash] using hl

theorem rel_split (N : List Str) (t : Bool) (h : ∀ x ∈ N, Part x) : split [slash] (relForm N t) = N := by
  unfold relForm
  rw [← join_intercalate]
  split
  · rw [split_slash_end, split_join _ h]
  · rw [List.append_nil, split_join _ h]

/-- The components of the absolute form. -/
theorem abs_resolve (N : List Str) (t : Bool) (h : ∀ x ∈ N, Name x) : resolve [] (absForm N t) = N.reverse := by
  unfold resolve absForm
  rw [← foldl_split, ← join_intercalate]
  have h0 := split_join N (fun x hx => (h x hx).1)
  have hs : split [slash] (47 :: join [slash] N ++ if t = true ∧ N ≠ [] then [47] else []) = N := by
    split
    · rw [List.cons_append, split_slash_begin, split_slash_end, h0]
    · rw [List.append_nil, split_slash_begin, h0]
  rw [hs, foldl_names N _ h]
  simp

theorem abs_head (N : List Str) (t : Bool) : (absForm N t).head? = some 47 := by
  unfold absForm; simp

/-- C73: cleaning a path twice is cleaning it once. -/
theorem C73_clean_idem (p q : Str) (h : clean .unix p = some q) : clean .unix q = some q := by
  by_cases hh : p.head? = some 47
  · rw [C73_clean_absolute p hh] at h
    have hn : ∀ x ∈ (resolve [] p).reverse, Name x :=
      fun x hx => resolve_names p [] (by simp) x (List.mem_reverse.1 hx)
    obtain rfl := Option.some.inj h
    generalize (resolve [] p).reverse = N at hn
    generalize decide (p.getLast? = some 47) = t
    rw [C73_clean_absolute _ (abs_head N t), abs_resolve N t hn, List.reverse_reverse]
    congr 1
    have hpt : ∀ x ∈ N, Part x := fun x hx => (hn x hx).1
    unfold absForm
    rw [← join_intercalate]
    by_cases hN : N = []
    · simp [hN]
    · have h1 := join_ne_nil N hpt hN
      have h2 : (47 :: join [slash] N).getLast? ≠ some 47 := by
        rw [List.getLast?_cons_of_ne_nil h1]
        exact join_last N hpt
      cases t with
      | true =>
        have : ((47 :: join [slash] N) ++ if true = true ∧ N ≠ [] then [47] else []).getLast? = some 47 := by
          rw [if_pos ⟨rfl, hN⟩, List.getLast?_append]; rfl
        rw [decide_eq_true this]
      | false =>
        have : ¬ (47 :: join [slash] N ++ if false = true ∧ N ≠ [] then [47] else []).getLast? = some 47 := by
          simpa using h2
        rw [decide_eq_false this]
  · by_cases hne : p = []
    · subst hne
      have : q = [] := by simpa [clean] using h.symm
      rw [this]; rfl
    · rw [clean_relative p hne hh] at h
      have hc : comps .unix p = compLoop false (split [slash] p) := by rw [comps_unix]; simp [hh]
      have hpt : ∀ x ∈ comps .unix p, Part x := by rw [hc]; exact compLoop_parts _ (parts_of_split p)
      have hsh : Shape (comps .unix p).reverse := by rw [hc]; exact shape_loop _ (parts_of_split p)
      by_cases hu : p.getLast? = some 47 ∧ comps .unix p = []
      · rw [if_pos hu] at h; simp at h
      · rw [if_neg hu] at h
        obtain rfl := Option.some.inj h
        generalize comps .unix p = N at hpt hsh hu
        have ht : N ≠ [] ∨ decide (p.getLast? = some 47) = false := by
          by_cases hN : N = []
          · right; simpa [hN] using hu
          · exact Or.inl hN
        generalize decide (p.getLast? = some 47) = t at ht
        have hhd := rel_head N t hpt ht
        by_cases hq : relForm N t = []
        · rw [hq]; rfl
        · have hcq : comps .unix (relForm N t) = N := by
            rw [comps_unix, rel_split N t hpt]
            simp only [hhd, decide_false]
            exact shape_fixed N hsh
          rw [clean_relative _ hq hhd, hcq, rel_last N t hpt]
          have hl := rel_last N t hpt
          rw [if_neg ?_]
          rintro ⟨h1, h2⟩
          rcases ht with ht | ht
          · exact ht h2
          · rw [h1, ht] at hl; simp at hl

/-- C73 is violated in the default style: cleaning can produce a drive out of a directory name, and the
cleaned path then means something else when cleaned again ("a/../C:" and "C:"). -/
theorem C73_violated_drive : clean .combined [97, 47, 46, 46, 47, 67, 58] = some [67, 58] ∧
    clean .combined [67, 58] = some [67, 58, 47] := by decide +kernel

/-! ### Absolute paths -/

theorem toUnix_plain (st : Style) (s : Str) (h : 92 ∉ s) : toUnix st s = s := by
  unfold toUnix
  rw [List.map_congr_left (g := id)]
  · simp
  · intro c hc
    have h1 : c ≠ 92 := fun e => h (e ▸ hc)
    by_cases h2 : c = 47 <;> simp [isSep, slash, backslash, h1, h2]

theorem root_combined (s : Str) (h : s.head? = some 47) (h2 : ∀ c, s[1]? = some c → c ≠ 47 ∧ c ≠ 92) :
    root .combined s = [47] := by
  cases s with
  | nil => simp at h
  | cons a r =>
    have ha : a = 47 := by simpa using h
    subst ha
    have hd : isDrive (47 :: r) = false := by
      cases r <;> simp [isDrive, isAlpha]
    have hn : isNetwork (47 :: r) = false := by
      cases r with
      | nil => rfl
      | cons b r =>
        obtain ⟨h3, h4⟩ := h2 b (by simp)
        cases r with
        | nil => rfl
        | cons c r => simp [isNetwork, isAnySep, slash, backslash, h3, h4]
    simp [root, hd, hn, isAnySep, slash]

theorem clean_combined (s : Str) (h : s.head? = some 47) (h2 : ∀ c, s[1]? = some c → c ≠ 47 ∧ c ≠ 92)
    (h3 : 92 ∉ s) : clean .combined s = clean .unix s := by
  have e1 := root_combined s h h2
  have e2 : root .unix s = [47] := by rw [root_unix, if_pos h]
  have e3 : comps .combined s = comps .unix s := by
    unfold comps isAbsolute
    rw [e1, e2, toUnix_plain _ s h3, toUnix_plain _ s h3]
  have e4 : cleanBody .combined s = cleanBody .unix s := by
    unfold cleanBody
    rw [e1, e2, e3]
    rfl
  unfold clean
  rw [e4, toUnix_plain _ s h3, toUnix_plain _ s h3]

/-- C73 (partial: the working directory is not the root and there are no backslashes in a relative path):
the absolute path is the one the path names, seen from the working directory. -/
theorem C73_absolute_partial (cwd p : Str) (hc : cwd.head? = some 47) (hl : ∃ c, cwd[1]? = some c ∧ c ≠ 47)
    (hb : p.head? ≠ some 47 → 92 ∉ cwd ∧ 92 ∉ p) :
    ∃ t, absolutePath .unix cwd p = some (absForm (resolve (resolve [] cwd) p).reverse t) := by
  unfold absolutePath
  rw [abs_unix]
  by_cases hh : p.head? = some 47
  · simp only [hh, decide_true, if_true]
    have e : resolve (resolve [] cwd) p = resolve [] p := by simp [resolve, hh]
    rw [e]
    exact ⟨_, C73_clean_absolute p hh⟩
  · simp only [hh, decide_false, Bool.false_eq_true, if_false]
    obtain ⟨b1, b2⟩ := hb hh
    obtain ⟨c, h1, h2⟩ := hl
    obtain ⟨a, r, rfl⟩ : ∃ a r, cwd = a :: r := by
      cases cwd with
      | nil => simp at hc
      | cons a r => exact ⟨a, r, rfl⟩
    obtain ⟨b, r, rfl⟩ : ∃ b r', r = b :: r' := by
      cases r with
      | nil => simp at h1
      | cons b r => exact ⟨b, r, rfl⟩
    have hbc : b = c := by simpa using h1
    subst hbc
    have hb2 : b ≠ 92 := fun e => b1 (by simp [e])
    have hhd : (a :: b :: r ++ [slash] ++ p).head? = some 47 := by simpa using hc
    rw [clean_combined _ hhd ?_ ?_, C73_clean_absolute _ hhd]
    · have e : resolve [] (a :: b :: r ++ [slash] ++ p) = resolve (resolve [] (a :: b :: r)) p := by
        conv => rhs; unfold resolve
        rw [if_neg hh]
        unfold resolve
        rw [if_pos hhd, if_pos hc]
        have : a :: b :: r ++ [slash] ++ p = (a :: b :: r) ++ 47 :: p := by simp [slash]
        rw [this]
        unfold segs
        rw [segsFrom_append, List.foldl_append]
        rfl
      rw [e]
      exact ⟨_, rfl⟩
    · intro x hx
      have : b = x := by simpa using hx
      subst this
      exact ⟨h2, hb2⟩
    · intro hm
      simp only [List.mem_append] at hm
      rcases hm with (hm | hm) | hm
      · exact b1 hm
      · simp [slash] at hm
      · exact b2 hm

/-- C73: the same path is recognised (partial: as above). -/
theorem C73_equal_partial (cwd p q : Str) (hc : cwd.head? = some 47) (hl : ∃ c, cwd[1]? = some c ∧ c ≠ 47)
    (hp : p.head? ≠ some 47 → 92 ∉ cwd ∧ 92 ∉ p) (hq : q.head? ≠ some 47 → 92 ∉ cwd ∧ 92 ∉ q) :
    isEqual .unix cwd p q = some (decide (resolve (resolve [] cwd) p = resolve (resolve [] cwd) q)) := by
  obtain ⟨t, ht⟩ := C73_absolute_partial cwd p hc hl hp
  obtain ⟨u, hu⟩ := C73_absolute_partial cwd q hc hl hq
  have hn : ∀ x, ∀ y ∈ (resolve (resolve [] cwd) x).reverse, Name y := fun x y hy =>
    resolve_names x _ (resolve_names cwd [] (by simp)) y (List.mem_reverse.1 hy)
  unfold isEqual
  rw [ht, hu]
  simp only [toUnix_unix]
  rw [root_unix, if_pos (abs_head _ _), root_unix, if_pos (abs_head _ _), comps_abs _ (abs_head _ _),
    comps_abs _ (abs_head _ _), abs_resolve _ _ (hn p), abs_resolve _ _ (hn q)]
  simp only [List.reverse_reverse, beq_self_eq_true, Bool.true_and]
  congr 1
  by_cases h : resolve (resolve [] cwd) p = resolve (resolve [] cwd) q
  · simp [h]
  · have : ¬ (resolve (resolve [] cwd) p).reverse = (resolve (resolve [] cwd) q).reverse := by simpa using h
    simp [h, this]

example : absolutePath .unix [47, 97, 47, 98] [46, 46, 47, 99] = some [47, 97, 47, 99] := by decide +kernel
example : isEqual .unix [47, 97] [98, 47] [47, 97, 47, 120, 47, 46, 46, 47, 98] = some true := by decide +kernel

/-- C73 is violated: the functions clean with the default style, whatever style the caller chose; a
backslash in a file name becomes a separator. -/
theorem C73_violated_backslash :
    absolutePath .unix [47, 100] [97, 92, 98] = some [47, 100, 47, 97, 47, 98] ∧
    absoluteFrom .unix [47, 97, 92, 98] [99] = some [47, 97, 47, 98, 47, 99] := by decide +kernel

/-- C73 is violated: in the root directory a relative path is taken for the name of a computer in the
network, ".." does not leave it and the first component is not counted ("a/../b" becomes "//a/b"). -/
theorem C73_violated_root_directory :
    absolutePath .unix [47] [97, 47, 46, 46, 47, 98] = some [47, 47, 97, 47, 98] ∧
    absolutePath .unix [47] [97, 47, 46, 46, 47, 46, 46, 47, 98] = some [47, 47, 97, 47, 98] ∧
    isEqual .unix [47] [97, 47, 46, 46, 47, 98] [47, 98] = some false := by decide +kernel

/-! ### Relative paths from a base -/

theorem sameSize_prefix (C : List Str) (a b : Str) (P B : List Str) (h : a ≠ b) (i : Nat) :
    sameSize i (C ++ a :: P) (C ++ b :: B) = i + C.length := by
  induction C generalizing i with
  | nil => simp [sameSize, h]
  | cons c r ih =>
    simp only [List.cons_append, sameSize]
    rw [if_neg (by simp), ih]
    simp; omega

theorem segs_up (n : Nat) (s : Str) (d : List Str) :
    (segs ((List.replicate n [46, 46, 47]).flatten ++ s)).foldl move d = (segs s).foldl move (d.drop n) := by
  induction n generalizing d with
  | zero => rfl
  | succ n ih =>
    have : (List.replicate (n + 1) ([46, 46, 47] : Str)).flatten ++ s =
        [46, 46] ++ 47 :: ((List.replicate n ([46, 46, 47] : Str)).flatten ++ s) := by
      simp [List.replicate_succ]
    rw [this]
    unfold segs
    rw [segsFrom_append, List.foldl_append]
    have e : (segsFrom [] ([46, 46] : Str)).foldl move d = d.tail := by simp [segsFrom, move]
    rw [e, ih]
    congr 1
    cases d <;> simp

theorem segs_head (n : Nat) (N : List Str) (h : ∀ x ∈ N, Part x) :
    ((List.replicate n ([46, 46, 47] : Str)).flatten ++ join [slash] N).head? ≠ some 47 := by
  cases n with
  | zero => simpa using join_head N h
  | succ n => simp [List.replicate_succ]

/-- C73 (partial: the paths have a common first component and differ later on): the relative path leads
from the base to the path. -/
theorem C73_relative_partial (base p : Str) (hb : base.head? = some 47) (hp : p.head? = some 47)
    (C B P : List Str) (a b : Str) (hC : C ≠ []) (hab : a ≠ b)
    (eb : (resolve [] base).reverse = C ++ b :: B) (ep : (resolve [] p).reverse = C ++ a :: P) :
    resolve (resolve [] base) (relativePath .unix base p) = resolve [] p := by
  have hn : ∀ x ∈ (resolve [] p).reverse, Name x :=
    fun x hx => resolve_names p [] (by simp) x (List.mem_reverse.1 hx)
  unfold relativePath
  rw [comps_abs _ hb, comps_abs _ hp, eb, ep]
  rw [ep] at hn
  simp only [sameSize_prefix C a b P B hab 0, Nat.zero_add]
  rw [if_pos (List.length_pos_iff.2 hC)]
  have hd : (C ++ a :: P).drop C.length = a :: P := by simp
  have hN : ∀ x ∈ a :: P, Name x := fun x hx => hn x (List.mem_append_right _ hx)
  rw [hd]
  have hpt : ∀ x ∈ a :: P, Part x := fun x hx => (hN x hx).1
  conv => lhs; unfold resolve
  rw [if_neg (segs_head _ _ hpt), segs_up, ← foldl_split, split_join _ hpt, foldl_names _ _ hN]
  have e1 : resolve [] base = (C ++ b :: B).reverse := by rw [← eb, List.reverse_reverse]
  have e2 : resolve [] p = (C ++ a :: P).reverse := by rw [← ep, List.reverse_reverse]
  have e3 : (segs base).foldl move (if base.head? = some 47 then [] else []) = (C ++ b :: B).reverse := e1
  rw [e3, e2]
  have e4 : ((C ++ b :: B).reverse).drop ((C ++ b :: B).length - C.length) = C.reverse := by
    rw [List.reverse_append, List.drop_append]
    have : (C ++ b :: B).length - C.length = (b :: B).reverse.length := by simp
    rw [this]
    simp
  rw [e4, List.reverse_append]

example : relativePath .unix [47, 97, 47, 98, 47, 99] [47, 97, 47, 100] = [46, 46, 47, 46, 46, 47, 100] := by
  decide +kernel

/-- C73 is violated: when one path contains the other, or they differ in the first component, the relative
path does not lead from the base to the path ("/a" to "/a/b" gives "a/b", "/a" to "/b" gives "b"). -/
theorem C73_violated_relative :
    relativePath .unix [47, 97] [47, 97, 47, 98] = [97, 47, 98] ∧
    relativePath .unix [47, 97] [47, 98] = [98] ∧
    resolve (resolve [] [47, 97]) (relativePath .unix [47, 97] [47, 98]) ≠ resolve [] [47, 98] ∧
    resolve (resolve [] [47, 97]) (relativePath .unix [47, 97] [47, 97]) ≠ resolve [] [47, 97] := by
  decide +kernel

/-! ### File names -/

theorem loop_last (abs : Bool) (l : List Str) (x : Str) (hx : Name x) : (compLoop abs (l ++ [x])).getLast? = some x := by
  cases l with
  | nil =>
    simp only [List.nil_append, compLoop]
    rw [step_name _ _ _ _ hx]; rfl
  | cons a r =>
    simp only [List.cons_append, compLoop, List.foldl_append, List.foldl_cons, List.foldl_nil]
    rw [step_name _ _ _ _ hx]
    simp

theorem split_last (d x : Str) (hx : Name x) : split [slash] (d ++ 47 :: x) = split [slash] d ++ [x] := by
  have e : split [slash] x = [x] := by
    have := split_join [x] (by simpa using hx.1)
    simpa [join] using this
  unfold split at e ⊢
  rw [splitFrom_segs, segsFrom_append, List.filter_append, ← splitFrom_segs]
  unfold segs
  rw [← splitFrom_segs, e]

/-- C73: the file name is what follows the last separator; the base name is what precedes the first dot of
it. -/
theorem C73_file_name (dir x : Str) (hx : x ≠ [] ∧ 47 ∉ x ∧ x ≠ [46] ∧ x ≠ [46, 46]) :
    fileName .unix (dir ++ 47 :: x) = x ∧ fileName .unix x = x ∧ fileName .unix (dir ++ [47]) = [] ∧
      ∀ stem ext, x = stem ++ 46 :: ext → 46 ∉ stem → baseName .unix (dir ++ 47 :: x) = stem := by
  have hn : Name x := ⟨⟨hx.1, hx.2.1⟩, hx.2.2⟩
  have hlast : ∀ d : Str, ∃ c, (d ++ x).getLast? = some c ∧ c ≠ 47 := by
    intro d
    rw [List.getLast?_append]
    cases h : x.getLast? with
    | none => exact absurd (List.getLast?_eq_none_iff.1 h) hx.1
    | some c => exact ⟨c, by simp, fun e => hx.2.1 (e ▸ List.mem_of_getLast? h)⟩
  have h1 : fileName .unix (dir ++ 47 :: x) = x := by
    obtain ⟨c, hc, hne⟩ := hlast (dir ++ [47])
    have e : dir ++ 47 :: x = dir ++ [47] ++ x := by simp
    unfold fileName
    rw [comps_unix, split_last dir x hn, loop_last _ _ _ hn, e, hc]
    simp [isSep, slash, hne]
  have h2 : fileName .unix x = x := by
    obtain ⟨c, hc, hne⟩ := hlast []
    have e : split [slash] x = [] ++ [x] := by
      have := split_join [x] (by simpa using hn.1)
      simpa [join] using this
    unfold fileName
    rw [comps_unix, e, loop_last _ _ _ hn]
    rw [List.nil_append] at hc
    rw [hc]
    simp [isSep, slash, hne]
  refine ⟨h1, h2, by simp [fileName, isSep, slash], ?_⟩
  intro stem ext e hs
  unfold baseName
  rw [h1, e, List.takeWhile_append_of_pos]
  · simp
  · intro c hc
    have : c ≠ 46 := fun h => hs (h ▸ hc)
    simpa using this

example : fileName .unix [47, 97, 47, 98, 46, 99] = [98, 46, 99] ∧ baseName .unix [47, 97, 47, 98, 46, 99] = [98] := by
  decide +kernel

/-- C73 is violated: the file name of a path that ends in ".." is the name of another directory. -/
theorem C73_violated_file_name : fileName .unix [47, 97, 47, 98, 47, 46, 46] = [97] := by decide +kernel

end Ecal.Text.Path
