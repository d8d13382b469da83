import Verif.Proto.Filter

/-!
# Properties of the include filters (C97)
-/

namespace Ecal.Proto.Filter

/-! ### Element names -/

/-- One part of an element name: a field, perhaps with an index (digits or a star). -/
structure Comp where
  name : Str
  idx  : Option Str := none
deriving DecidableEq, Repr

/-- `f` or `f[i]`. -/
def Comp.text (c : Comp) : Str :=
  match c.idx with
  | none => c.name
  | some i => c.name ++ '[' :: i ++ [']']

/-- The parts joined by dots. -/
def path : List Comp → Str
  | [] => []
  | [c] => c.text
  | c :: d :: cs => c.text ++ '.' :: path (d :: cs)

/-- The same field without its index: the array. -/
def Comp.bare (c : Comp) : Comp := { c with idx := none }

/-- Field names are not empty and contain neither dots nor brackets; indices contain no dots. -/
def Comp.Ok (c : Comp) : Prop :=
  c.name ≠ [] ∧ '.' ∉ c.name ∧ '[' ∉ c.name ∧ ∀ i, c.idx = some i → '.' ∉ i

/-- What the comment of `CreateSet` (L36-45) says to be in the set of a name: the name and all that contain it; for an
array element also the array. -/
def Documented (cs : List Comp) (m : Str) : Prop :=
  ∃ pre c post, cs = pre ++ c :: post ∧ (m = path (pre ++ [c]) ∨ m = path (pre ++ [c.bare]))

theorem text_ne_nil {c : Comp} (h : c.Ok) : c.text ≠ [] := by
  unfold Comp.text
  split
  · exact h.1
  · simp

theorem dot_text {c : Comp} (h : c.Ok) : '.' ∉ c.text := by
  obtain ⟨_, h2, _, h4⟩ := h
  unfold Comp.text
  split
  · exact h2
  · rename_i i hi
    have := h4 i hi
    simp [h2, this]

theorem path_ne_nil {cs : List Comp} (h : ∀ c ∈ cs, c.Ok) (hn : cs ≠ []) : path cs ≠ [] := by
  match cs with
  | [] => exact absurd rfl hn
  | [c] => exact text_ne_nil (h c (by simp))
  | c :: d :: cs => simp [path]

theorem path_cons (c : Comp) (cs : List Comp) (h : cs ≠ []) : path (c :: cs) = c.text ++ '.' :: path cs := by
  cases cs with
  | nil => exact absurd rfl h
  | cons d ds => rfl

theorem path_snoc (pre : List Comp) (c : Comp) :
    path (pre ++ [c]) = if pre = [] then c.text else path pre ++ '.' :: c.text := by
  induction pre with
  | nil => rfl
  | cons d ds ih =>
    rw [List.cons_append, path_cons _ _ (by simp), ih]
    by_cases h : ds = []
    · subst h; simp [path]
    · simp [h, path_cons d ds h]

theorem items_append (x cur r : Str) (h : '.' ∉ x) : items cur (x ++ r) = items (cur ++ x) r := by
  induction x generalizing cur with
  | nil => simp
  | cons c x ih =>
    have hc : c ≠ '.' := by intro e; subst e; simp at h
    have hx : '.' ∉ x := by intro e; exact h (by simp [e])
    rw [List.cons_append, items, if_neg hc, ih _ hx]
    simp

theorem items_path (cs : List Comp) (h : ∀ c ∈ cs, c.Ok) : items [] (path cs) = cs.map Comp.text := by
  induction cs with
  | nil => rfl
  | cons c cs ih =>
    have hc := h c (by simp)
    have hcs : ∀ d ∈ cs, d.Ok := fun d hd => h d (by simp [hd])
    by_cases hn : cs = []
    · subst hn
      have := items_append c.text [] [] (dot_text hc)
      simp only [List.append_nil, List.nil_append] at this
      simp [path, this, items, text_ne_nil hc]
    · rw [path_cons _ _ hn, items_append _ _ _ (dot_text hc)]
      simp only [List.nil_append, items, ih hcs, List.map_cons]
      rfl

theorem mem_text {c : Comp} (h : c.Ok) : '[' ∈ c.text ↔ c.idx ≠ none := by
  unfold Comp.text
  split
  · rename_i hi
    simp [hi, h.2.2.1]
  · rename_i i hi
    simp [hi]

theorem takeWhile_text {c : Comp} (h : c.Ok) : c.text.takeWhile (· ≠ '[') = c.name := by
  have hall : ∀ x ∈ c.name, decide (x ≠ '[') = true := by
    intro x hx
    have : x ≠ '[' := by rintro rfl; exact h.2.2.1 hx
    simpa using this
  have key : ∀ (n r : Str), (∀ x ∈ n, decide (x ≠ '[') = true) → (n ++ '[' :: r).takeWhile (· ≠ '[') = n := by
    intro n r hn
    induction n with
    | nil => simp
    | cons a n ih =>
      have ha := hn a (by simp)
      have := ih (fun x hx => hn x (by simp [hx]))
      simp only [List.cons_append, List.takeWhile_cons, ha, if_true]
      rw [this]
  unfold Comp.text
  split
  · have key' : ∀ (n : Str), (∀ x ∈ n, decide (x ≠ '[') = true) → n.takeWhile (· ≠ '[') = n := by
      intro n hn
      induction n with
      | nil => rfl
      | cons a n ih =>
        have ha := hn a (by simp)
        rw [List.takeWhile_cons, if_pos ha, ih (fun x hx => hn x (by simp [hx]))]
    exact key' _ hall
  · rw [List.append_assoc]; exact key _ _ hall

theorem mem_createGo (cs : List Comp) (h : ∀ c ∈ cs, c.Ok) (pre : List Comp) (hp : ∀ c ∈ pre, c.Ok) (m : Str) :
    m ∈ createGo (path pre) (cs.map Comp.text) ↔
      ∃ mid c post, cs = mid ++ c :: post ∧ (m = path (pre ++ mid ++ [c]) ∨ (c.idx ≠ none ∧ m = c.name)) := by
  induction cs generalizing pre with
  | nil => simp [createGo]
  | cons c cs ih =>
    have hc := h c (by simp)
    have hcs : ∀ d ∈ cs, d.Ok := fun d hd => h d (by simp [hd])
    have hinc : (if path pre = [] then path pre else path pre ++ ['.']) ++ c.text = path (pre ++ [c]) := by
      rw [path_snoc]
      by_cases hn : pre = []
      · subst hn; rfl
      · simp [path_ne_nil hp hn, hn]
    have hp' : ∀ d ∈ pre ++ [c], d.Ok := by
      intro d hd
      rcases List.mem_append.1 hd with hd | hd
      · exact hp d hd
      · rw [List.mem_singleton.1 hd]; exact hc
    simp only [List.map_cons, createGo, hinc, List.mem_append, List.mem_cons, ih hcs _ hp']
    constructor
    · rintro (hm | rfl | ⟨mid, d, post, rfl, hm⟩)
      · split at hm
        · rename_i hb
          rw [takeWhile_text hc] at hm
          exact ⟨[], c, cs, rfl, .inr ⟨(mem_text hc).1 hb, by simpa using hm⟩⟩
        · simp at hm
      · exact ⟨[], c, cs, rfl, .inl (by simp)⟩
      · refine ⟨c :: mid, d, post, rfl, ?_⟩
        simpa using hm
    · rintro ⟨mid, d, post, he, hm⟩
      cases mid with
      | nil =>
        simp only [List.nil_append, List.cons.injEq] at he
        obtain ⟨rfl, rfl⟩ := he
        rcases hm with hm | ⟨hi, hm⟩
        · right; left; simpa using hm
        · left
          rw [if_pos ((mem_text hc).2 hi), takeWhile_text hc]
          simpa using hm
      | cons e mid =>
        simp only [List.cons_append, List.cons.injEq] at he
        obtain ⟨rfl, rfl⟩ := he
        right; right
        refine ⟨mid, d, post, rfl, ?_⟩
        simpa using hm

/-- What is put into the set of a name: the name and all that contain it — and, for an array element, the bare name of the
array *without* what contains it. -/
theorem mem_createSet (cs : List Comp) (h : ∀ c ∈ cs, c.Ok) (m : Str) :
    m ∈ createSet (path cs) ↔
      ∃ pre c post, cs = pre ++ c :: post ∧ (m = path (pre ++ [c]) ∨ (c.idx ≠ none ∧ m = c.name)) := by
  unfold createSet
  rw [items_path cs h]
  have := mem_createGo cs h [] (by simp) m
  simpa [path] using this

/-! ### Insertion -/

theorem mem_insert (s : List Str) (x m : Str) : m ∈ insert s x ↔ m ∈ s ∨ m ∈ createSet x := by
  unfold insert
  simp only [List.mem_append, List.mem_filter, Bool.not_eq_true', List.contains_eq_mem, decide_eq_false_iff_not]
  constructor
  · rintro (h | ⟨h, _⟩)
    · exact .inl h
    · exact .inr h
  · rintro (h | h)
    · exact .inl h
    · by_cases hm : m ∈ s
      · exact .inl hm
      · exact .inr ⟨h, hm⟩

theorem run_inserts (s : List Str) (xs : List (List Comp)) :
    ∃ s', run s (xs.map (fun cs => Op.insert (path cs))) = some s' ∧
      ∀ m, m ∈ s' ↔ m ∈ s ∨ ∃ cs ∈ xs, m ∈ createSet (path cs) := by
  induction xs generalizing s with
  | nil => exact ⟨s, rfl, by simp⟩
  | cons cs xs ih =>
    obtain ⟨s', h1, h2⟩ := ih (insert s (path cs))
    refine ⟨s', h1, ?_⟩
    intro m
    rw [h2, mem_insert]
    simp [or_assoc]

/-- The set of inserted names. -/
def included (xs : List (List Comp)) : List Str := xs.foldl (fun s cs => insert s (path cs)) []

theorem mem_included (xs : List (List Comp)) (m : Str) :
    m ∈ included xs ↔ ∃ cs ∈ xs, m ∈ createSet (path cs) := by
  have key : ∀ (xs : List (List Comp)) (s : List Str),
      m ∈ xs.foldl (fun s cs => insert s (path cs)) s ↔ m ∈ s ∨ ∃ cs ∈ xs, m ∈ createSet (path cs) := by
    intro xs
    induction xs with
    | nil => simp
    | cons cs xs ih =>
      intro s
      rw [List.foldl_cons, ih, mem_insert]
      simp [or_assoc]
  have := key xs []
  simpa [included] using this

/-- Only the first part of a name may be an element of an array. -/
def Flat (cs : List Comp) : Prop := ∀ c ∈ cs.tail, c.idx = none

theorem createSet_flat (cs : List Comp) (h : ∀ c ∈ cs, c.Ok) (hf : Flat cs) (m : Str) :
    m ∈ createSet (path cs) ↔ Documented cs m := by
  rw [mem_createSet cs h]
  unfold Documented
  constructor
  · rintro ⟨pre, c, post, he, hm⟩
    refine ⟨pre, c, post, he, ?_⟩
    rcases hm with hm | ⟨hi, hm⟩
    · exact .inl hm
    · right
      cases pre with
      | nil => simpa [path, Comp.bare, Comp.text] using hm
      | cons d pre =>
        subst he
        exact absurd (hf c (by simp)) hi
  · rintro ⟨pre, c, post, he, hm⟩
    refine ⟨pre, c, post, he, ?_⟩
    rcases hm with hm | hm
    · exact .inl hm
    · cases hi : c.idx with
      | none =>
        left
        have : c.bare = c := by cases c; simp_all [Comp.bare]
        rwa [this] at hm
      | some i =>
        cases pre with
        | nil => right; exact ⟨by simp, by simpa [path, Comp.bare, Comp.text] using hm⟩
        | cons d pre =>
          subst he
          have := hf c (by simp)
          rw [hi] at this
          simp at this

/-- **The filter accepts exactly the documented names** of what was inserted — if only the first part of each inserted name
is an element of an array. -/
theorem C97_accepts_documented_partial (xs : List (List Comp)) (h : ∀ cs ∈ xs, (∀ c ∈ cs, c.Ok) ∧ Flat cs) (m : Str) :
    simple (included xs) m = true ↔ ∃ cs ∈ xs, Documented cs m := by
  simp only [simple, List.contains_eq_mem, decide_eq_true_eq, mem_included]
  constructor
  · rintro ⟨cs, hcs, hm⟩
    exact ⟨cs, hcs, (createSet_flat cs (h cs hcs).1 (h cs hcs).2 m).1 hm⟩
  · rintro ⟨cs, hcs, hm⟩
    exact ⟨cs, hcs, (createSet_flat cs (h cs hcs).1 (h cs hcs).2 m).2 hm⟩

/-- The example names: `a`, `a.b`, `c[1]`. -/
def cA : Comp := ⟨['a'], none⟩
def cB : Comp := ⟨['b'], none⟩
def cC1 : Comp := ⟨['c'], some ['1']⟩

theorem ok_cA : cA.Ok := by unfold Comp.Ok cA; simp
theorem ok_cB : cB.Ok := by unfold Comp.Ok cB; simp
theorem ok_cC1 : cC1.Ok := by unfold Comp.Ok cC1; simp

example : (∀ cs ∈ [[cA, cB], [cC1, cB]], (∀ c ∈ cs, c.Ok) ∧ Flat cs) ∧
    included [[cA, cB], [cC1, cB]] =
      ["a", "a.b", "c", "c[1]", "c[1].b"].map String.toList := by
  refine ⟨?_, by decide +kernel⟩
  intro cs hcs
  simp only [List.mem_cons, List.not_mem_nil, or_false] at hcs
  rcases hcs with rfl | rfl
  · exact ⟨(by intro c hc; simp at hc; rcases hc with rfl | rfl; exact ok_cA; exact ok_cB), by intro c hc; simp at hc; subst hc; rfl⟩
  · exact ⟨(by intro c hc; simp at hc; rcases hc with rfl | rfl; exact ok_cC1; exact ok_cB), by intro c hc; simp at hc; subst hc; rfl⟩

theorem dot_mem_path {cs : List Comp} (h : 2 ≤ cs.length) : '.' ∈ path cs := by
  match cs, h with
  | c :: d :: cs, _ => simp [path]

/-- Paths determine their parts' texts. -/
theorem path_inj {cs ds : List Comp} (hc : ∀ c ∈ cs, c.Ok) (hd : ∀ c ∈ ds, c.Ok) (h : path cs = path ds) :
    cs.map Comp.text = ds.map Comp.text := by
  rw [← items_path cs hc, ← items_path ds hd, h]

/-- Violated: **the array of an inserted element is not accepted** unless it is the first part of the name.  With
`CreateSet("a.b.c[1].d")` the comment promises `a.b.c`, the code inserts `c`: the decoder asks for `a.b.c` first and never
gets to the elements (C98), while a field `c` of the topmost message is accepted. -/
theorem C97_violated_nested_array (pre : List Comp) (c : Comp) (post : List Comp)
    (h : ∀ d ∈ pre ++ c :: post, d.Ok) (hp : pre ≠ []) (hi : c.idx ≠ none) :
    simple (included [pre ++ c :: post]) (path (pre ++ [c.bare])) = false ∧
    simple (included [pre ++ c :: post]) c.name = true ∧
    Documented (pre ++ c :: post) (path (pre ++ [c.bare])) := by
  have hbare : c.bare.Ok := by
    have := h c (by simp)
    exact ⟨this.1, this.2.1, this.2.2.1, by simp [Comp.bare]⟩
  have hpb : ∀ d ∈ pre ++ [c.bare], d.Ok := by
    intro d hd
    rcases List.mem_append.1 hd with hd | hd
    · exact h d (by simp [hd])
    · rw [List.mem_singleton.1 hd]; exact hbare
  refine ⟨?_, ?_, pre, c, post, rfl, .inr rfl⟩
  · simp only [simple, List.contains_eq_mem, decide_eq_false_iff_not, mem_included, List.mem_singleton,
      exists_eq_left, mem_createSet _ h]
    rintro ⟨pre', d, post', he, hm⟩
    have hd : d ∈ pre ++ c :: post := by rw [he]; simp
    rcases hm with hm | ⟨_, hm⟩
    · have hpre' : ∀ e ∈ pre' ++ [d], e.Ok := by
        intro e hmem
        rcases List.mem_append.1 hmem with hmem | hmem
        · exact h e (by rw [he]; simp [hmem])
        · rw [List.mem_singleton.1 hmem]; exact h d hd
      have ht := path_inj hpb hpre' hm
      simp only [List.map_append, List.map_cons, List.map_nil] at ht
      have hl : pre.length = pre'.length := by
        have := congrArg List.length ht
        simpa using this
      have he' := congrArg (fun l => l[pre.length]?) he
      simp only [List.getElem?_append_right (Nat.le_refl _), Nat.sub_self, List.getElem?_cons_zero] at he'
      rw [hl] at he'
      simp only [List.getElem?_append_right (Nat.le_refl _), Nat.sub_self, List.getElem?_cons_zero, Option.some.injEq] at he'
      subst he'
      have ht' := (List.append_inj' ht rfl).2
      simp only [List.cons.injEq, and_true] at ht'
      have h1 : '[' ∉ c.bare.text := fun hb => (mem_text hbare).1 hb rfl
      rw [ht'] at h1
      exact h1 ((mem_text (h c hd)).2 hi)
    · have h1 : '.' ∈ path (pre ++ [c.bare]) := dot_mem_path (by
        cases pre with
        | nil => exact absurd rfl hp
        | cons _ _ => simp)
      rw [hm] at h1
      exact (h d hd).2.1 h1
  · simp only [simple, List.contains_eq_mem, decide_eq_true_eq, mem_included, List.mem_singleton, exists_eq_left,
      mem_createSet _ h]
    exact ⟨pre, c, post, rfl, .inr ⟨hi, rfl⟩⟩

example : (∀ d ∈ [cA, cB] ++ cC1 :: [cB], d.Ok) ∧ cC1.idx ≠ none ∧
    createSet "a.b.c[1].d".toList = ["a", "a.b", "c", "a.b.c[1]", "a.b.c[1].d"].map String.toList := by
  refine ⟨?_, by decide, by decide +kernel⟩
  intro d hd
  simp at hd
  rcases hd with rfl | rfl | rfl | rfl
  · exact ok_cA
  · exact ok_cB
  · exact ok_cC1
  · exact ok_cB

/-! ### Removal -/

theorem less_asymm : ∀ {x y : Str}, less x y = true → less y x = false
  | _, [], h => by simp [less] at h
  | [], _ :: _, _ => rfl
  | a :: x, b :: y, h => by
    simp only [less, Bool.or_eq_true, decide_eq_true_eq, Bool.and_eq_true, beq_iff_eq] at h
    simp only [less, Bool.or_eq_false_iff, decide_eq_false_iff_not, Bool.and_eq_false_iff, beq_eq_false_iff_ne]
    rcases h with h | ⟨rfl, h⟩
    · exact ⟨by omega, .inl (by rintro rfl; omega)⟩
    · exact ⟨by omega, .inr (less_asymm h)⟩

theorem less_irrefl (x : Str) : less x x = false := by
  cases h : less x x with
  | false => rfl
  | true => exact absurd (less_asymm h) (by simp [h])

theorem less_trans : ∀ {x y z : Str}, less x y = true → less y z = true → less x z = true
  | _, [], _, h, _ => by simp [less] at h
  | _, _ :: _, [], _, h => by simp [less] at h
  | [], _ :: _, _ :: _, _, _ => rfl
  | a :: x, b :: y, c :: z, h, h' => by
    simp only [less, Bool.or_eq_true, decide_eq_true_eq, Bool.and_eq_true, beq_iff_eq] at h h' ⊢
    rcases h with h | ⟨rfl, h⟩ <;> rcases h' with h' | ⟨rfl, h'⟩
    · left; omega
    · left; exact h
    · left; exact h'
    · right; exact ⟨rfl, less_trans h h'⟩

theorem less_total : ∀ (x y : Str), less x y = true ∨ x = y ∨ less y x = true
  | [], [] => by simp
  | [], _ :: _ => by simp [less]
  | _ :: _, [] => by simp [less]
  | a :: x, b :: y => by
    simp only [less, Bool.or_eq_true, decide_eq_true_eq, Bool.and_eq_true, beq_iff_eq, List.cons.injEq]
    rcases Nat.lt_trichotomy a.toNat b.toNat with h | h | h
    · exact .inl (.inl h)
    · have : a = b := Char.toNat_inj.1 h
      subst this
      rcases less_total x y with h | h | h
      · exact .inl (.inr ⟨rfl, h⟩)
      · exact .inr (.inl ⟨rfl, h⟩)
      · exact .inr (.inr (.inr ⟨rfl, h⟩))
    · exact .inr (.inr (.inl h))

/-- A name comes before the names that begin with it. -/
theorem less_of_prefix : ∀ {x y : Str}, x <+: y → x ≠ y → less x y = true
  | [], [], _, h => absurd rfl h
  | [], _ :: _, _, _ => rfl
  | a :: x, [], h, _ => by simp at h
  | a :: x, b :: y, h, hn => by
    rw [List.cons_prefix_cons] at h
    obtain ⟨rfl, h⟩ := h
    simp [less, less_of_prefix h (by rintro rfl; exact hn rfl)]

/-- What lies between a name and one that begins with it begins with it too. -/
theorem prefix_between : ∀ {x y z : Str}, x <+: y → less x z = true → less y z = false → x <+: z
  | [], _, _, _, _, _ => List.nil_prefix
  | a :: x, [], _, h, _, _ => by simp at h
  | a :: x, b :: y, [], _, h, _ => by simp [less] at h
  | a :: x, b :: y, c :: z, h, h1, h2 => by
    rw [List.cons_prefix_cons] at h
    obtain ⟨rfl, h⟩ := h
    simp only [less, Bool.or_eq_true, decide_eq_true_eq, Bool.and_eq_true, beq_iff_eq] at h1
    simp only [less, Bool.or_eq_false_iff, decide_eq_false_iff_not, Bool.and_eq_false_iff, beq_eq_false_iff_ne] at h2
    rcases h1 with h1 | ⟨rfl, h1⟩
    · exact absurd h1 h2.1
    · rcases h2.2 with h2 | h2
      · exact absurd rfl h2
      · rw [List.cons_prefix_cons]
        exact ⟨rfl, prefix_between h h1 h2⟩

theorem foldl_least (l : List Str) (a : Str) :
    l.foldl least a ∈ a :: l ∧ ∀ y ∈ a :: l, less y (l.foldl least a) = false := by
  induction l generalizing a with
  | nil => simp [less_irrefl]
  | cons b l ih =>
    obtain ⟨h1, h2⟩ := ih (least a b)
    have hl : least a b = a ∨ least a b = b := by unfold least; split <;> simp
    have hmin : less a (least a b) = false ∧ less b (least a b) = false := by
      unfold least
      split
      · rename_i h; exact ⟨less_asymm h, less_irrefl _⟩
      · rename_i h; exact ⟨less_irrefl _, by simpa using h⟩
    rw [List.foldl_cons]
    constructor
    · rcases List.mem_cons.1 h1 with h | h
      · rw [h]; rcases hl with h | h <;> simp [h]
      · simp [h]
    · have hk := h2 (least a b) (by simp)
      have le : ∀ y, less y (least a b) = false → less y (l.foldl least (least a b)) = false := by
        intro y hy
        cases hc : less y (l.foldl least (least a b)) with
        | false => rfl
        | true =>
          rcases less_total (least a b) (l.foldl least (least a b)) with h | h | h
          · rw [hk] at h; simp at h
          · rw [← h] at hc; rw [hc] at hy; simp at hy
          · rw [less_trans hc h] at hy; simp at hy
      intro y hy
      simp only [List.mem_cons] at hy
      rcases hy with rfl | rfl | hy
      · exact le _ hmin.1
      · exact le _ hmin.2
      · exact h2 y (by simp [hy])

/-- The following element begins with a name exactly if another element does. -/
theorem following_starts (s : List Str) (x : Str) :
    (∃ f, following s x = some f ∧ startsWith f x = true) ↔ ∃ y ∈ s, y ≠ x ∧ x <+: y := by
  unfold following startsWith
  constructor
  · rintro ⟨f, hf, hx⟩
    split at hf
    · simp at hf
    · rename_i a r he
      obtain rfl := Option.some.inj hf
      have hm := (foldl_least r a).1
      rw [← he] at hm
      obtain ⟨h1, h2⟩ := List.mem_filter.1 hm
      refine ⟨_, h1, ?_, List.isPrefixOf_iff_prefix.1 hx⟩
      intro e
      rw [e, less_irrefl] at h2
      simp at h2
  · rintro ⟨y, hy, hn, hx⟩
    have hm : y ∈ s.filter (less x) := List.mem_filter.2 ⟨hy, less_of_prefix hx (Ne.symm hn)⟩
    split
    · rename_i he; rw [he] at hm; simp at hm
    · rename_i a r he
      rw [he] at hm
      obtain ⟨h1, h2⟩ := foldl_least r a
      refine ⟨_, rfl, List.isPrefixOf_iff_prefix.2 ?_⟩
      have h3 := h2 y hm
      rw [← he] at h1
      exact prefix_between hx (List.mem_filter.1 h1).2 h3

theorem eraseGo_stop {s : List Str} {id : Str} (r : List Str) (h : id ∈ s) (hf : ∃ y ∈ s, y ≠ id ∧ id <+: y) :
    eraseGo s (id :: r) = some s := by
  obtain ⟨f, h1, h2⟩ := (following_starts s id).2 hf
  rw [eraseGo, if_pos h, h1]
  simp [h2]

theorem eraseGo_go {s : List Str} {id : Str} (r : List Str) (h : id ∈ s) (hf : ¬ ∃ y ∈ s, y ≠ id ∧ id <+: y) :
    eraseGo s (id :: r) = eraseGo (s.filter (· ≠ id)) r := by
  rw [← following_starts] at hf
  rw [eraseGo, if_pos h]
  cases hf' : following s id with
  | none => rfl
  | some f =>
    have : startsWith f id = false := by
      cases hs : startsWith f id with
      | false => rfl
      | true => exact absurd ⟨f, hf', hs⟩ hf
    simp [this]

theorem eraseGo_exact (l : List Str) (s : List Str) (hl : ∀ x ∈ l, x ∈ s)
    (hc : l.Pairwise (fun a b => b <+: a ∧ b ≠ a)) :
    ∃ t, eraseGo s l = some t ∧
      ∀ m, m ∈ t ↔ m ∈ s ∧ ¬ (m ∈ l ∧ ∀ y ∈ s, m <+: y → y ∈ l) := by
  induction l generalizing s with
  | nil => exact ⟨s, rfl, by simp⟩
  | cons id r ih =>
    have hid := hl id (by simp)
    rw [List.pairwise_cons] at hc
    by_cases hf : ∃ y ∈ s, y ≠ id ∧ id <+: y
    · refine ⟨s, eraseGo_stop r hid hf, ?_⟩
      intro m
      refine ⟨fun hm => ⟨hm, ?_⟩, fun hm => hm.1⟩
      rintro ⟨hml, hall⟩
      obtain ⟨y, hy, hn, hp⟩ := hf
      have hmid : m <+: id := by
        rcases List.mem_cons.1 hml with rfl | hr
        · exact List.prefix_refl _
        · exact (hc.1 m hr).1
      have hyl := hall y hy (List.IsPrefix.trans hmid hp)
      rcases List.mem_cons.1 hyl with h | h
      · exact hn h
      · have := hc.1 y h
        have e : y = id := List.IsPrefix.eq_of_length this.1 (by
          have h1 := List.IsPrefix.length_le this.1
          have h2 := List.IsPrefix.length_le hp
          omega)
        exact hn e
    · rw [eraseGo_go r hid hf]
      have hr : ∀ x ∈ r, x ∈ s.filter (· ≠ id) := by
        intro x hx
        rw [List.mem_filter]
        exact ⟨hl x (by simp [hx]), by simpa using (hc.1 x hx).2⟩
      obtain ⟨t, ht, hm⟩ := ih (s.filter (· ≠ id)) hr hc.2
      refine ⟨t, ht, ?_⟩
      intro m
      rw [hm]
      simp only [List.mem_filter, decide_eq_true_eq, List.mem_cons]
      by_cases hmid : m = id
      · subst hmid
        simp only [ne_eq, not_true_eq_false, and_false, false_and, true_or, true_and, false_iff, not_and, Classical.not_not]
        intro _ y hy hp
        by_cases hym : y = m
        · exact .inl hym
        · exact absurd ⟨y, hy, hym, hp⟩ hf
      · constructor
        · rintro ⟨⟨h1, _⟩, h2⟩
          refine ⟨h1, ?_⟩
          rintro ⟨h3, h4⟩
          refine h2 ⟨h3.resolve_left hmid, ?_⟩
          rintro y ⟨hy, hyid⟩ hp
          exact (h4 y hy hp).resolve_left hyid
        · rintro ⟨h1, h2⟩
          refine ⟨⟨h1, hmid⟩, ?_⟩
          rintro ⟨h3, h4⟩
          refine h2 ⟨.inr h3, ?_⟩
          intro y hy hp
          by_cases hyid : y = id
          · exact .inl hyid
          · exact .inr (h4 y ⟨hy, hyid⟩ hp)

theorem insertDesc_last (x : Str) (l : List Str) (h : ∀ y ∈ l, less x y = true) : insertDesc x l = l ++ [x] := by
  induction l with
  | nil => rfl
  | cons y l ih =>
    have hy := h y (by simp)
    have hne : x ≠ y := by rintro rfl; rw [less_irrefl] at hy; simp at hy
    rw [insertDesc, if_neg (by simp [less_asymm hy]), if_neg hne, ih (fun z hz => h z (by simp [hz]))]
    rfl

theorem descending_chain (l : List Str) (h : l.Pairwise (fun a b => a <+: b ∧ a ≠ b)) : descending l = l.reverse := by
  unfold descending
  induction l with
  | nil => rfl
  | cons x l ih =>
    rw [List.pairwise_cons] at h
    rw [List.foldr_cons, ih h.2, List.reverse_cons]
    apply insertDesc_last
    intro y hy
    have := h.1 y (by simpa using hy)
    exact less_of_prefix this.1 this.2

theorem createGo_chain (its : List Str) (inc : Str) (hi : ∀ it ∈ its, it ≠ [] ∧ '[' ∉ it) :
    (createGo inc its).Pairwise (fun a b => a <+: b ∧ a ≠ b) ∧ ∀ m ∈ createGo inc its, inc <+: m ∧ inc ≠ m := by
  induction its generalizing inc with
  | nil => simp [createGo]
  | cons it its ih =>
    obtain ⟨h1, h2⟩ := hi it (by simp)
    have hd : ∃ d, (if inc = [] then inc else inc ++ ['.']) ++ it = inc ++ d ∧ d ≠ [] := by
      split
      · exact ⟨it, rfl, h1⟩
      · exact ⟨'.' :: it, by simp, by simp⟩
    obtain ⟨d, hd, hdn⟩ := hd
    obtain ⟨i1, i2⟩ := ih (inc ++ d) (fun x hx => hi x (by simp [hx]))
    simp only [createGo, if_neg h2, List.nil_append, hd]
    have hself : inc <+: inc ++ d ∧ inc ≠ inc ++ d := ⟨List.prefix_append _ _, by simpa using hdn⟩
    constructor
    · rw [List.pairwise_cons]
      exact ⟨i2, i1⟩
    · intro m hm
      rcases List.mem_cons.1 hm with rfl | hm
      · exact hself
      · have := i2 m hm
        refine ⟨List.IsPrefix.trans hself.1 this.1, ?_⟩
        rintro rfl
        have hl := List.IsPrefix.length_le this.1
        have : d.length = 0 := by simp at hl; omega
        exact hdn (List.length_eq_zero_iff.1 this)

/-- Erasing a name without indices that is in the set: **removed are exactly the name and those that contain it, as far as
no other element of the set begins with the same characters**. -/
theorem C97_erase_exact_partial (s : List Str) (cs : List Comp) (h : ∀ c ∈ cs, c.Ok) (hp : ∀ c ∈ cs, c.idx = none)
    (hs : ∀ m, Documented cs m → m ∈ s) :
    ∃ t, erase s (path cs) = some t ∧
      ∀ m, simple t m = true ↔ simple s m = true ∧ ¬ (Documented cs m ∧ ∀ y ∈ s, m <+: y → Documented cs y) := by
  have hflat : Flat cs := fun c hc => hp c (List.mem_of_mem_tail hc)
  have hmem : ∀ m, m ∈ createSet (path cs) ↔ Documented cs m := createSet_flat cs h hflat
  have hch : (createSet (path cs)).Pairwise (fun a b => a <+: b ∧ a ≠ b) := by
    unfold createSet
    rw [items_path cs h]
    refine (createGo_chain _ [] ?_).1
    intro it hit
    obtain ⟨c, hc, rfl⟩ := List.mem_map.1 hit
    exact ⟨text_ne_nil (h c hc), fun hb => (mem_text (h c hc)).1 hb (hp c hc)⟩
  unfold erase
  rw [descending_chain _ hch]
  obtain ⟨t, ht, hm⟩ := eraseGo_exact (createSet (path cs)).reverse s
    (fun x hx => hs x ((hmem x).1 (by simpa using hx))) (by
      rw [List.pairwise_reverse]
      exact hch)
  refine ⟨t, ht, ?_⟩
  intro m
  simp only [simple, List.contains_eq_mem, decide_eq_true_eq, hm, List.mem_reverse, hmem]

example : (∀ c ∈ [cA, cB], c.Ok ∧ c.idx = none) ∧
    erase (included [[cA, cB], [cA, ⟨['d'], none⟩]]) (path [cA, cB]) = some (["a", "a.d"].map String.toList) := by
  refine ⟨?_, by decide +kernel⟩
  intro c hc
  simp at hc
  rcases hc with rfl | rfl
  · exact ⟨ok_cA, rfl⟩
  · exact ⟨ok_cB, rfl⟩

/-- What is not part of the erased name stays, whatever it looks like: every name that was inserted and does not contain the
erased one keeps itself and all that contain it. -/
theorem eraseGo_keeps (l s t : List Str) (h : eraseGo s l = some t) (y : Str) (hy : y ∈ s) (hyl : y ∉ l) (e : Str)
    (he : e ∈ s) (hp : e <+: y) : e ∈ t := by
  induction l generalizing s with
  | nil => simp only [eraseGo, Option.some.injEq] at h; subst h; exact he
  | cons id r ih =>
    by_cases hid : id ∈ s
    · by_cases hf : ∃ y ∈ s, y ≠ id ∧ id <+: y
      · rw [eraseGo_stop r hid hf] at h
        obtain rfl := Option.some.inj h; exact he
      · rw [eraseGo_go r hid hf] at h
        have hyid : y ≠ id := by rintro rfl; exact hyl (by simp)
        have heid : e ≠ id := by
          rintro rfl
          exact hf ⟨y, hy, hyid, hp⟩
        exact ih _ h (List.mem_filter.2 ⟨hy, by simpa using hyid⟩) (fun hm => hyl (by simp [hm]))
          (List.mem_filter.2 ⟨he, by simpa using heid⟩)
    · rw [eraseGo, if_neg hid] at h
      simp at h

theorem mem_insertDesc (x m : Str) (l : List Str) : m ∈ insertDesc x l ↔ m = x ∨ m ∈ l := by
  induction l with
  | nil => simp [insertDesc]
  | cons y l ih =>
    rw [insertDesc]
    split
    · simp
    · split
      · rename_i h; subst h; simp
      · simp only [List.mem_cons, ih]
        grind

theorem mem_descending (l : List Str) (m : Str) : m ∈ descending l ↔ m ∈ l := by
  unfold descending
  induction l with
  | nil => simp
  | cons x l ih => rw [List.foldr_cons, mem_insertDesc, ih]; simp

/-- Erasing one name leaves every other accepted that is not itself put into the set by the erased one. -/
theorem C97_erase_keeps_others (s t : List Str) (x y : Str) (h : erase s x = some t) (hy : simple s y = true)
    (hx : y ∉ createSet x) : ∀ e, e <+: y → simple s e = true → simple t e = true := by
  intro e hp he
  simp only [simple, List.contains_eq_mem, decide_eq_true_eq] at hy he ⊢
  exact eraseGo_keeps _ _ _ h y hy (fun hm => hx ((mem_descending _ _).1 hm)) e he hp

example : ∃ t, erase (included [[cA, cB], [cC1]]) "c[1]".toList = some t ∧ simple t "a".toList = true :=
  ⟨["a", "a.b"].map String.toList, by decide +kernel, by decide +kernel⟩

/-- Violated: **an erased name can stay**, because another name begins with the same characters without being part of it. -/
theorem C97_violated_erase_prefix :
    ∃ t, run [] [.insert "a.b".toList, .insert "a.bc".toList, .erase "a.b".toList] = some t ∧
      simple t "a.b".toList = true :=
  ⟨["a", "a.b", "a.bc"].map String.toList, by decide +kernel, by decide +kernel⟩

/-- Violated: **erasing a name removes another one that was inserted**, if the other one contains it. -/
theorem C97_violated_erase_parent :
    ∃ t, run [] [.insert "a.b".toList, .insert "a.b.c".toList, .erase "a.b.c".toList] = some t ∧
      simple t "a.b".toList = false :=
  ⟨[], by decide +kernel, by decide +kernel⟩

/-- Violated: **erasing is undefined behaviour if the name is not in the set** — the end iterator is advanced and erased.
This hits an application that erases exactly what it inserted, once each. -/
theorem C97_violated_erase_undefined :
    (∀ cs : List Comp, (∀ c ∈ cs, c.Ok) → cs ≠ [] → erase [] (path cs) = none) ∧
    run [] [.insert "a.b".toList, .insert "a.b.c".toList, .erase "a.b.c".toList, .erase "a.b".toList] = none := by
  refine ⟨?_, by decide +kernel⟩
  intro cs h hn
  unfold erase
  have hm : path cs ∈ descending (createSet (path cs)) := by
    rw [mem_descending, mem_createSet cs h]
    refine ⟨cs.dropLast, cs.getLast hn, [], ?_, ?_⟩
    · exact (List.dropLast_concat_getLast hn).symm
    · left; rw [List.dropLast_concat_getLast hn]
  cases hd : descending (createSet (path cs)) with
  | nil => rw [hd] at hm; simp at hm
  | cons id r => simp [eraseGo]

/-! ### Names with indices -/

theorem takeWhile_no {n r : Str} (h : '[' ∉ n) :
    (n ++ '[' :: r).takeWhile (· ≠ '[') = n ∧ (n ++ '[' :: r).dropWhile (· ≠ '[') = '[' :: r ∧
    n.takeWhile (· ≠ '[') = n ∧ n.dropWhile (· ≠ '[') = [] := by
  induction n with
  | nil => simp
  | cons a n ih =>
    have ha : a ≠ '[' := by rintro rfl; simp at h
    have := ih (fun e => h (by simp [e]))
    simp only [List.cons_append, List.takeWhile_cons, List.dropWhile_cons, ne_eq, ha, not_false_eq_true, decide_true, if_true]
    exact ⟨congrArg _ this.1, this.2.1, congrArg _ this.2.2.1, this.2.2.2⟩

theorem dropWhile_bracket {a : Char} {n : Str} (ha : a ≠ '[') : (a :: n).dropWhile (· = '[') = a :: n := by
  simp [ha]

theorem search_plain {n : Str} (hn : n ≠ []) (h : '[' ∉ n) : search n = some (n, none, []) := by
  cases n with
  | nil => exact absurd rfl hn
  | cons a n =>
    have ha : a ≠ '[' := by rintro rfl; simp at h
    unfold search
    rw [dropWhile_bracket ha]
    have := takeWhile_no (r := []) h
    simp only [this.2.2.1, this.2.2.2]
    rfl

/-- An index: a star or digits. -/
def IsIndex (i : Str) : Prop := i = ['*'] ∨ (i ≠ [] ∧ ∀ c ∈ i, c.isDigit = true)

theorem index_eq {i r : Str} (h : IsIndex i) : index ('[' :: (i ++ ']' :: r)) = some (i, r) := by
  rcases h with rfl | ⟨hn, hd⟩
  · rfl
  · have key : ∀ (j : Str), (∀ c ∈ j, c.isDigit = true) →
        (j ++ ']' :: r).takeWhile Char.isDigit = j ∧ (j ++ ']' :: r).dropWhile Char.isDigit = ']' :: r := by
      intro j hj
      induction j with
      | nil => exact ⟨rfl, rfl⟩
      | cons a j ih =>
        have ha := hj a (by simp)
        have := ih (fun c hc => hj c (by simp [hc]))
        simp [ha, this]
    cases i with
    | nil => exact absurd rfl hn
    | cons a i =>
      have ha := hd a (by simp)
      have hstar : a ≠ '*' := by rintro rfl; simp [Char.isDigit] at ha
      obtain ⟨k1, k2⟩ := key (a :: i) hd
      unfold index
      split
      · rename_i heq
        simp only [List.cons_append, List.cons.injEq] at heq
        exact absurd heq.2.1 hstar
      · rename_i r' _ heq
        obtain rfl : a :: i ++ ']' :: r = r' := (List.cons.inj heq).2
        simp only [k1, k2, if_neg hn]
      · rename_i h1 h2
        exact absurd rfl (h2 _)

theorem search_index {n i r : Str} (hn : n ≠ []) (h : '[' ∉ n) (hi : IsIndex i) :
    search (n ++ '[' :: (i ++ ']' :: r)) = some (n, some i, r) := by
  cases n with
  | nil => exact absurd rfl hn
  | cons a n =>
    have ha : a ≠ '[' := by rintro rfl; simp at h
    unfold search
    rw [List.cons_append, dropWhile_bracket ha, ← List.cons_append]
    have := takeWhile_no (r := i ++ ']' :: r) h
    simp only [List.cons_append] at this ⊢
    simp only [this.1, this.2.1, index_eq hi]

/-- A name without indices is accepted by the complex filter exactly if it is in the set. -/
theorem C97_complex_plain (s : List Str) (n : Str) (hn : n ≠ []) (h : '[' ∉ n) : complex s n = simple s n := by
  unfold complex simple
  rw [complexGo, search_plain hn h]
  simp

/-- **A name with one index** is accepted exactly if the set has the same name, or, when it does not have this element of the
array, the name with a star. -/
theorem C97_complex_one_index (s : List Str) (n i r : Str) (hn : n ≠ []) (h : '[' ∉ n) (hstar : n ≠ ['*']) (hi : IsIndex i)
    (hr : '[' ∉ r) :
    complex s (n ++ '[' :: (i ++ ']' :: r)) = true ↔
      (n ++ '[' :: (i ++ [']']) ∈ s ∧ (r = [] ∨ n ++ '[' :: (i ++ ']' :: r) ∈ s)) ∨
      (n ++ '[' :: (i ++ [']']) ∉ s ∧ n ++ "[*]".toList ∈ s ∧ (r = [] ∨ n ++ "[*]".toList ++ r ∈ s)) := by
  have two : ∀ k find, complexGo s (k + 1) find r = true ↔ (r = [] ∨ find ++ r ∈ s) := by
    intro k find
    by_cases hr0 : r = []
    · subst hr0; simp [complexGo, search]
    · rw [complexGo, search_plain hr0 hr]
      simp [hr0]
  obtain ⟨k, hk⟩ : ∃ k, (n ++ '[' :: (i ++ ']' :: r)).length + 1 = k + 2 := by
    refine ⟨(n ++ '[' :: (i ++ ']' :: r)).length - 1, ?_⟩
    simp; omega
  unfold complex
  rw [hk, complexGo, search_index hn h hi]
  have hs : (n == ['*']) = false := by simpa using hstar
  simp only [hs, Bool.not_false, Bool.true_and, List.nil_append, List.contains_eq_mem, decide_eq_true_eq]
  have e1 : n ++ ['['] ++ i ++ [']'] = n ++ '[' :: (i ++ [']']) := by simp
  rw [e1]
  by_cases h1 : n ++ '[' :: (i ++ [']']) ∈ s
  · rw [if_pos h1, two]
    simp [h1]
  · rw [if_neg h1]
    by_cases h2 : n ++ "[*]".toList ∈ s
    · rw [if_pos h2, two]
      simp only [h1, h2, not_false_eq_true, true_and, false_and, false_or]
    · rw [if_neg h2]
      simp only [h1, h2, false_and, and_false, or_self, Bool.false_eq_true]

example : IsIndex ['7'] ∧ complex (included [[⟨['c'], some ['*']⟩, cB]]) "c[7].b".toList = true := by
  refine ⟨.inr ⟨by simp, by simp⟩, by decide +kernel⟩

/-- Violated: **a name with two indices is never accepted**, not even if exactly this name was inserted: what was found is
appended to itself. -/
theorem C97_violated_two_indices (n1 i1 n2 i2 n3 : Str)
    (h1 : (Comp.mk n1 (some i1)).Ok) (h2 : (Comp.mk n2 (some i2)).Ok) (h3 : (Comp.mk n3 none).Ok)
    (hi1 : IsIndex i1) (hi2 : IsIndex i2) (hs : n1 ≠ ['*']) :
    simple (included [[⟨n1, some i1⟩, ⟨n2, some i2⟩, ⟨n3, none⟩]]) (path [⟨n1, some i1⟩, ⟨n2, some i2⟩, ⟨n3, none⟩]) = true ∧
    complex (included [[⟨n1, some i1⟩, ⟨n2, some i2⟩, ⟨n3, none⟩]]) (path [⟨n1, some i1⟩, ⟨n2, some i2⟩, ⟨n3, none⟩]) =
      false := by
  have hok : ∀ c ∈ [(⟨n1, some i1⟩ : Comp), ⟨n2, some i2⟩, ⟨n3, none⟩], c.Ok := by
    intro c hc
    simp only [List.mem_cons, List.not_mem_nil, or_false] at hc
    rcases hc with rfl | rfl | rfl <;> assumption
  have hmem : ∀ m, m ∈ included [[⟨n1, some i1⟩, ⟨n2, some i2⟩, ⟨n3, none⟩]] ↔
      m ∈ createSet (path [⟨n1, some i1⟩, ⟨n2, some i2⟩, ⟨n3, none⟩]) := by
    intro m; rw [mem_included]; simp
  have hself : path [⟨n1, some i1⟩, ⟨n2, some i2⟩, ⟨n3, none⟩] ∈
      included [[⟨n1, some i1⟩, ⟨n2, some i2⟩, ⟨n3, none⟩]] := by
    rw [hmem, mem_createSet _ hok]
    exact ⟨[⟨n1, some i1⟩, ⟨n2, some i2⟩], ⟨n3, none⟩, [], rfl, .inl rfl⟩
  have ha : n1 ++ '[' :: (i1 ++ [']']) ∈ included [[⟨n1, some i1⟩, ⟨n2, some i2⟩, ⟨n3, none⟩]] := by
    rw [hmem, mem_createSet _ hok]
    exact ⟨[], ⟨n1, some i1⟩, _, rfl, .inl (by simp [path, Comp.text])⟩
  have hb : n1 ++ '[' :: (i1 ++ ']' :: '.' :: (n2 ++ '[' :: (i2 ++ [']']))) ∈
      included [[⟨n1, some i1⟩, ⟨n2, some i2⟩, ⟨n3, none⟩]] := by
    rw [hmem, mem_createSet _ hok]
    exact ⟨[⟨n1, some i1⟩], ⟨n2, some i2⟩, _, rfl, .inl (by simp [path, Comp.text])⟩
  have hlen : ∀ m ∈ included [[⟨n1, some i1⟩, ⟨n2, some i2⟩, ⟨n3, none⟩]],
      m.length ≤ (path [⟨n1, some i1⟩, ⟨n2, some i2⟩, ⟨n3, none⟩]).length := by
    intro m hm
    rw [hmem, mem_createSet _ hok] at hm
    obtain ⟨pre, c, post, he, hm⟩ := hm
    match pre, he with
    | [], he =>
      simp only [List.nil_append, List.cons.injEq] at he
      obtain ⟨rfl, rfl⟩ := he
      rcases hm with rfl | ⟨_, rfl⟩ <;> (simp [path, Comp.text]; try omega)
    | [p], he =>
      simp only [List.cons_append, List.nil_append, List.cons.injEq] at he
      obtain ⟨rfl, rfl, rfl⟩ := he
      rcases hm with rfl | ⟨_, rfl⟩ <;> (simp [path, Comp.text]; try omega)
    | [p, q], he =>
      simp only [List.cons_append, List.nil_append, List.cons.injEq] at he
      obtain ⟨rfl, rfl, rfl, rfl⟩ := he
      rcases hm with rfl | ⟨hm, _⟩
      · simp [path, Comp.text]
      · simp at hm
    | p :: q :: r :: l, he =>
      simp at he
  refine ⟨by simpa [simple] using hself, ?_⟩
  generalize included [[⟨n1, some i1⟩, ⟨n2, some i2⟩, ⟨n3, none⟩]] = s at *
  have hname : path [⟨n1, some i1⟩, ⟨n2, some i2⟩, ⟨n3, none⟩] =
      n1 ++ '[' :: (i1 ++ ']' :: (('.' :: n2) ++ '[' :: (i2 ++ ']' :: ('.' :: n3)))) := by
    simp [path, Comp.text]
  unfold complex
  obtain ⟨k, hk⟩ : ∃ k, (path [⟨n1, some i1⟩, ⟨n2, some i2⟩, ⟨n3, none⟩]).length + 1 = k + 3 := by
    refine ⟨(path [⟨n1, some i1⟩, ⟨n2, some i2⟩, ⟨n3, none⟩]).length - 2, ?_⟩
    rw [hname]; simp; omega
  rw [hk, hname, complexGo, search_index h1.1 h1.2.2.1 hi1]
  have e1 : (n1 == ['*']) = false := by simpa using hs
  have t1 : [] ++ n1 ++ ['['] ++ i1 ++ [']'] = n1 ++ '[' :: (i1 ++ [']']) := by simp
  simp only [e1, Bool.not_false, Bool.true_and, List.contains_eq_mem, decide_eq_true_eq, t1]
  rw [if_pos ha, complexGo, search_index (n := '.' :: n2) (by simp) (by
    intro hb
    rcases List.mem_cons.1 hb with hb | hb
    · simp at hb
    · exact h2.2.2.1 hb) hi2]
  have e2 : ('.' :: n2 == ['*']) = false := by simp
  have t2 : [] ++ (n1 ++ '[' :: (i1 ++ [']'])) ++ ('.' :: n2) ++ ['['] ++ i2 ++ [']'] =
      n1 ++ '[' :: (i1 ++ ']' :: '.' :: (n2 ++ '[' :: (i2 ++ [']']))) := by simp
  simp only [e2, Bool.not_false, Bool.true_and, List.contains_eq_mem, decide_eq_true_eq, t2]
  rw [if_pos hb, complexGo, search_plain (n := '.' :: n3) (by simp) (by
    intro hb
    rcases List.mem_cons.1 hb with hb | hb
    · simp at hb
    · exact h3.2.2.1 hb)]
  simp only [List.contains_eq_mem, decide_eq_false_iff_not]
  intro hm
  have := hlen _ hm
  rw [hname] at this
  simp at this
  omega

example : (∀ c ∈ [(⟨['a'], some ['1']⟩ : Comp), ⟨['b'], some ['*']⟩, ⟨['c'], none⟩], c.Ok) ∧ IsIndex ['1'] ∧ IsIndex ['*'] := by
  refine ⟨?_, .inr ⟨by simp, by simp⟩, .inl rfl⟩
  intro c hc
  simp only [List.mem_cons, List.not_mem_nil, or_false] at hc
  rcases hc with rfl | rfl | rfl <;> simp [Comp.Ok]

/-- Violated: "any combination of indices and stars": **an index hides the star**.  `a[*].y` covers `a[1].y`, but once any
element of `a[1]` is inserted as well it is rejected. -/
theorem C97_violated_index_hides_star :
    complex (included [[⟨['a'], some ['*']⟩, ⟨['y'], none⟩]]) "a[1].y".toList = true ∧
    complex (included [[⟨['a'], some ['*']⟩, ⟨['y'], none⟩], [⟨['a'], some ['1']⟩, ⟨['x'], none⟩]]) "a[1].y".toList = false := by
  constructor <;> decide +kernel

end Ecal.Proto.Filter
