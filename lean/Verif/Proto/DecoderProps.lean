import Verif.Proto.Decoder
import Verif.Proto.FilterProps

/-!
# Properties of walking through a message (C98)
-/

namespace Ecal.Proto.Decoder

open Ecal.Proto.Filter

/-- The values a visitor gets, with their complete names. -/
def value : Ev → Option (Str × Nat)
  | .scalar n g v => some (complete n g, v)
  | .element n g i v => some (indexed (complete n g) i, v)
  | _ => none

def values (es : List Ev) : List (Str × Nat) := es.filterMap value

/-- An element of an array. -/
def at_ (n : Str) (i : Nat) : Comp := ⟨n, some (toString i).toList⟩

/-- A field. -/
def fld (n : Str) : Comp := ⟨n, none⟩

mutual
/-- All values of a message with the way that leads to them. -/
def leavesF : Fields → List (List Comp × Nat)
  | .nil => []
  | .cons n v r => leavesV n v ++ leavesF r
def leavesV (n : Str) : Val → List (List Comp × Nat)
  | .one v => [([fld n], v)]
  | .many vs => leavesM n 0 vs
  | .sub m => (leavesF m).map (fun l => (fld n :: l.1, l.2))
  | .empty => []
  | .subs ms => leavesE n 0 ms
def leavesE (n : Str) (i : Nat) : Elems → List (List Comp × Nat)
  | .nil => []
  | .cons m r => (leavesF m).map (fun l => (at_ n i :: l.1, l.2)) ++ leavesE n (i + 1) r
  | .skip r => leavesE n (i + 1) r
def leavesM (n : Str) (i : Nat) : List Nat → List (List Comp × Nat)
  | [] => []
  | v :: vs => ([at_ n i], v) :: leavesM n (i + 1) vs
end

/-- The visitor wants the value at the end of a way: it accepts every field on it, and of an array the whole or the element. -/
def Wanted (acc : Str → Bool) (root cs : List Comp) : Prop :=
  ∀ pre c post, cs = pre ++ c :: post →
    acc (path (root ++ pre ++ [c.bare])) = true ∧
    (c.idx ≠ none → acc (path (root ++ pre ++ [⟨c.name, some ['*']⟩])) = true ∨ acc (path (root ++ pre ++ [c])) = true)

/-- `Wanted` computed part by part. -/
def guard (acc : Str → Bool) (pre : List Comp) : List Comp → Bool
  | [] => true
  | c :: cs =>
    acc (path (pre ++ [c.bare])) &&
    (c.idx.isNone || acc (path (pre ++ [⟨c.name, some ['*']⟩])) || acc (path (pre ++ [c]))) && guard acc (pre ++ [c]) cs

theorem guard_iff (acc : Str → Bool) (root cs : List Comp) : guard acc root cs = true ↔ Wanted acc root cs := by
  induction cs generalizing root with
  | nil => simp [guard, Wanted]
  | cons c cs ih =>
    rw [guard, Bool.and_eq_true, Bool.and_eq_true, ih]
    constructor
    · rintro ⟨⟨h1, h2⟩, h3⟩ pre d post he
      cases pre with
      | nil =>
        simp only [List.nil_append, List.cons.injEq] at he
        obtain ⟨rfl, rfl⟩ := he
        refine ⟨by simpa using h1, ?_⟩
        intro hi
        have : c.idx.isNone = false := by cases hc : c.idx <;> simp_all
        simpa [this] using h2
      | cons e pre =>
        simp only [List.cons_append, List.cons.injEq] at he
        obtain ⟨rfl, rfl⟩ := he
        have := h3 pre d post rfl
        simpa using this
    · intro h
      refine ⟨⟨by simpa using (h [] c cs rfl).1, ?_⟩, ?_⟩
      · have := (h [] c cs rfl).2
        cases hi : c.idx with
        | none => rfl
        | some i => simpa [hi] using this
      · intro pre d post he
        have := h (c :: pre) d post (by rw [he]; rfl)
        simpa using this

mutual
/-- Every field has a name. -/
def NamedF : Fields → Prop
  | .nil => True
  | .cons n v r => n ≠ [] ∧ NamedV v ∧ NamedF r
def NamedV : Val → Prop
  | .one _ | .many _ | .empty => True
  | .sub m => NamedF m
  | .subs ms => NamedE ms
def NamedE : Elems → Prop
  | .nil => True
  | .cons m r => NamedF m ∧ NamedE r
  | .skip r => NamedE r
end

/-- Parts that have a name have a text. -/
def Named (pre : List Comp) : Prop := ∀ c ∈ pre, c.text ≠ []

theorem path_named {pre : List Comp} (h : Named pre) : path pre = [] ↔ pre = [] := by
  constructor
  · intro hp
    match pre, h with
    | [], _ => rfl
    | [c], h => exact absurd hp (h c (by simp))
    | c :: d :: cs, _ => simp [path] at hp
  · rintro rfl; rfl

theorem complete_path {pre : List Comp} (h : Named pre) (c : Comp) : complete c.text (path pre) = path (pre ++ [c]) := by
  rw [path_snoc]
  unfold complete
  by_cases hn : pre = []
  · subst hn; rfl
  · rw [if_neg hn, if_neg (fun e => hn ((path_named h).1 e))]

theorem at_text (n : Str) (i : Nat) : (at_ n i).text = indexed n i := rfl
theorem fld_text (n : Str) : (fld n).text = n := rfl

theorem snoc_named {pre : List Comp} {c : Comp} (h : Named pre) (hc : c.text ≠ []) : Named (pre ++ [c]) := by
  intro d hd
  rcases List.mem_append.1 hd with hd | hd
  · exact h d hd
  · rw [List.mem_singleton.1 hd]; exact hc

theorem indexed_path {pre : List Comp} (n : Str) (i : Nat) :
    indexed (path (pre ++ [fld n])) i = path (pre ++ [at_ n i]) := by
  rw [path_snoc, path_snoc]
  by_cases hn : pre = []
  · simp [hn, fld_text, at_text]
  · simp [hn, fld_text, at_text, indexed]

theorem star_path {pre : List Comp} (n : Str) :
    path (pre ++ [fld n]) ++ "[*]".toList = path (pre ++ [⟨n, some ['*']⟩]) := by
  rw [path_snoc, path_snoc]
  by_cases hn : pre = []
  · simp [hn, fld, Comp.text]
  · simp [hn, fld, Comp.text]

theorem values_append (a b : List Ev) : values (a ++ b) = values a ++ values b := List.filterMap_append

/-- What the visitor should get below `pre`. -/
def want (acc : Str → Bool) (pre : List Comp) (ls : List (List Comp × Nat)) : List (Str × Nat) :=
  (ls.filter (fun l => guard acc pre l.1)).map (fun l => (path (pre ++ l.1), l.2))

theorem want_append (acc : Str → Bool) (pre : List Comp) (a b : List (List Comp × Nat)) :
    want acc pre (a ++ b) = want acc pre a ++ want acc pre b := by
  simp [want]

theorem want_cons_map (acc : Str → Bool) (pre : List Comp) (c : Comp) (ls : List (List Comp × Nat)) :
    want acc pre (ls.map (fun l => (c :: l.1, l.2))) =
      if acc (path (pre ++ [c.bare])) &&
        (c.idx.isNone || acc (path (pre ++ [⟨c.name, some ['*']⟩])) || acc (path (pre ++ [c]))) then
        want acc (pre ++ [c]) ls else [] := by
  unfold want
  induction ls with
  | nil => simp
  | cons l ls ih =>
    simp only [List.map_cons, List.filter_cons, guard]
    split at ih
    · rename_i h
      simp only [h, Bool.true_and, if_true] at ih ⊢
      split
      · rw [List.map_cons, List.map_cons, ih]; simp
      · exact ih
    · rename_i h
      have h' : (acc (path (pre ++ [c.bare])) &&
        (c.idx.isNone || acc (path (pre ++ [⟨c.name, some ['*']⟩])) || acc (path (pre ++ [c])))) = false := Bool.eq_false_iff.2 h
      simp only [h', Bool.false_and] at ih ⊢
      simpa using ih

theorem want_none (acc : Str → Bool) (pre : List Comp) (n : Str) (h : acc (path (pre ++ [fld n])) = false)
    (ls : List (List Comp × Nat)) (hl : ∀ l ∈ ls, ∃ c cs, l.1 = c :: cs ∧ c.bare = fld n) : want acc pre ls = [] := by
  unfold want
  rw [List.filter_eq_nil_iff.2, List.map_nil]
  intro l hm
  obtain ⟨c, cs, he, hb⟩ := hl l hm
  rw [he, guard, hb, h]
  simp

theorem leavesM_head (n : Str) (i : Nat) (vs : List Nat) :
    ∀ l ∈ leavesM n i vs, ∃ c cs, l.1 = c :: cs ∧ c.bare = fld n := by
  induction vs generalizing i with
  | nil => simp [leavesM]
  | cons v vs ih =>
    intro l hl
    rw [leavesM] at hl
    rcases List.mem_cons.1 hl with rfl | hl
    · exact ⟨_, _, rfl, rfl⟩
    · exact ih _ l hl

theorem leavesE_head (n : Str) (i : Nat) (ms : Elems) :
    ∀ l ∈ leavesE n i ms, ∃ c cs, l.1 = c :: cs ∧ c.bare = fld n := by
  match ms with
  | .nil => simp [leavesE]
  | .cons m r =>
    intro l hl
    rw [leavesE] at hl
    rcases List.mem_append.1 hl with hl | hl
    · obtain ⟨x, _, rfl⟩ := List.mem_map.1 hl
      exact ⟨_, _, rfl, rfl⟩
    · exact leavesE_head n (i + 1) r l hl
  | .skip r =>
    intro l hl
    rw [leavesE] at hl
    exact leavesE_head n (i + 1) r l hl

theorem leavesV_head (n : Str) (v : Val) : ∀ l ∈ leavesV n v, ∃ c cs, l.1 = c :: cs ∧ c.bare = fld n := by
  intro l hl
  cases v with
  | one v => simp only [leavesV, List.mem_singleton] at hl; subst hl; exact ⟨_, _, rfl, rfl⟩
  | many vs => exact leavesM_head n 0 vs l (by simpa [leavesV] using hl)
  | sub m =>
    rw [leavesV] at hl
    obtain ⟨x, _, rfl⟩ := List.mem_map.1 hl
    exact ⟨_, _, rfl, rfl⟩
  | empty => simp [leavesV] at hl
  | subs ms => exact leavesE_head n 0 ms l (by simpa [leavesV] using hl)

theorem values_many (acc : Str → Bool) (pre : List Comp) (hp : Named pre) (n : Str) (ha : acc (path (pre ++ [fld n])) = true)
    (i : Nat) (vs : List Nat) :
    values (many acc (acc (path (pre ++ [fld n]) ++ "[*]".toList)) n (path pre) i vs) = want acc pre (leavesM n i vs) := by
  induction vs generalizing i with
  | nil => simp [many, leavesM, want, values]
  | cons v vs ih =>
    rw [many, values_append, ih, leavesM]
    have hc : complete n (path pre) = path (pre ++ [fld n]) := complete_path hp (fld n)
    rw [hc, indexed_path, star_path]
    have hsplit : want acc pre (([at_ n i], v) :: leavesM n (i + 1) vs) =
        want acc pre [([at_ n i], v)] ++ want acc pre (leavesM n (i + 1) vs) := want_append acc pre [_] _
    rw [hsplit]
    congr 1
    have hb : (at_ n i).bare = fld n := rfl
    have hi : (at_ n i).idx.isNone = false := rfl
    have hname : (at_ n i).name = n := rfl
    simp only [want, List.filter_cons, List.filter_nil, guard, hb, ha, hi, hname, Bool.true_and, Bool.false_or, Bool.and_true]
    split
    · simp [values, value, hc, indexed_path]
    · simp [values]

mutual
theorem values_fields (acc : Str → Bool) (pre : List Comp) (hp : Named pre) (m : Fields) (hm : NamedF m) :
    values (fields acc (path pre) m) = want acc pre (leavesF m) := by
  match m, hm with
  | .nil, _ => simp [fields, leavesF, want, values]
  | .cons n v r, hm =>
    rw [NamedF] at hm
    obtain ⟨h1, h2, h3⟩ := hm
    rw [fields, leavesF, values_append, want_append, values_fields acc pre hp r h3]
    congr 1
    have hc : complete n (path pre) = path (pre ++ [fld n]) := complete_path hp (fld n)
    rw [hc]
    by_cases ha : acc (path (pre ++ [fld n])) = true
    · rw [if_pos ha]
      exact values_val acc pre hp n h1 ha v h2
    · rw [if_neg ha, want_none acc pre n (by simpa using ha) _ (leavesV_head n v)]
      rfl

theorem values_val (acc : Str → Bool) (pre : List Comp) (hp : Named pre) (n : Str) (hn : n ≠ [])
    (ha : acc (path (pre ++ [fld n])) = true) (v : Val) (hv : NamedV v) :
    values (val acc n (path pre) v) = want acc pre (leavesV n v) := by
  have hc : complete n (path pre) = path (pre ++ [fld n]) := complete_path hp (fld n)
  match v, hv with
  | .one v, _ =>
    have hb : (fld n).bare = fld n := rfl
    have hi : (fld n).idx.isNone = true := rfl
    simp [val, leavesV, values, value, want, guard, hb, hi, ha, hc]
  | .many vs, _ =>
    rw [val, leavesV, hc, ← values_many acc pre hp n ha]
    simp [values, value, List.filterMap_append, List.filterMap_cons]
  | .sub m, hv =>
    rw [NamedV] at hv
    have hpre := snoc_named hp (c := fld n) hn
    have := values_fields acc (pre ++ [fld n]) hpre m hv
    rw [val, leavesV, want_cons_map, hc]
    have hb : (fld n).bare = fld n := rfl
    have hi : (fld n).idx.isNone = true := rfl
    rw [hb, hi, ha]
    simp only [Bool.true_or, Bool.and_self, if_true]
    rw [← this]
    simp [values, value, List.filterMap_append, List.filterMap_cons]
  | .empty, _ => simp [val, leavesV, want, values]
  | .subs ms, hv =>
    rw [NamedV] at hv
    have := values_elems acc pre hp n hn ha 0 ms hv
    rw [val, leavesV, hc, ← this]
    simp [values, value, List.filterMap_append, List.filterMap_cons]

theorem values_elems (acc : Str → Bool) (pre : List Comp) (hp : Named pre) (n : Str) (hn : n ≠ [])
    (ha : acc (path (pre ++ [fld n])) = true) (i : Nat) (ms : Elems) (hm : NamedE ms) :
    values (elems acc (acc (path (pre ++ [fld n]) ++ "[*]".toList)) n (path pre) i ms) = want acc pre (leavesE n i ms) := by
  match ms, hm with
  | .nil, _ => simp [elems, leavesE, want, values]
  | .cons m r, hm =>
    rw [NamedE] at hm
    have hc : complete n (path pre) = path (pre ++ [fld n]) := complete_path hp (fld n)
    have hc' : complete (indexed n i) (path pre) = path (pre ++ [at_ n i]) := complete_path hp (at_ n i)
    have hpre := snoc_named hp (c := at_ n i) (by simp [at_text, indexed])
    have ih := values_fields acc (pre ++ [at_ n i]) hpre m hm.1
    rw [elems, leavesE, values_append, want_append, values_elems acc pre hp n hn ha (i + 1) r hm.2, want_cons_map, hc, hc',
      indexed_path, star_path]
    congr 1
    have hb : (at_ n i).bare = fld n := rfl
    have hi : (at_ n i).idx.isNone = false := rfl
    have hname : (at_ n i).name = n := rfl
    rw [hb, hi, hname, ha]
    simp only [Bool.true_and, Bool.false_or]
    split
    · rw [← ih]
      simp [values, value, List.filterMap_append, List.filterMap_cons]
    · rfl
  | .skip r, hm =>
    rw [NamedE] at hm
    rw [elems, leavesE, values_elems acc pre hp n hn ha (i + 1) r hm]
end

/-- **The visitor gets exactly the values it wants**, in the order of the message, each with its complete name. -/
theorem C98_exact (acc : Str → Bool) (root : List Comp) (hr : root = [] ∨ ∃ c, root = [c] ∧ c.text ≠ []) (m : Fields)
    (hm : NamedF m) :
    values (decode acc (path root) m) =
      ((leavesF m).filter (fun l => guard acc root l.1)).map (fun l => (path (root ++ l.1), l.2)) ∧
    ∀ cs, guard acc root cs = true ↔ Wanted acc root cs := by
  refine ⟨?_, guard_iff acc root⟩
  have hp : Named root := by
    rcases hr with rfl | ⟨c, rfl, hc⟩
    · intro c hc; simp at hc
    · intro d hd; rw [List.mem_singleton.1 hd]; exact hc
  have hc : complete (path root) [] = path root := by simp [complete]
  unfold decode
  rw [hc]
  have := values_fields acc root hp m hm
  rw [want] at this
  rw [← this]
  simp [values, value, List.filterMap_append, List.filterMap_cons]

/-- A visitor that accepts everything gets every value once. -/
theorem C98_no_filter (root : List Comp) (hr : root = [] ∨ ∃ c, root = [c] ∧ c.text ≠ []) (m : Fields) (hm : NamedF m) :
    values (decode (fun _ => true) (path root) m) = (leavesF m).map (fun l => (path (root ++ l.1), l.2)) := by
  rw [(C98_exact _ root hr m hm).1]
  have : ∀ cs pre, guard (fun _ => true) pre cs = true := by
    intro cs
    induction cs with
    | nil => intro _; rfl
    | cons c cs ih => intro pre; simp [guard, ih]
  rw [List.filter_eq_self.2 (fun l _ => this l.1 root)]

/-- The message of the examples: `{ a: 7, b: { c: [8, 9] }, d: [ {}, { e: 1 } ] }`. -/
def demo : Fields :=
  .cons ['a'] (.one 7) (.cons ['b'] (.sub (.cons ['c'] (.many [8, 9]) .nil))
    (.cons ['d'] (.subs (.skip (.cons (.cons ['e'] (.one 1) .nil) .nil))) .nil))

example : NamedF demo ∧ values (decode (fun _ => true) "t".toList demo) =
    [("t.a".toList, 7), ("t.b.c[0]".toList, 8), ("t.b.c[1]".toList, 9), ("t.d[1].e".toList, 1)] := by
  refine ⟨?_, by decide +kernel⟩
  simp [demo, NamedF, NamedV, NamedE]

/-! ### Starts and ends match -/

/-- What is open. -/
inductive Open where
  | message (array : Bool)
  | array
deriving DecidableEq

/-- A visitor that keeps track of what is open; `none`: something else was closed than was opened last. -/
def track : List Open → List Ev → Option (List Open)
  | st, [] => some st
  | st, .messageStart a _ _ :: es => track (.message a :: st) es
  | st, .arrayStart _ _ _ :: es => track (.array :: st) es
  | .message b :: st, .messageEnd a :: es => if a = b then track st es else none
  | .array :: st, .arrayEnd :: es => track st es
  | .array :: st, .element _ _ _ _ :: es => track (.array :: st) es
  | .message b :: st, .scalar _ _ _ :: es => track (.message b :: st) es
  | _, _ :: _ => none

theorem track_append (st st' : List Open) (a b : List Ev) (h : track st a = some st') : track st (a ++ b) = track st' b := by
  induction a generalizing st with
  | nil => simp only [track, Option.some.injEq] at h; subst h; rfl
  | cons e a ih =>
    rw [List.cons_append]
    cases e <;> (try cases st) <;> (try rename_i o _ ; cases o) <;> simp only [track] at h ⊢ <;> grind

theorem track_many (acc : Str → Bool) (all : Bool) (n g : Str) (i : Nat) (vs : List Nat) (st : List Open) :
    track (.array :: st) (many acc all n g i vs) = some (.array :: st) := by
  induction vs generalizing i with
  | nil => rfl
  | cons v vs ih =>
    rw [many]
    split
    · simpa [track] using ih (i + 1)
    · simpa using ih (i + 1)

mutual
theorem track_fields (acc : Str → Bool) (g : Str) (m : Fields) (b : Bool) (st : List Open) :
    track (.message b :: st) (fields acc g m) = some (.message b :: st) := by
  match m with
  | .nil => rfl
  | .cons n v r =>
    rw [fields]
    split
    · rw [track_append _ _ _ _ (track_val acc n g v b st)]
      exact track_fields acc g r b st
    · exact track_fields acc g r b st
theorem track_val (acc : Str → Bool) (n g : Str) (v : Val) (b : Bool) (st : List Open) :
    track (.message b :: st) (val acc n g v) = some (.message b :: st) := by
  match v with
  | .one v => rfl
  | .many vs =>
    rw [val, List.cons_append, track, track_append _ _ _ _ (track_many acc _ n g 0 vs _)]
    rfl
  | .sub m =>
    rw [val, List.cons_append, track, track_append _ _ _ _ (track_fields acc _ m false _)]
    simp [track]
  | .empty => rfl
  | .subs ms =>
    rw [val, List.cons_append, track, track_append _ _ _ _ (track_elems acc _ n g 0 ms _)]
    rfl
theorem track_elems (acc : Str → Bool) (all : Bool) (n g : Str) (i : Nat) (ms : Elems) (st : List Open) :
    track (.array :: st) (elems acc all n g i ms) = some (.array :: st) := by
  match ms with
  | .nil => rfl
  | .cons m r =>
    rw [elems]
    split
    · rw [List.cons_append, List.cons_append, track, List.append_assoc,
        track_append _ _ _ _ (track_fields acc _ m true _)]
      simpa [track] using track_elems acc all n g (i + 1) r st
    · exact track_elems acc all n g (i + 1) r st
  | .skip r => exact track_elems acc all n g (i + 1) r st
end

/-- **Whatever is opened is closed**, the innermost first; scalars are reported in messages and elements in arrays. -/
theorem C98_balanced (acc : Str → Bool) (name : Str) (m : Fields) : track [] (decode acc name m) = some [] := by
  unfold decode
  rw [List.cons_append, track, track_append _ _ _ _ (track_fields acc _ m false [])]
  simp [track]

example : (decode (fun _ => true) [] demo).length = 14 := by decide +kernel

/-! ### Each value has its own name -/

mutual
/-- The names of the fields of a message differ and are names. -/
def DistinctF : Fields → Prop
  | .nil => True
  | .cons n v r => (fld n).Ok ∧ n ∉ r.names ∧ DistinctV v ∧ DistinctF r
def DistinctV : Val → Prop
  | .one _ | .many _ | .empty => True
  | .sub m => DistinctF m
  | .subs ms => DistinctE ms
def DistinctE : Elems → Prop
  | .nil => True
  | .cons m r => DistinctF m ∧ DistinctE r
  | .skip r => DistinctE r
/-- The names of the fields. -/
def Fields.names : Fields → List Str
  | .nil => []
  | .cons n _ r => n :: r.names
end

theorem digits_only (n : Nat) (c : Char) (hc : c.isDigit = false) : c ∉ (toString n).toList := by
  intro h
  have hd : (toString n).toList = Nat.toDigits 10 n := by
    show (String.ofList (Nat.toDigits 10 n)).toList = _
    simp
  rw [hd] at h
  have := Nat.isDigit_of_mem_toDigits (by decide) (by decide) h
  rw [this] at hc
  simp at hc

theorem at_inj {n : Str} {i j : Nat} (h : at_ n i = at_ n j) : i = j := by
  have hd : ∀ n : Nat, (toString n).toList = Nat.toDigits 10 n := by
    intro n
    show (String.ofList (Nat.toDigits 10 n)).toList = _
    simp
  simp only [at_, Comp.mk.injEq, Option.some.injEq, true_and, hd] at h
  rw [← Nat.ofDigitChars_ten_toDigits (n := i), ← Nat.ofDigitChars_ten_toDigits (n := j), h]

theorem at_ok {n : Str} (h : (fld n).Ok) (i : Nat) : (at_ n i).Ok := by
  obtain ⟨h1, h2, h3, _⟩ := h
  refine ⟨h1, h2, h3, ?_⟩
  intro x hx
  have : x = (toString i).toList := by simpa [at_] using hx.symm
  rw [this]
  exact digits_only i '.' (by decide)

theorem text_inj {c d : Comp} (hc : c.Ok) (hd : d.Ok) (h : c.text = d.text) : c = d := by
  have hn : c.name = d.name := by rw [← takeWhile_text hc, ← takeWhile_text hd, h]
  obtain ⟨n, i⟩ := c
  obtain ⟨n', j⟩ := d
  simp only at hn
  subst hn
  cases i <;> cases j <;> simp_all [Comp.text]

theorem texts_inj : ∀ {cs ds : List Comp}, (∀ c ∈ cs, c.Ok) → (∀ c ∈ ds, c.Ok) → cs.map Comp.text = ds.map Comp.text → cs = ds
  | [], [], _, _, _ => rfl
  | [], _ :: _, _, _, h => by simp at h
  | _ :: _, [], _, _, h => by simp at h
  | c :: cs, d :: ds, hc, hd, h => by
    simp only [List.map_cons, List.cons.injEq] at h
    rw [text_inj (hc c (by simp)) (hd d (by simp)) h.1,
      texts_inj (fun c h => hc c (by simp [h])) (fun c h => hd c (by simp [h])) h.2]

theorem path_inj' {cs ds : List Comp} (hc : ∀ c ∈ cs, c.Ok) (hd : ∀ c ∈ ds, c.Ok) (h : path cs = path ds) : cs = ds :=
  texts_inj hc hd (path_inj hc hd h)

theorem leavesM_at (n : Str) (i : Nat) (vs : List Nat) : ∀ l ∈ leavesM n i vs, ∃ j, i ≤ j ∧ l.1 = [at_ n j] := by
  induction vs generalizing i with
  | nil => simp [leavesM]
  | cons v vs ih =>
    intro l hl
    rw [leavesM] at hl
    rcases List.mem_cons.1 hl with rfl | hl
    · exact ⟨i, Nat.le_refl _, rfl⟩
    · obtain ⟨j, hj, he⟩ := ih _ l hl
      exact ⟨j, by omega, he⟩

theorem leavesE_at (n : Str) (i : Nat) (ms : Elems) : ∀ l ∈ leavesE n i ms, ∃ j cs, i ≤ j ∧ l.1 = at_ n j :: cs := by
  match ms with
  | .nil => simp [leavesE]
  | .cons m r =>
    intro l hl
    rw [leavesE] at hl
    rcases List.mem_append.1 hl with hl | hl
    · obtain ⟨x, _, rfl⟩ := List.mem_map.1 hl
      exact ⟨i, _, Nat.le_refl _, rfl⟩
    · obtain ⟨j, cs, hj, he⟩ := leavesE_at n (i + 1) r l hl
      exact ⟨j, cs, by omega, he⟩
  | .skip r =>
    intro l hl
    rw [leavesE] at hl
    obtain ⟨j, cs, hj, he⟩ := leavesE_at n (i + 1) r l hl
    exact ⟨j, cs, by omega, he⟩

mutual
theorem okF (m : Fields) (h : DistinctF m) : ∀ l ∈ leavesF m, ∀ c ∈ l.1, c.Ok := by
  match m, h with
  | .nil, _ => simp [leavesF]
  | .cons n v r, h =>
    rw [DistinctF] at h
    intro l hl
    rw [leavesF] at hl
    rcases List.mem_append.1 hl with hl | hl
    · exact okV n h.1 v h.2.2.1 l hl
    · exact okF r h.2.2.2 l hl
theorem okV (n : Str) (hn : (fld n).Ok) (v : Val) (h : DistinctV v) : ∀ l ∈ leavesV n v, ∀ c ∈ l.1, c.Ok := by
  match v, h with
  | .one v, _ => simp [leavesV, hn]
  | .many vs, _ =>
    intro l hl
    rw [leavesV] at hl
    obtain ⟨j, _, he⟩ := leavesM_at n 0 vs l hl
    rw [he]
    intro c hc
    rw [List.mem_singleton.1 hc]
    exact at_ok hn j
  | .sub m, h =>
    rw [DistinctV] at h
    intro l hl
    rw [leavesV] at hl
    obtain ⟨x, hx, rfl⟩ := List.mem_map.1 hl
    intro c hc
    rcases List.mem_cons.1 hc with rfl | hc
    · exact hn
    · exact okF m h x hx c hc
  | .empty, _ => simp [leavesV]
  | .subs ms, h =>
    rw [DistinctV] at h
    intro l hl
    rw [leavesV] at hl
    exact okE n hn 0 ms h l hl
theorem okE (n : Str) (hn : (fld n).Ok) (i : Nat) (ms : Elems) (h : DistinctE ms) : ∀ l ∈ leavesE n i ms, ∀ c ∈ l.1, c.Ok := by
  match ms, h with
  | .nil, _ => simp [leavesE]
  | .cons m r, h =>
    rw [DistinctE] at h
    intro l hl
    rw [leavesE] at hl
    rcases List.mem_append.1 hl with hl | hl
    · obtain ⟨x, hx, rfl⟩ := List.mem_map.1 hl
      intro c hc
      rcases List.mem_cons.1 hc with rfl | hc
      · exact at_ok hn i
      · exact okF m h.1 x hx c hc
    · exact okE n hn (i + 1) r h.2 l hl
  | .skip r, h =>
    rw [DistinctE] at h
    intro l hl
    rw [leavesE] at hl
    exact okE n hn (i + 1) r h l hl
end

theorem leavesF_name (m : Fields) : ∀ l ∈ leavesF m, ∃ c cs, l.1 = c :: cs ∧ c.name ∈ m.names := by
  match m with
  | .nil => simp [leavesF]
  | .cons n v r =>
    intro l hl
    rw [leavesF] at hl
    rcases List.mem_append.1 hl with hl | hl
    · obtain ⟨c, cs, he, hb⟩ := leavesV_head n v l hl
      refine ⟨c, cs, he, ?_⟩
      have : c.name = n := congrArg Comp.name hb
      simp [Fields.names, this]
    · obtain ⟨c, cs, he, hb⟩ := leavesF_name r l hl
      exact ⟨c, cs, he, by simp [Fields.names, hb]⟩

theorem nodup_cons_map {ls : List (List Comp × Nat)} (c : Comp) (h : (ls.map Prod.fst).Nodup) :
    ((ls.map (fun l => (c :: l.1, l.2))).map Prod.fst).Nodup := by
  rw [List.map_map]
  have : (Prod.fst ∘ fun l : List Comp × Nat => (c :: l.1, l.2)) = (fun x => c :: x) ∘ Prod.fst := rfl
  rw [this, ← List.map_map]
  unfold List.Nodup at h ⊢
  rw [List.pairwise_map]
  exact h.imp (fun hab e => hab (by simpa using e))

theorem nodup_append' {a b : List (List Comp × Nat)} (ha : (a.map Prod.fst).Nodup) (hb : (b.map Prod.fst).Nodup)
    (hd : ∀ l ∈ a, ∀ k ∈ b, l.1 ≠ k.1) : ((a ++ b).map Prod.fst).Nodup := by
  rw [List.map_append, List.nodup_append]
  refine ⟨ha, hb, ?_⟩
  intro x hx y hy
  obtain ⟨l, hl, rfl⟩ := List.mem_map.1 hx
  obtain ⟨k, hk, rfl⟩ := List.mem_map.1 hy
  exact hd l hl k hk

theorem nodupM (n : Str) (i : Nat) (vs : List Nat) : ((leavesM n i vs).map Prod.fst).Nodup := by
  induction vs generalizing i with
  | nil => simp [leavesM]
  | cons v vs ih =>
    rw [leavesM]
    refine nodup_append' (a := [([at_ n i], v)]) (by simp) (ih (i + 1)) ?_
    intro l hl k hk e
    obtain ⟨j, hj, he⟩ := leavesM_at n (i + 1) vs k hk
    rw [List.mem_singleton.1 hl, he] at e
    have := at_inj (List.cons.inj e).1
    omega

mutual
theorem nodupF (m : Fields) (h : DistinctF m) : ((leavesF m).map Prod.fst).Nodup := by
  match m, h with
  | .nil, _ => simp [leavesF]
  | .cons n v r, h =>
    rw [DistinctF] at h
    rw [leavesF]
    refine nodup_append' (nodupV n v h.2.2.1) (nodupF r h.2.2.2) ?_
    intro l hl k hk e
    obtain ⟨c, cs, he, hb⟩ := leavesV_head n v l hl
    obtain ⟨d, ds, he', hb'⟩ := leavesF_name r k hk
    rw [he, he'] at e
    have hcd := (List.cons.inj e).1
    have : c.name = n := congrArg Comp.name hb
    exact h.2.1 (by rw [← this, hcd]; exact hb')
theorem nodupV (n : Str) (v : Val) (h : DistinctV v) : ((leavesV n v).map Prod.fst).Nodup := by
  match v, h with
  | .one v, _ => simp [leavesV]
  | .many vs, _ => rw [leavesV]; exact nodupM n 0 vs
  | .sub m, h =>
    rw [DistinctV] at h
    rw [leavesV]
    exact nodup_cons_map _ (nodupF m h)
  | .empty, _ => simp [leavesV]
  | .subs ms, h =>
    rw [DistinctV] at h
    rw [leavesV]
    exact nodupE n 0 ms h
theorem nodupE (n : Str) (i : Nat) (ms : Elems) (h : DistinctE ms) : ((leavesE n i ms).map Prod.fst).Nodup := by
  match ms, h with
  | .nil, _ => simp [leavesE]
  | .cons m r, h =>
    rw [DistinctE] at h
    rw [leavesE]
    refine nodup_append' (nodup_cons_map _ (nodupF m h.1)) (nodupE n (i + 1) r h.2) ?_
    intro l hl k hk e
    obtain ⟨x, _, rfl⟩ := List.mem_map.1 hl
    obtain ⟨j, cs, hj, he⟩ := leavesE_at n (i + 1) r k hk
    rw [he] at e
    have := at_inj (List.cons.inj e).1
    omega
  | .skip r, h =>
    rw [DistinctE] at h
    rw [leavesE]
    exact nodupE n (i + 1) r h
end

mutual
theorem namedF_of (m : Fields) (h : DistinctF m) : NamedF m := by
  match m, h with
  | .nil, _ => trivial
  | .cons n v r, h =>
    rw [DistinctF] at h
    rw [NamedF]
    exact ⟨h.1.1, namedV_of v h.2.2.1, namedF_of r h.2.2.2⟩
theorem namedV_of (v : Val) (h : DistinctV v) : NamedV v := by
  match v, h with
  | .one _, _ => trivial
  | .many _, _ => trivial
  | .empty, _ => trivial
  | .sub m, h => rw [DistinctV] at h; rw [NamedV]; exact namedF_of m h
  | .subs ms, h => rw [DistinctV] at h; rw [NamedV]; exact namedE_of ms h
theorem namedE_of (ms : Elems) (h : DistinctE ms) : NamedE ms := by
  match ms, h with
  | .nil, _ => trivial
  | .cons m r, h => rw [DistinctE] at h; rw [NamedE]; exact ⟨namedF_of m h.1, namedE_of r h.2⟩
  | .skip r, h => rw [DistinctE] at h; rw [NamedE]; exact namedE_of r h
end

/-- **No two values of a message are reported under the same name.** -/
theorem C98_names_distinct (acc : Str → Bool) (root : List Comp) (hr : root = [] ∨ ∃ c, root = [c] ∧ c.Ok) (m : Fields)
    (hm : DistinctF m) : ((values (decode acc (path root) m)).map Prod.fst).Nodup := by
  have hroot : ∀ c ∈ root, c.Ok := by
    rcases hr with rfl | ⟨c, rfl, hc⟩
    · simp
    · simpa using hc
  rw [(C98_exact acc root (hr.imp id (fun ⟨c, h, hc⟩ => ⟨c, h, text_ne_nil hc⟩)) m (namedF_of m hm)).1, List.map_map]
  have h := nodupF m hm
  have hok := okF m hm
  unfold List.Nodup at h ⊢
  rw [List.pairwise_map] at h ⊢
  have hs := h.sublist (List.filter_sublist (p := fun l => guard acc root l.1))
  refine hs.imp_of_mem ?_
  intro a b ha hb hne e
  have ha' := (List.mem_filter.1 ha).1
  have hb' := (List.mem_filter.1 hb).1
  apply hne
  have key : ∀ l ∈ leavesF m, ∀ c ∈ root ++ l.1, c.Ok := by
    intro l hl c hc
    rcases List.mem_append.1 hc with hc | hc
    · exact hroot c hc
    · exact hok l hl c hc
  have := path_inj' (key a ha') (key b hb') e
  exact List.append_cancel_left this

theorem ok_name (s : String) (h : s.toList ≠ [] ∧ '.' ∉ s.toList ∧ '[' ∉ s.toList) : (fld s.toList).Ok :=
  ⟨h.1, h.2.1, h.2.2, by simp [fld]⟩

example : DistinctF demo := by
  simp [demo, DistinctF, DistinctV, DistinctE, Fields.names, Comp.Ok, fld]

/-! ### Filters -/

/-- **A set of element names without indices selects exactly these elements**: a value is reported if and only if its complete
name is a part of one of the names.  Part of C98: names with indices are missing (`C98_violated_array_unreachable`). -/
theorem C98_filter_partial (xs : List (List Comp)) (hx : ∀ cs ∈ xs, ∀ c ∈ cs, c.Ok ∧ c.idx = none) (root : List Comp)
    (hr : root = [] ∨ ∃ c, root = [c] ∧ c.Ok) (m : Fields) (hm : DistinctF m) (p : Str) (v : Nat) :
    (p, v) ∈ values (decode (simple (included xs)) (path root) m) ↔
      ∃ l ∈ leavesF m, p = path (root ++ l.1) ∧ v = l.2 ∧ ∃ cs ∈ xs, root ++ l.1 <+: cs := by
  have hroot : ∀ c ∈ root, c.Ok := by
    rcases hr with rfl | ⟨c, rfl, hc⟩
    · simp
    · simpa using hc
  have hflat : ∀ cs ∈ xs, (∀ c ∈ cs, c.Ok) ∧ Flat cs :=
    fun cs h => ⟨fun c hc => (hx cs h c hc).1, fun c hc => (hx cs h c (List.mem_of_mem_tail hc)).2⟩
  have hacc : ∀ ds : List Comp, ds ≠ [] → (∀ c ∈ ds, c.Ok) →
      (simple (included xs) (path ds) = true ↔ ∃ cs ∈ xs, ds <+: cs) := by
    intro ds hne hds
    rw [C97_accepts_documented_partial xs hflat]
    constructor
    · rintro ⟨cs, hcs, pre, c, post, he, hm⟩
      have hb : c.bare = c := by
        have := (hx cs hcs c (by rw [he]; simp)).2
        obtain ⟨n, i⟩ := c
        simp only at this
        subst this
        rfl
      have hm : path ds = path (pre ++ [c]) := by
        rcases hm with hm | hm
        · exact hm
        · rw [hm, hb]
      refine ⟨cs, hcs, ?_⟩
      have := path_inj' hds (fun d hd => (hflat cs hcs).1 d (by
        rw [he]; rcases List.mem_append.1 hd with hd | hd
        · simp [hd]
        · simp [List.mem_singleton.1 hd])) hm
      rw [this, he]
      exact ⟨post, by simp⟩
    · rintro ⟨cs, hcs, post, he⟩
      obtain ⟨pre, c, hsn⟩ : ∃ pre c, ds = pre ++ [c] := ⟨_, _, (List.dropLast_concat_getLast hne).symm⟩
      exact ⟨cs, hcs, pre, c, post, by rw [← he, hsn]; simp, .inl (by rw [hsn])⟩
  rw [(C98_exact _ root (hr.imp id (fun ⟨c, h, hc⟩ => ⟨c, h, text_ne_nil hc⟩)) m (namedF_of m hm)).1]
  have hok := okF m hm
  simp only [List.mem_map, List.mem_filter, Prod.mk.injEq]
  constructor
  · rintro ⟨l, ⟨hl, hg⟩, rfl, rfl⟩
    refine ⟨l, hl, rfl, rfl, ?_⟩
    rw [guard_iff] at hg
    obtain ⟨c, cs, hcs, _⟩ := leavesF_name m l hl
    have hne : l.1 ≠ [] := by rw [hcs]; simp
    obtain ⟨pre, d, hsn⟩ : ∃ pre d, l.1 = pre ++ [d] := ⟨_, _, (List.dropLast_concat_getLast hne).symm⟩
    have hdok : ∀ e ∈ l.1, e.Ok := hok l hl
    have hg := hg pre d [] hsn
    have hall : ∀ e ∈ root ++ l.1, e.Ok := by
      intro e he
      rcases List.mem_append.1 he with he | he
      · exact hroot e he
      · exact hdok e he
    by_cases hi : d.idx = none
    · have hb : d.bare = d := by
        obtain ⟨n, i⟩ := d
        simp only at hi
        subst hi
        rfl
      rw [hb, List.append_assoc, ← hsn] at hg
      exact (hacc _ (by simp [hne]) hall).1 hg.1
    · exfalso
      have hstar : (⟨d.name, some ['*']⟩ : Comp).Ok := by
        have := hdok d (by rw [hsn]; simp)
        exact ⟨this.1, this.2.1, this.2.2.1, by simp⟩
      have hpre : ∀ e ∈ root ++ pre, e.Ok := by
        intro e he
        apply hall
        rw [hsn]
        rcases List.mem_append.1 he with he | he
        · simp [he]
        · simp [he]
      rcases hg.2 hi with h | h
      · have hokk : ∀ e ∈ root ++ pre ++ [(⟨d.name, some ['*']⟩ : Comp)], e.Ok := by
          intro e he
          rcases List.mem_append.1 he with he | he
          · exact hpre e he
          · rw [List.mem_singleton.1 he]; exact hstar
        obtain ⟨cs, hcs, post, he⟩ := (hacc _ (by simp) hokk).1 h
        have := (hx cs hcs ⟨d.name, some ['*']⟩ (by rw [← he]; simp)).2
        simp at this
      · have hokk : ∀ e ∈ root ++ pre ++ [d], e.Ok := by
          rw [List.append_assoc, ← hsn]; exact hall
        obtain ⟨cs, hcs, post, he⟩ := (hacc _ (by simp) hokk).1 h
        exact hi (hx cs hcs d (by rw [← he]; simp)).2
  · rintro ⟨l, hl, rfl, rfl, cs, hcs, hpre⟩
    refine ⟨l, ⟨hl, ?_⟩, rfl, rfl⟩
    rw [guard_iff]
    intro pre d post he
    obtain ⟨rest, hrest⟩ := hpre
    have hmem : d ∈ cs := by rw [← hrest, he]; simp
    have hi := (hx cs hcs d hmem).2
    have hb : d.bare = d := by
      obtain ⟨n, i⟩ := d
      simp only at hi
      subst hi
      rfl
    refine ⟨?_, fun h => absurd hi h⟩
    rw [hb]
    refine (hacc _ (by simp) ?_).2 ⟨cs, hcs, post ++ rest, by rw [← hrest, he]; simp⟩
    intro e hmem
    have : e ∈ cs := by
      rw [← hrest, he]
      simp only [List.mem_append, List.mem_cons] at hmem ⊢
      grind
    exact (hx cs hcs e this).1

example : values (decode (simple (included [[fld ['t'], fld ['a']]])) "t".toList demo) = [("t.a".toList, 7)] := by
  decide +kernel

/-- Violated: **an element of an array cannot be selected**, not even with its own complete name, unless the array is a field
of the topmost message and the walk starts without a name.  The filter does not accept the array itself
(`C97_violated_nested_array`), for which the decoder asks first. -/
theorem C98_violated_array_unreachable (root pre : List Comp) (c : Comp) (post : List Comp)
    (h : ∀ d ∈ root ++ pre ++ c :: post, d.Ok) (hp : root ++ pre ≠ []) (hi : c.idx ≠ none)
    (d : Comp) (hd : d.bare = c.bare) (more : List Comp) :
    ¬ Wanted (simple (included [root ++ pre ++ c :: post])) root (pre ++ d :: more) := by
  intro hw
  have := (hw pre d more rfl).1
  rw [hd, (C97_violated_nested_array (root ++ pre) c post h hp hi).1] at this
  simp at this

/-- The same with the values of a message: the only selected element is not reported, neither with the simple nor with the
complex filter. -/
theorem C98_violated_array_silent :
    let s := included [[fld ['t'], fld ['b'], at_ ['c'] 1]]
    s.contains "t.b.c[1]".toList = true ∧
    ("t.b.c[1]".toList, 9) ∈ values (decode (fun _ => true) "t".toList demo) ∧
    values (decode (simple s) "t".toList demo) = [] ∧ values (decode (complex s) "t".toList demo) = [] := by
  decide +kernel

/-! ### Sizes of arrays -/

/-- **The maximum size of an array over any number of messages** is the least number that no reported size exceeds. -/
theorem C98_dimensions (es : List Ev) (x : Str) (N : Nat) :
    dimensions (fun _ => 0) es x ≤ N ↔ ∀ n g size, Ev.arrayStart n g size ∈ es → complete n g = x → size ≤ N := by
  have key : ∀ (es : List Ev) (s : Str → Nat), dimensions s es x ≤ N ↔
      s x ≤ N ∧ ∀ n g size, Ev.arrayStart n g size ∈ es → complete n g = x → size ≤ N := by
    intro es
    induction es with
    | nil => intro s; simp [dimensions]
    | cons e es ih =>
      intro s
      rw [dimensions, List.foldl_cons, ← dimensions, ih]
      have he : dimension s e x ≤ N ↔ s x ≤ N ∧ ∀ n g size, Ev.arrayStart n g size = e → complete n g = x → size ≤ N := by
        cases e <;> simp only [dimension] <;> grind
      rw [he]
      simp only [List.mem_cons]
      grind
  rw [key]
  simp

example : dimensions (fun _ => 0) (decode (fun _ => true) [] demo ++ decode (fun _ => true) [] demo) "b.c".toList = 2 := by
  decide +kernel

end Ecal.Proto.Decoder
