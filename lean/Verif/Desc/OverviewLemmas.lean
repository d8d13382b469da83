import Verif.Desc.Overview
import Verif.Desc.Quality

/-!
# Lemmas about ordered insertion and about folds that keep the best element
-/

namespace Ecal.Desc.Overview

section Ins
variable {α : Type} (lt : α → α → Bool)

theorem mem_ins (e z : α) (l : List α) : z ∈ ins lt e l ↔ z = e ∨ z ∈ l := by
  induction l with
  | nil => simp [ins]
  | cons y ys ih =>
    simp only [ins]
    split
    · simp
    · rw [List.mem_cons, ih, List.mem_cons]
      constructor
      · rintro (h | h | h) <;> simp [h]
      · rintro (h | h | h) <;> simp [h]

theorem mem_insAll (l acc : List α) (z : α) : z ∈ insAll lt l acc ↔ z ∈ l ∨ z ∈ acc := by
  unfold insAll
  induction l generalizing acc with
  | nil => simp
  | cons x xs ih =>
    rw [List.foldl_cons, ih, mem_ins, List.mem_cons]
    constructor
    · rintro (h | h | h) <;> simp [h]
    · rintro ((h | h) | h) <;> simp [h]

/-- No element is greater than a later one. -/
def Sorted (l : List α) : Prop := l.Pairwise (fun a b => lt b a = false)

theorem sorted_ins (tr : ∀ a b c, lt a b = true → lt b c = true → lt a c = true)
    (irr : ∀ a, lt a a = false) (e : α) (l : List α) (h : Sorted lt l) : Sorted lt (ins lt e l) := by
  induction l with
  | nil => simp [ins, Sorted]
  | cons y ys ih =>
    unfold Sorted at h ih ⊢
    rw [List.pairwise_cons] at h
    have as : ∀ a b, lt a b = true → lt b a = false := by
      intro a b hab
      cases hba : lt b a with
      | false => rfl
      | true => have := tr _ _ _ hab hba; rw [irr] at this; cases this
    simp only [ins]
    by_cases hy : lt e y = true
    · rw [if_pos hy, List.pairwise_cons]
      refine ⟨fun z hz => ?_, List.pairwise_cons.2 h⟩
      rcases List.mem_cons.1 hz with rfl | hz
      · exact as _ _ hy
      · cases hze : lt z e with
        | false => rfl
        | true => have := tr _ _ _ hze hy; rw [h.1 z hz] at this; cases this
    · rw [if_neg hy, List.pairwise_cons]
      refine ⟨fun z hz => ?_, ih h.2⟩
      rcases (mem_ins lt _ _ _).1 hz with rfl | hz
      · simpa using hy
      · exact h.1 z hz

theorem sorted_insAll (tr : ∀ a b c, lt a b = true → lt b c = true → lt a c = true)
    (irr : ∀ a, lt a a = false) (l acc : List α) (h : Sorted lt acc) : Sorted lt (insAll lt l acc) := by
  unfold insAll
  induction l generalizing acc with
  | nil => exact h
  | cons x xs ih => exact ih _ (sorted_ins lt tr irr x acc h)

end Ins

section Multi
variable {K V : Type} [DecidableEq K] (lt : K → K → Bool)

/-- The entries of one name, in their order. -/
def named (k : K) (l : List (K × V)) : List V := (l.filter (fun e => e.1 == k)).map Prod.snd

theorem mem_named (k : K) (l : List (K × V)) (v : V) : v ∈ named k l ↔ (k, v) ∈ l := by
  simp only [named, List.mem_map, List.mem_filter, beq_iff_eq]
  constructor
  · rintro ⟨⟨n, x⟩, ⟨hm, rfl⟩, rfl⟩; exact hm
  · intro hm; exact ⟨(k, v), ⟨hm, rfl⟩, rfl⟩

theorem named_cons (k : K) (e : K × V) (l : List (K × V)) :
    named k (e :: l) = if e.1 = k then e.2 :: named k l else named k l := by
  unfold named
  by_cases h : e.1 = k
  · simp [h]
  · simp [h]

theorem named_ins (irr : ∀ a, lt a a = false) (k : K) (e : K × V) (l : List (K × V))
    (h : Sorted (fun a b : K × V => lt a.1 b.1) l) :
    named k (ins (fun a b : K × V => lt a.1 b.1) e l) = named k l ++ (if e.1 = k then [e.2] else []) := by
  induction l with
  | nil =>
    simp only [ins, named_cons]
    by_cases hk : e.1 = k <;> simp [hk, named]
  | cons y ys ih =>
    unfold Sorted at h
    rw [List.pairwise_cons] at h
    simp only [ins]
    by_cases hy : lt e.1 y.1 = true
    · rw [if_pos hy, named_cons]
      by_cases hk : e.1 = k
      · have hnil : named k (y :: ys) = [] := by
          apply List.eq_nil_iff_forall_not_mem.2
          intro v hv
          rw [mem_named] at hv
          have h0 : lt k y.1 = true := hk ▸ hy
          rcases List.mem_cons.1 hv with rfl | hv
          · simp only [irr] at h0; cases h0
          · have := h.1 _ hv
            simp only at this
            rw [h0] at this; cases this
        rw [hnil]; simp [hk]
      · simp [hk]
    · rw [if_neg hy, named_cons, ih h.2, named_cons]
      by_cases hk : y.1 = k <;> simp [hk]

theorem named_insAll (tr : ∀ a b c, lt a b = true → lt b c = true → lt a c = true) (irr : ∀ a, lt a a = false) (k : K)
    (l acc : List (K × V)) (h : Sorted (fun a b : K × V => lt a.1 b.1) acc) :
    named k (insAll (fun a b : K × V => lt a.1 b.1) l acc) = named k acc ++ named k l := by
  unfold insAll
  induction l generalizing acc with
  | nil => simp [named]
  | cons x xs ih =>
    rw [List.foldl_cons, ih _ (sorted_ins _ (fun a b c => tr a.1 b.1 c.1) (fun a => irr a.1) x acc h), named_ins lt irr k x acc h,
      named_cons]
    by_cases hk : x.1 = k <;> simp [hk]

/-- The reduction of a listing to one entry per name, keeping the entry that is not beaten. -/
def reduceG (better : V → V → Bool) (m : AMap K V) (e : K × V) : AMap K V :=
  match m.find e.1 with
  | some cur => if better cur e.2 then m.set e.1 e.2 else m
  | none => m.set e.1 e.2

def pick (better : V → V → Bool) : Option V → V → Option V
  | none, e => some e
  | some c, e => some (if better c e then e else c)

theorem reduceG_find (better : V → V → Bool) (k : K) (l : List (K × V)) (m : AMap K V) :
    (l.foldl (reduceG better) m).find k = (named k l).foldl (pick better) (m.find k) := by
  induction l generalizing m with
  | nil => rfl
  | cons e l ih =>
    rw [List.foldl_cons, ih, named_cons]
    by_cases hk : e.1 = k
    · rw [if_pos hk, List.foldl_cons]
      congr 1
      subst hk
      unfold reduceG
      cases hf : m.find e.1 with
      | none => simp [pick]
      | some c =>
        simp only [pick]
        by_cases hb : better c e.2 = true
        · simp [hb]
        · simp [hb, hf]
    · rw [if_neg hk]
      congr 1
      unfold reduceG
      cases m.find e.1 with
      | none => exact AMap.find_set_ne _ _ _ _ hk
      | some c =>
        simp only
        split
        · exact AMap.find_set_ne _ _ _ _ hk
        · rfl

omit [DecidableEq K] in
theorem pick_some (better : V → V → Bool) (l : List V) (b : V) :
    l.foldl (pick better) (some b) = some (l.foldl (fun c e => if better c e then e else c) b) := by
  induction l generalizing b with
  | nil => rfl
  | cons x xs ih => simp only [List.foldl_cons, pick]; exact ih _

end Multi

section Best
variable {V : Type} (better : V → V → Bool) (P : V → Bool) (Le : V → Prop)
  (hP : ∀ c e, Le e → P c = true → better c e = false)
  (hN : ∀ c e, Le c → P c = false → P e = true → better c e = true)
include hP hN

omit hN in
theorem fold_keep (l : List V) (b : V) (hl : ∀ x ∈ l, Le x) (hb : P b = true) :
    l.foldl (fun c e => if better c e then e else c) b = b := by
  induction l with
  | nil => rfl
  | cons x xs ih =>
    rw [List.foldl_cons, hP b x (hl x (by simp)) hb]
    exact ih (fun y hy => hl y (by simp [hy]))

theorem fold_first (l : List V) (b r : V) (hl : ∀ x ∈ l, Le x) (hb : Le b) (hf : P b = false)
    (h : l.find? P = some r) : l.foldl (fun c e => if better c e then e else c) b = r := by
  induction l generalizing b with
  | nil => simp at h
  | cons x xs ih =>
    have hx : Le x := hl x (by simp)
    have hxs : ∀ y ∈ xs, Le y := fun y hy => hl y (by simp [hy])
    rw [List.foldl_cons]
    cases hPx : P x with
    | true =>
      rw [List.find?_cons_of_pos hPx] at h
      have e : x = r := by simpa using h
      subst e
      rw [hN b x hb hf hPx]
      exact fold_keep better P Le hP xs x hxs hPx
    | false =>
      rw [List.find?_cons_of_neg (by simp [hPx])] at h
      cases better b x with
      | true => exact ih x hxs hx hPx h
      | false => exact ih b hxs hb hf h

/-- The reduction keeps the first of the best. -/
theorem pick_first (l : List V) (r : V) (hl : ∀ x ∈ l, Le x) (h : l.find? P = some r) :
    l.foldl (pick better) none = some r := by
  cases l with
  | nil => simp at h
  | cons x xs =>
    have hxs : ∀ y ∈ xs, Le y := fun y hy => hl y (by simp [hy])
    simp only [List.foldl_cons, pick]
    rw [pick_some]
    cases hPx : P x with
    | true =>
      rw [List.find?_cons_of_pos hPx] at h
      have e : x = r := by simpa using h
      subst e
      rw [fold_keep better P Le hP xs x hxs hPx]
    | false =>
      rw [List.find?_cons_of_neg (by simp [hPx])] at h
      rw [fold_first better P Le hP hN xs x r hxs (hl x (by simp)) hPx h]

end Best

/-- The first element with `P` is related to every later one. -/
theorem find_rel {V : Type} {P : V → Bool} {R : V → V → Prop} {l : List V} {r x : V} (hl : l.Pairwise R)
    (h : l.find? P = some r) (hx : x ∈ l) (hPx : P x = true) : x = r ∨ R r x := by
  induction l with
  | nil => cases hx
  | cons y ys ih =>
    rw [List.pairwise_cons] at hl
    cases hy : P y with
    | true =>
      rw [List.find?_cons_of_pos hy] at h
      cases h
      rcases List.mem_cons.1 hx with rfl | hx
      · left; rfl
      · right; exact hl.1 x hx
    | false =>
      rw [List.find?_cons_of_neg (by simp [hy])] at h
      rcases List.mem_cons.1 hx with rfl | hx
      · rw [hy] at hPx; cases hPx
      · exact ih hl.2 h hx

theorem same_id {V : Type} (id : V → Nat) (P : V → Bool) (L S : List V)
    (hL : L.Pairwise (fun a b => P a = true → P b = true → id a ≤ id b))
    (hS : S.Pairwise (fun a b => P a = true → P b = true → id a ≤ id b))
    (sub : ∀ z ∈ S, z ∈ L) (rep : ∀ x ∈ L, P x = true → ∃ z ∈ S, P z = true ∧ id z = id x)
    (r z : V) (hr : L.find? P = some r) (hz : S.find? P = some z) : id r = id z := by
  have hPr : P r = true := List.find?_some hr
  have hPz : P z = true := List.find?_some hz
  have h1 : id r ≤ id z := by
    rcases find_rel hL hr (sub z (List.mem_of_find?_eq_some hz)) hPz with h | h
    · rw [h]; exact Nat.le_refl _
    · exact h hPr hPz
  have h2 : id z ≤ id r := by
    obtain ⟨z', hz', hPz', he⟩ := rep r (List.mem_of_find?_eq_some hr) hPr
    rw [← he]
    rcases find_rel hS hz hz' hPz' with h | h
    · rw [h]; exact Nat.le_refl _
    · exact h hPz hPz'
  omega

theorem find_exists {V : Type} (P : V → Bool) (l : List V) (x : V) (hx : x ∈ l) (h : P x = true) :
    ∃ r, l.find? P = some r := by
  cases hf : l.find? P with
  | some r => exact ⟨r, rfl⟩
  | none => rw [List.find?_eq_none] at hf; exact absurd h (hf x hx)

/-! ### The orders -/

theorem strLt_irr (a : String) : strLt a a = false := by
  simp [strLt, String.lt_irrefl]

theorem strLt_trans (a b c : String) (h1 : strLt a b = true) (h2 : strLt b c = true) : strLt a c = true := by
  simp only [strLt, decide_eq_true_eq] at *
  exact String.lt_trans h1 h2

theorem methodLt_irr (a : String × String) : methodLt a a = false := by
  simp [methodLt, strLt_irr]

theorem methodLt_trans (a b c : String × String) (h1 : methodLt a b = true) (h2 : methodLt b c = true) :
    methodLt a c = true := by
  obtain ⟨a1, a2⟩ := a
  obtain ⟨b1, b2⟩ := b
  obtain ⟨c1, c2⟩ := c
  simp only [methodLt, Bool.or_eq_true, Bool.and_eq_true, beq_iff_eq] at *
  rcases h1 with h1 | ⟨rfl, h1⟩ <;> rcases h2 with h2 | ⟨rfl, h2⟩
  · left; exact strLt_trans _ _ _ h1 h2
  · left; exact h1
  · left; exact h2
  · right; exact ⟨rfl, strLt_trans _ _ _ h1 h2⟩

theorem topicKeyLt_irr (a : TopicKey) : topicKeyLt a a = false := by
  simp [topicKeyLt, strLt_irr]

theorem topicKeyLt_trans (a b c : TopicKey) (h1 : topicKeyLt a b = true) (h2 : topicKeyLt b c = true) :
    topicKeyLt a c = true := by
  obtain ⟨a1, a2⟩ := a
  obtain ⟨b1, b2⟩ := b
  obtain ⟨c1, c2⟩ := c
  simp only [topicKeyLt, Bool.or_eq_true, Bool.and_eq_true, beq_iff_eq, decide_eq_true_eq] at *
  rcases h1 with h1 | ⟨rfl, h1⟩ <;> rcases h2 with h2 | ⟨rfl, h2⟩
  · left; exact strLt_trans _ _ _ h1 h2
  · left; exact h1
  · left; exact h2
  · right; exact ⟨rfl, by omega⟩

theorem serviceKeyLt_irr (a : ServiceKey) : serviceKeyLt a a = false := by
  simp [serviceKeyLt, methodLt_irr]

theorem serviceKeyLt_trans (a b c : ServiceKey) (h1 : serviceKeyLt a b = true) (h2 : serviceKeyLt b c = true) :
    serviceKeyLt a c = true := by
  simp only [serviceKeyLt, Bool.or_eq_true, Bool.and_eq_true, beq_iff_eq, decide_eq_true_eq] at *
  rcases h1 with h1 | ⟨e1, h1⟩ <;> rcases h2 with h2 | ⟨e2, h2⟩
  · left; exact methodLt_trans _ _ _ h1 h2
  · left; rw [← e2]; exact h1
  · left; rw [e1]; exact h2
  · right; exact ⟨e1.trans e2, by omega⟩

end Ecal.Desc.Overview
