import Verif.Proto.TypeDesc

/-!
# Properties of type descriptions (C99)
-/

namespace Ecal.Proto.TypeDesc

/-! ### What a description should be -/

/-- `f` is `g` or imports it, directly or not. -/
inductive Needs (w : World) : Nat → Nat → Prop where
  | refl (f : Nat) : Needs w f f
  | step {f g h : Nat} (hd : g ∈ (w.file f).deps) (hn : Needs w g h) : Needs w f h

theorem Needs.trans {w : World} {f g h : Nat} (a : Needs w f g) (b : Needs w g h) : Needs w f h := by
  induction a with
  | refl => exact b
  | step hd _ ih => exact .step hd (ih b)

/-- In the order of the list every file comes after its imports: a pool accepts the list. -/
def Ordered (w : World) (l : List Nat) : Prop := ∀ a f b, l = a ++ f :: b → ∀ g ∈ (w.file f).deps, g ∈ a

/-- What protobuf guarantees: imports are not circular (here: imported files have smaller numbers), the messages listed in a
file are in it, and the types of the fields are in the file or in files it needs. -/
structure Valid (w : World) : Prop where
  acyclic : ∀ f, ∀ g ∈ (w.file f).deps, g < f
  listed : ∀ f, ∀ d ∈ (w.file f).msgs, (w.desc d).file = f
  imported : ∀ d m, some m ∈ (w.desc d).fields → Needs w (w.desc d).file (w.desc m).file

theorem needs_le {w : World} (v : Valid w) {f g : Nat} (h : Needs w f g) : g ≤ f := by
  induction h with
  | refl => exact Nat.le_refl _
  | step hd _ ih => have := v.acyclic _ _ hd; omega

/-! ### Folds -/

theorem foldlM_inv {α β : Type} {step : β → α → Option β} (P : β → Prop) :
    ∀ (l : List α) (s s' : β), (∀ a ∈ l, ∀ s s', P s → step s a = some s' → P s') → P s → l.foldlM step s = some s' → P s'
  | [], s, s', _, hp, h => by
    simp only [List.foldlM_nil, Option.pure_def, Option.some.injEq] at h
    exact h ▸ hp
  | a :: l, s, s', hs, hp, h => by
    rw [List.foldlM_cons] at h
    cases h1 : step s a with
    | none => rw [h1] at h; simp at h
    | some s1 =>
      rw [h1] at h
      exact foldlM_inv P l s1 s' (fun b hb => hs b (List.mem_cons_of_mem _ hb)) (hs a (List.mem_cons_self ..) s s1 hp h1) h

theorem foldlM_some {α β : Type} {step : β → α → Option β} (P : β → Prop) :
    ∀ (l : List α) (s : β), (∀ a ∈ l, ∀ s, P s → ∃ s', step s a = some s' ∧ P s') → P s → ∃ s', l.foldlM step s = some s' ∧ P s'
  | [], s, _, hp => ⟨s, rfl, hp⟩
  | a :: l, s, hs, hp => by
    obtain ⟨s1, h1, hp1⟩ := hs a (List.mem_cons_self ..) s hp
    obtain ⟨s2, h2, hp2⟩ := foldlM_some P l s1 (fun b hb => hs b (List.mem_cons_of_mem _ hb)) hp1
    exact ⟨s2, by rw [List.foldlM_cons, h1]; exact h2, hp2⟩

theorem add_set (s : St) (f : Nat) : (s.add f).set = if f ∈ s.set then s.set else s.set ++ [f] := by
  unfold St.add
  simp only [List.contains_eq_mem, decide_eq_true_eq]
  split <;> rfl

theorem dep_eq (w : World) (rec : St → Nat → Option St) (s s' : St) (g : Nat) (h : dep w rec s g = some s') :
    ∃ s1, (w.file g).msgs.foldlM rec s = some s1 ∧
      (s' = s1 ∧ (w.file g).enums = false ∧ (w.file g).services = false ∨
        s'.set = (s1.add g).set ∧ ((w.file g).enums = true ∨ (w.file g).services = true)) := by
  unfold dep at h
  cases h1 : (w.file g).msgs.foldlM rec s with
  | none => rw [h1] at h; simp at h
  | some s1 =>
    rw [h1] at h
    refine ⟨s1, rfl, ?_⟩
    simp only [Option.bind_eq_bind, Option.bind_some, Option.pure_def, Option.some.injEq] at h
    cases he : (w.file g).enums <;> cases hs : (w.file g).services <;> simp only [he, hs] at h <;> subst h
    · exact .inl ⟨rfl, rfl, rfl⟩
    · exact .inr ⟨rfl, .inr rfl⟩
    · exact .inr ⟨rfl, .inl rfl⟩
    · refine .inr ⟨?_, .inl rfl⟩
      simp only [if_true, add_set]
      grind

theorem get_eq (w : World) (k : Nat) (s s' : St) (d : Nat) (h : get w (k + 1) s d = some s') :
    ∃ s1, (w.file (w.desc d).file).deps.foldlM (dep w (get w k)) { s with calls := s.calls + 1 } = some s1 ∧
      ((w.desc d).file ∈ s1.set ∧ s' = s1 ∨
        (w.desc d).file ∉ s1.set ∧
          (w.desc d).fields.foldlM (field (get w k)) { s1 with set := s1.set ++ [(w.desc d).file] } = some s') := by
  rw [get] at h
  cases h1 : (w.file (w.desc d).file).deps.foldlM (dep w (get w k)) { s with calls := s.calls + 1 } with
  | none => rw [h1] at h; simp at h
  | some s1 =>
    rw [h1] at h
    refine ⟨s1, rfl, ?_⟩
    simp only [Option.bind_eq_bind, Option.bind_some, List.contains_eq_mem, decide_eq_true_eq, Option.pure_def] at h
    split at h
    · rename_i hm
      exact .inl ⟨hm, (Option.some.inj h).symm⟩
    · rename_i hm
      exact .inr ⟨hm, h⟩

/-- Induction over a call: what holds before, is kept by adding an import (with an enumeration or a service) of a needed file,
and by adding a needed file that is not there, holds after. -/
theorem get_inv {w : World} (v : Valid w) (P : List Nat → Prop) (root : Nat)
    (hadd : ∀ l f, Needs w root f → f ∉ l → P l → P (l ++ [f])) :
    ∀ k s s' d, Needs w root (w.desc d).file → P s.set → get w k s d = some s' → P s'.set := by
  intro k
  induction k with
  | zero => intro s s' d _ _ h; simp [get] at h
  | succ k ih =>
    intro s s' d hn hp h
    obtain ⟨s1, h1, h2⟩ := get_eq w k s s' d h
    have hp1 : P s1.set := by
      refine foldlM_inv (fun s => P s.set) _ _ _ ?_ hp h1
      intro g hg a b hpa hab
      have hng : Needs w root g := hn.trans (.step hg (.refl g))
      obtain ⟨c, hc, hcases⟩ := dep_eq w _ a b g hab
      have hpc : P c.set := by
        refine foldlM_inv (fun s => P s.set) _ _ _ ?_ hpa hc
        intro m hm x y hx hxy
        exact ih x y m (by rw [v.listed g m hm]; exact hng) hx hxy
      rcases hcases with ⟨rfl, _⟩ | ⟨hset, _⟩
      · exact hpc
      · rw [hset, add_set]
        split
        · exact hpc
        · rename_i hng'
          exact hadd _ _ hng hng' hpc
    rcases h2 with ⟨_, rfl⟩ | ⟨hm, h2⟩
    · exact hp1
    · refine foldlM_inv (fun s => P s.set) _ _ _ ?_ (hadd _ _ hn hm hp1) h2
      intro o ho x y hx hxy
      cases o with
      | none => simp only [field, Option.some.injEq] at hxy; exact hxy ▸ hx
      | some m => exact ih x y m (hn.trans (v.imported d m ho)) hx hxy

/-- **A description contains only needed files, each once.** -/
theorem C99_only_needed {w : World} (v : Valid w) (k d : Nat) (s : St) (h : get w k {} d = some s) :
    s.set.Nodup ∧ ∀ f ∈ s.set, Needs w (w.desc d).file f := by
  refine get_inv v (fun l => l.Nodup ∧ ∀ f ∈ l, Needs w (w.desc d).file f) (w.desc d).file ?_ k {} s d (.refl _) ⟨by simp, by simp⟩ h
  rintro l f hn hf ⟨h1, h2⟩
  refine ⟨?_, ?_⟩
  · rw [List.nodup_append]
    refine ⟨h1, by simp, ?_⟩
    intro a ha b hb e
    rw [List.mem_singleton.1 hb] at e
    exact hf (e ▸ ha)
  · intro g hg
    rcases List.mem_append.1 hg with hg | hg
    · exact h2 g hg
    · rw [List.mem_singleton.1 hg]; exact hn

/-- The description grows by appending. -/
theorem get_prefix {w : World} (v : Valid w) {k d : Nat} {s s' : St} (h : get w k s d = some s') : s.set <+: s'.set :=
  get_inv v (fun l => s.set <+: l) (w.desc d).file
    (fun _ _ _ _ hp => hp.trans (List.prefix_append ..)) k s s' d (.refl _) (List.prefix_refl _) h

theorem get_needs {w : World} (v : Valid w) {k d : Nat} {s s' : St} (h : get w k s d = some s') :
    ∀ f ∈ s'.set, f ∈ s.set ∨ Needs w (w.desc d).file f := by
  refine get_inv v (fun l => ∀ f ∈ l, f ∈ s.set ∨ Needs w (w.desc d).file f) (w.desc d).file ?_ k s s' d (.refl _)
    (fun f hf => .inl hf) h
  intro l f hn _ hp g hg
  rcases List.mem_append.1 hg with hg | hg
  · exact hp g hg
  · rw [List.mem_singleton.1 hg]; exact .inr hn

theorem get_nodup {w : World} (v : Valid w) {k d : Nat} {s s' : St} (h : get w k s d = some s') (hs : s.set.Nodup) : s'.set.Nodup := by
  refine get_inv v (fun l => l.Nodup) (w.desc d).file ?_ k s s' d (.refl _) hs h
  intro l f _ hf hp
  rw [List.nodup_append]
  refine ⟨hp, by simp, ?_⟩
  intro a ha b hb e
  rw [List.mem_singleton.1 hb] at e
  exact hf (e ▸ ha)

/-! ### Every call returns -/

theorem get_returns {w : World} (v : Valid w) :
    ∀ k d (s : St), (2 * (w.desc d).file + 1 < k ∨ (2 * (w.desc d).file < k ∧ (w.desc d).file ∈ s.set)) →
      ∃ s', get w k s d = some s' := by
  intro k
  induction k with
  | zero => intro d s h; omega
  | succ k ih =>
    intro d s h
    rw [get]
    have hin : ∀ g ∈ (w.file (w.desc d).file).deps, ∀ a : St, (s.set <+: a.set) →
        ∃ b, dep w (get w k) a g = some b ∧ s.set <+: b.set := by
      intro g hg a ha
      have hlt := v.acyclic _ _ hg
      obtain ⟨c, hc, hpc⟩ := foldlM_some (step := get w k) (fun x : St => s.set <+: x.set) (w.file g).msgs a (by
        intro m hm x hx
        have hm' := v.listed g m hm
        obtain ⟨y, hy⟩ := ih m x (.inl (by rw [hm']; rcases h with h | h <;> omega))
        exact ⟨y, hy, hx.trans (get_prefix v hy)⟩) ha
      unfold dep
      rw [hc]
      refine ⟨_, rfl, ?_⟩
      have hadd : ∀ x : St, s.set <+: x.set → s.set <+: (x.add g).set := by
        intro x hx
        rw [add_set]
        split
        · exact hx
        · exact hx.trans (List.prefix_append ..)
      have h1 : s.set <+: (if (w.file g).enums then c.add g else c).set := by
        split
        · exact hadd _ hpc
        · exact hpc
      split
      · exact hadd _ h1
      · exact h1
    obtain ⟨s1, h1, hp1⟩ := foldlM_some (step := dep w (get w k)) (fun x : St => s.set <+: x.set) _
      { s with calls := s.calls + 1 } hin (List.prefix_refl _)
    rw [h1]
    simp only [Option.bind_eq_bind, Option.bind_some, List.contains_eq_mem, decide_eq_true_eq, Option.pure_def]
    by_cases hm : (w.desc d).file ∈ s1.set
    · rw [if_pos hm]; exact ⟨_, rfl⟩
    · rw [if_neg hm]
      have hk : 2 * (w.desc d).file + 1 < k + 1 := by
        rcases h with h | ⟨_, h⟩
        · exact h
        · exact absurd (hp1.mem h) hm
      obtain ⟨s2, h2, _⟩ := foldlM_some (step := field (get w k)) (fun x : St => (w.desc d).file ∈ x.set) (w.desc d).fields
        { s1 with set := s1.set ++ [(w.desc d).file] } (by
          intro o ho x hx
          cases o with
          | none => exact ⟨x, rfl, hx⟩
          | some m =>
            have hle := needs_le v (v.imported d m ho)
            by_cases he : (w.desc m).file = (w.desc d).file
            · obtain ⟨y, hy⟩ := ih m x (.inr ⟨by omega, by rw [he]; exact hx⟩)
              exact ⟨y, hy, (get_prefix v hy).mem hx⟩
            · obtain ⟨y, hy⟩ := ih m x (.inl (by omega))
              exact ⟨y, hy, (get_prefix v hy).mem hx⟩) (by simp)
      exact ⟨s2, h2⟩

/-- **Describing a type ends**, also for types that contain themselves. -/
theorem C99_describe_returns {w : World} (v : Valid w) (d : Nat) : ∃ k s, get w k {} d = some s := by
  obtain ⟨s, h⟩ := get_returns v (2 * (w.desc d).file + 2) d {} (.inl (by omega))
  exact ⟨_, s, h⟩

/-! ### Complete descriptions -/

/-- An import that is noticed together with what it imports: it has a message type, or it has an enumeration or a service and
imports nothing. -/
def Seen (w : World) (g : Nat) : Prop :=
  (w.file g).msgs ≠ [] ∨ ((w.file g).deps = [] ∧ ((w.file g).enums = true ∨ (w.file g).services = true))

theorem ordered_snoc {w : World} {l : List Nat} {f : Nat} (h : Ordered w l) (hd : ∀ g ∈ (w.file f).deps, g ∈ l) :
    Ordered w (l ++ [f]) := by
  intro a g b he
  rcases List.append_eq_append_iff.1 he with ⟨x, rfl, hx⟩ | ⟨x, rfl, hx⟩
  · cases x with
    | nil =>
      simp only [List.nil_append, List.cons.injEq] at hx
      obtain ⟨rfl, _⟩ := hx
      simpa using hd
    | cons y x =>
      simp at hx
  · cases x with
    | nil =>
      simp only [List.nil_append, List.cons.injEq] at hx
      obtain ⟨rfl, _⟩ := hx
      simpa using hd
    | cons y x =>
      simp only [List.cons_append, List.cons.injEq] at hx
      obtain ⟨rfl, rfl⟩ := hx
      exact h a g x rfl

theorem ordered_needs {w : World} {l : List Nat} (h : Ordered w l) {f g : Nat} (hf : f ∈ l) (hn : Needs w f g) : g ∈ l := by
  induction hn with
  | refl => exact hf
  | step hd _ ih =>
    apply ih
    obtain ⟨a, b, rfl⟩ := List.append_of_mem hf
    exact List.mem_append_left _ (h a _ b rfl _ hd)

/-- All imports of the files needed by `root` are noticed. -/
def AllSeen (w : World) (root : Nat) : Prop := ∀ f, Needs w root f → ∀ g ∈ (w.file f).deps, Seen w g

theorem get_ordered {w : World} (v : Valid w) (root : Nat) (hs : AllSeen w root) :
    ∀ k d (s s' : St), Needs w root (w.desc d).file → Ordered w s.set → get w k s d = some s' →
      Ordered w s'.set ∧ (w.desc d).file ∈ s'.set := by
  intro k
  induction k with
  | zero => intro d s s' _ _ h; simp [get] at h
  | succ k ih =>
    intro d s s' hn ho h
    obtain ⟨s1, h1, h2⟩ := get_eq w k s s' d h
    -- the loop over the imports
    have loop : ∀ (l : List Nat) (a b : St), (∀ g ∈ l, g ∈ (w.file (w.desc d).file).deps) → Ordered w a.set →
        l.foldlM (dep w (get w k)) a = some b → Ordered w b.set ∧ (∀ g ∈ l, g ∈ b.set) ∧ a.set <+: b.set := by
      intro l
      induction l with
      | nil =>
        intro a b _ ha hab
        simp only [List.foldlM_nil, Option.pure_def, Option.some.injEq] at hab
        subst hab
        exact ⟨ha, by simp, List.prefix_refl _⟩
      | cons g l ihl =>
        intro a b hl ha hab
        rw [List.foldlM_cons] at hab
        cases hx : dep w (get w k) a g with
        | none => rw [hx] at hab; simp at hab
        | some c =>
          rw [hx] at hab
          have hg := hl g (by simp)
          have hng : Needs w root g := hn.trans (.step hg (.refl g))
          obtain ⟨x, hx1, hx2⟩ := dep_eq w _ a c g hx
          have hx3 : Ordered w x.set ∧ a.set <+: x.set := by
            refine foldlM_inv (fun y : St => Ordered w y.set ∧ a.set <+: y.set) _ _ _ ?_ ⟨ha, List.prefix_refl _⟩ hx1
            intro m hm y z hy hyz
            have hm' := v.listed g m hm
            exact ⟨(ih m y z (by rw [hm']; exact hng) hy.1 hyz).1, hy.2.trans (get_prefix v hyz)⟩
          have hmsg : (w.file g).msgs ≠ [] → g ∈ x.set := by
            intro hne
            cases hms : (w.file g).msgs with
            | nil => exact absurd hms hne
            | cons m ms =>
              rw [hms, List.foldlM_cons] at hx1
              have hm' := v.listed g m (by rw [hms]; simp)
              cases hy : get w k a m with
              | none => rw [hy] at hx1; simp at hx1
              | some y =>
                rw [hy] at hx1
                have hgy := (ih m a y (by rw [hm']; exact hng) ha hy).2
                rw [hm'] at hgy
                refine foldlM_inv (fun y : St => g ∈ y.set) _ _ _ ?_ hgy hx1
                intro m2 _ y z hyy hyz
                exact (get_prefix v hyz).mem hyy
          have hc : Ordered w c.set ∧ g ∈ c.set ∧ a.set <+: c.set := by
            rcases hx2 with ⟨rfl, he, hsv⟩ | ⟨hset, hes⟩
            · refine ⟨hx3.1, ?_, hx3.2⟩
              rcases hs _ hn g hg with hne | ⟨_, h | h⟩
              · exact hmsg hne
              · rw [he] at h; simp at h
              · rw [hsv] at h; simp at h
            · rw [hset, add_set]
              by_cases hgx : g ∈ x.set
              · rw [if_pos hgx]; exact ⟨hx3.1, hgx, hx3.2⟩
              · rw [if_neg hgx]
                refine ⟨ordered_snoc hx3.1 ?_, by simp, hx3.2.trans (List.prefix_append ..)⟩
                rcases hs _ hn g hg with hne | ⟨hd, _⟩
                · exact absurd (hmsg hne) hgx
                · rw [hd]; simp
          obtain ⟨h3, h4, h5⟩ := ihl c b (fun g' hg' => hl g' (by simp [hg'])) hc.1 hab
          refine ⟨h3, ?_, hc.2.2.trans h5⟩
          intro g' hg'
          rcases List.mem_cons.1 hg' with rfl | hg'
          · exact h5.mem hc.2.1
          · exact h4 g' hg'
    obtain ⟨hl1, hl2, _⟩ := loop _ { s with calls := s.calls + 1 } s1 (fun g hg => hg) ho h1
    rcases h2 with ⟨hm, rfl⟩ | ⟨hm, h2⟩
    · exact ⟨hl1, hm⟩
    · refine foldlM_inv (fun y : St => Ordered w y.set ∧ (w.desc d).file ∈ y.set) _ _ _ ?_
        ⟨ordered_snoc hl1 hl2, by simp⟩ h2
      intro o hof y z hy hyz
      cases o with
      | none => simp only [field, Option.some.injEq] at hyz; exact hyz ▸ hy
      | some m => exact ⟨(ih m y z (hn.trans (v.imported d m hof)) hy.1 hyz).1, (get_prefix v hyz).mem hy.2⟩

/-- **The description is complete and in order** if every imported file is noticed: it contains exactly the needed files, each
after its imports.  Part of C99: other imported files are missing (`C99_violated_unseen_import`). -/
theorem C99_complete_partial {w : World} (v : Valid w) (d : Nat) (hs : AllSeen w (w.desc d).file) (k : Nat) (s : St)
    (h : get w k {} d = some s) : Ordered w s.set ∧ ∀ f, f ∈ s.set ↔ Needs w (w.desc d).file f := by
  have ho := get_ordered v (w.desc d).file hs k d {} s (.refl _) (by intro a f b he; simp at he) h
  refine ⟨ho.1, fun f => ⟨(C99_only_needed v k d s h).2 f, ?_⟩⟩
  intro hn
  exact ordered_needs ho.1 ho.2 hn

/-- The file of the type itself comes last. -/
theorem last_file {w : World} (v : Valid w) (d : Nat) (hs : AllSeen w (w.desc d).file) (k : Nat) (s : St)
    (h : get w k {} d = some s) : ∃ l, s.set = l ++ [(w.desc d).file] := by
  cases k with
  | zero => simp [get] at h
  | succ k =>
    have hcomp := C99_complete_partial v d hs (k + 1) s h
    have hnd := (C99_only_needed v (k + 1) d s h).1
    obtain ⟨s1, h1, h2⟩ := get_eq w k {} s d h
    -- the imports do not contain the file
    have hlt : ∀ f ∈ s1.set, f < (w.desc d).file := by
      refine foldlM_inv (fun x : St => ∀ f ∈ x.set, f < (w.desc d).file) _ _ _ ?_ (by simp) h1
      intro g hg a b ha hab
      have hlt := v.acyclic _ _ hg
      obtain ⟨x, hx1, hx2⟩ := dep_eq w _ a b g hab
      have hx : ∀ f ∈ x.set, f < (w.desc d).file := by
        refine foldlM_inv (fun x : St => ∀ f ∈ x.set, f < (w.desc d).file) _ _ _ ?_ ha hx1
        intro m hm y z hy hyz f hf
        rcases get_needs v hyz f hf with hf | hf
        · exact hy f hf
        · have := needs_le v hf
          rw [v.listed g m hm] at this
          omega
      rcases hx2 with ⟨rfl, _⟩ | ⟨hset, _⟩
      · exact hx
      · rw [hset, add_set]
        split
        · exact hx
        · intro f hf
          rcases List.mem_append.1 hf with hf | hf
          · exact hx f hf
          · rw [List.mem_singleton.1 hf]; exact hlt
    rcases h2 with ⟨hm, rfl⟩ | ⟨hm, h2⟩
    · exact absurd (hlt _ hm) (Nat.lt_irrefl _)
    · refine ⟨s1.set, ?_⟩
      have hpre : (s1.set ++ [(w.desc d).file]) <+: s.set := by
        refine foldlM_inv (fun x : St => (s1.set ++ [(w.desc d).file]) <+: x.set) _ _ _ ?_ (List.prefix_refl _) h2
        intro o _ y z hy hyz
        cases o with
        | none => simp only [field, Option.some.injEq] at hyz; exact hyz ▸ hy
        | some m => exact hy.trans (get_prefix v hyz)
      obtain ⟨x, hx⟩ := hpre
      cases x with
      | nil => rw [← hx]; simp
      | cons y x =>
        exfalso
        -- everything needed is in the part before already
        have hord := hcomp.1
        have hall : ∀ f, Needs w (w.desc d).file f → f ∈ s1.set ++ [(w.desc d).file] := by
          have ho1 : Ordered w (s1.set ++ [(w.desc d).file]) := by
            intro a f b he
            exact hord a f (b ++ y :: x) (by rw [← hx, he]; simp)
          intro f hf
          exact ordered_needs ho1 (by simp) hf
        have hy : y ∈ s.set := by rw [← hx]; simp
        have hy2 := hall y ((hcomp.2 y).1 hy)
        rw [← hx] at hnd
        rw [List.nodup_append] at hnd
        exact hnd.2.2 y hy2 y (by simp) rfl

/-! ### The receiver -/

/-- A pool accepts an ordered list up to the first file whose first message has the wanted name. -/
theorem build_ordered {w : World} (t f : Nat) (l : List Nat) (hn : ∀ g ∈ l, first w g t = false) :
    ∀ (pool : List Nat) (last : Option Nat), (∀ a g b, l ++ [f] = a ++ g :: b → ∀ h ∈ (w.file g).deps, h ∈ a ∨ h ∈ pool) →
      (build w t pool last (l ++ [f])).2 = some f := by
  induction l with
  | nil =>
    intro pool last h
    have := h [] f [] rfl
    have hd : (w.file f).deps.all pool.contains = true := by
      rw [List.all_eq_true]
      intro x hx
      simpa using this x hx
    simp only [List.nil_append, build, hd, if_true]
    split <;> rfl
  | cons g l ih =>
    intro pool last h
    have hd : (w.file g).deps.all pool.contains = true := by
      rw [List.all_eq_true]
      intro x hx
      simpa using h [] g (l ++ [f]) rfl x hx
    rw [List.cons_append, build, if_pos hd, hn g (by simp)]
    simp only [Bool.false_eq_true, if_false]
    apply ih (fun g hg => hn g (by simp [hg]))
    intro a g' b he x hx
    have := h (g :: a) g' b (by rw [List.cons_append, he]; rfl) x hx
    simp only [List.mem_cons] at this ⊢
    grind

/-- **A subscriber finds the type of the publisher** from the description: for a topmost message type whose imports are all
noticed, if no needed file begins with a message type of the same name and the pool has no type of this name outside of packages.
Part of C99: see the violations below for the other cases. -/
theorem C99_receiver_finds_partial {w : World} (v : Valid w) (d : Nat) (hs : AllSeen w (w.desc d).file) (k : Nat) (s : St)
    (h : get w k {} d = some s)
    (htop : d ∈ (w.file (w.desc d).file).msgs)
    (huniq : ∀ e ∈ (w.file (w.desc d).file).msgs, (w.desc e).name = (w.desc d).name → e = d)
    (hname : ∀ g, Needs w (w.desc d).file g → g ≠ (w.desc d).file →
      ∀ e rest, (w.file g).msgs = e :: rest → (w.desc e).name ≠ (w.desc d).name)
    (pool : List Nat) (hpool : lookup w pool (w.desc d).name = none) :
    (receive w pool s.set (w.desc d).name).2 = some d := by
  obtain ⟨l, hl⟩ := last_file v d hs k s h
  have hcomp := C99_complete_partial v d hs k s h
  have hnd := (C99_only_needed v k d s h).1
  have hb := build_ordered (w := w) (w.desc d).name (w.desc d).file l (by
    intro g hg
    have hne : g ≠ (w.desc d).file := by
      rintro rfl
      rw [hl, List.nodup_append] at hnd
      exact hnd.2.2 _ hg _ (by simp) rfl
    have := hname g ((hcomp.2 g).1 (by rw [hl]; simp [hg])) hne
    unfold first
    split
    · rfl
    · next e rest he => simpa using this e rest he) pool none (by
    intro a g b he x hx
    exact .inl (hcomp.1 a g b (by rw [hl, he]) x hx))
  unfold receive
  rw [hpool, hl]
  simp only
  generalize build w (w.desc d).name pool none (l ++ [(w.desc d).file]) = r at hb
  obtain ⟨p, q⟩ := r
  simp only at hb
  subst hb
  simp only
  have : ∀ ms : List Nat, d ∈ ms → (∀ e ∈ ms, (w.desc e).name = (w.desc d).name → e = d) →
      ms.find? (fun e => (w.desc e).name == (w.desc d).name) = some d := by
    intro ms
    induction ms with
    | nil => simp
    | cons e ms ih =>
      intro h1 h2
      rw [List.find?_cons]
      by_cases he : (w.desc e).name = (w.desc d).name
      · have := h2 e (by simp) he
        subst this
        simp
      · simp only [beq_eq_false_iff_ne.2 he]
        rcases List.mem_cons.1 h1 with rfl | h1
        · exact absurd rfl he
        · exact ih h1 (fun e he => h2 e (by simp [he]))
  exact this _ htop huniq

/-! ### What goes wrong -/

/-- Violated: **an imported file without message types, enumerations and services is not in the description** – a file with
public imports only, or with extensions –, whatever imports it. -/
theorem C99_violated_unseen_import {w : World} (g : Nat) (hm : ∀ d, (w.desc d).file ≠ g)
    (he : (w.file g).enums = false) (hsv : (w.file g).services = false) :
    ∀ k d (s s' : St), g ∉ s.set → get w k s d = some s' → g ∉ s'.set := by
  intro k
  induction k with
  | zero => intro d s s' _ h; simp [get] at h
  | succ k ih =>
    intro d s s' hg h
    obtain ⟨s1, h1, h2⟩ := get_eq w k s s' d h
    have hg1 : g ∉ s1.set := by
      refine foldlM_inv (fun x : St => g ∉ x.set) _ { s with calls := s.calls + 1 } _ ?_ hg h1
      intro f hf a b ha hab
      obtain ⟨x, hx1, hx2⟩ := dep_eq w _ a b f hab
      have hx : g ∉ x.set := foldlM_inv (fun x : St => g ∉ x.set) _ _ _ (fun m _ y z hy hyz => ih m y z hy hyz) ha hx1
      rcases hx2 with ⟨rfl, _⟩ | ⟨hset, hes⟩
      · exact hx
      · rw [hset, add_set]
        split
        · exact hx
        · have hne : f ≠ g := by
            rintro rfl
            rcases hes with h | h
            · rw [he] at h; simp at h
            · rw [hsv] at h; simp at h
          simp [hx, Ne.symm hne]
    rcases h2 with ⟨_, rfl⟩ | ⟨_, h2⟩
    · exact hg1
    · refine foldlM_inv (fun x : St => g ∉ x.set) _ _ _ ?_ (by simp [hg1, Ne.symm (hm d)]) h2
      intro o _ y z hy hyz
      cases o with
      | none => simp only [field, Option.some.injEq] at hyz; exact hyz ▸ hy
      | some m => exact ih m y z hy hyz

/-- A description that misses an import of the type's file gives no message, if the pool does not have it. -/
theorem build_missing {w : World} (t f g : Nat) (hg : g ∈ (w.file f).deps) :
    ∀ (l pool : List Nat) (last : Option Nat), g ∉ l → g ∉ pool → last ≠ some f → (build w t pool last l).2 ≠ some f := by
  intro l
  induction l with
  | nil => intro pool last _ _ hl; exact hl
  | cons x l ih =>
    intro pool last hgl hgp hl
    rw [build]
    by_cases hd : (w.file x).deps.all pool.contains = true
    · rw [if_pos hd]
      have hxf : x ≠ f := by
        rintro rfl
        rw [List.all_eq_true] at hd
        exact hgp (by simpa using hd g hg)
      have hgx : g ≠ x := by rintro rfl; simp at hgl
      split
      · simp [hxf]
      · exact ih _ _ (fun h => hgl (by simp [h])) (by simp [hgx, hgp]) (by simp [hxf])
    · rw [if_neg hd]; simp

/-- **The consequence: no subscriber without the file can create a message of the type.** -/
theorem C99_violated_unseen_import_receiver {w : World} (v : Valid w) (d g : Nat) (hg : g ∈ (w.file (w.desc d).file).deps)
    (hm : ∀ d, (w.desc d).file ≠ g) (he : (w.file g).enums = false) (hsv : (w.file g).services = false)
    (k : Nat) (s : St) (h : get w k {} d = some s) (pool : List Nat) (hp : g ∉ pool)
    (hpool : lookup w pool (w.desc d).name = none) :
    (receive w pool s.set (w.desc d).name).2 ≠ some d := by
  have hgs := C99_violated_unseen_import g hm he hsv k d {} s (by simp) h
  have hb := build_missing (w := w) (w.desc d).name (w.desc d).file g hg s.set pool none hgs hp (by simp)
  unfold receive
  rw [hpool]
  simp only
  generalize build w (w.desc d).name pool none s.set = r at hb
  obtain ⟨p, q⟩ := r
  cases q with
  | none => simp
  | some f =>
    simp only
    intro hf
    have hmem := List.mem_of_find?_eq_some hf
    have := v.listed f d hmem
    simp only at hb
    exact hb (by rw [this])

/-- The number of the file that does not matter in the examples. -/
def nowhere : Nat := 99

/-- Files 0 (a message), 1 (imports 0 publicly and has nothing itself), 2 (imports 1, its message has a field of the type in 0). -/
def umbrella : World where
  file | 0 => { deps := [], msgs := [0] } | 1 => { deps := [0], msgs := [] } | 2 => { deps := [1], msgs := [1] }
       | _ => { deps := [], msgs := [] }
  desc | 0 => ⟨0, 10, []⟩ | 1 => ⟨2, 11, [some 0]⟩ | _ => ⟨nowhere, 0, []⟩

theorem umbrella_valid : Valid umbrella := by
  refine ⟨?_, ?_, ?_⟩
  · intro f g hg
    match f with
    | 0 | 1 | 2 => simp_all [umbrella]
    | _ + 3 => simp [umbrella] at hg
  · intro f d hd
    match f with
    | 0 | 2 => simp only [umbrella, List.mem_singleton] at hd; subst hd; rfl
    | 1 => simp [umbrella] at hd
    | _ + 3 => simp [umbrella] at hd
  · intro d m hm
    match d with
    | 0 => simp [umbrella] at hm
    | 1 =>
      simp only [umbrella, List.mem_singleton, Option.some.injEq] at hm
      subst hm
      exact .step (g := 1) (by simp [umbrella]) (.step (g := 0) (by simp [umbrella]) (.refl 0))
    | _ + 2 => simp [umbrella] at hm

/-- The case exists: the description has the type's file before the file of the field's type, and lacks the file between. -/
theorem C99_violated_umbrella : Valid umbrella ∧ (get umbrella 9 {} 1).map (·.set) = some [2, 0] ∧
    Needs umbrella 2 1 ∧ ¬ Ordered umbrella [2, 0] ∧ (receive umbrella [] [2, 0] 11).2 = none := by
  refine ⟨umbrella_valid, by decide +kernel, .step (g := 1) (by simp [umbrella]) (.refl 1), ?_, by decide +kernel⟩
  intro h
  have := h [] 2 [0] rfl 1 (by simp [umbrella])
  simp at this

/-- Files 0 (a message), 1 (a service with methods of types in 0), 2 (imports 1). -/
def serviceOnly : World where
  file | 0 => { deps := [], msgs := [0] } | 1 => { deps := [0], msgs := [], services := true }
       | 2 => { deps := [1], msgs := [1] } | _ => { deps := [], msgs := [] }
  desc | 0 => ⟨0, 10, []⟩ | 1 => ⟨2, 11, []⟩ | _ => ⟨nowhere, 0, []⟩

/-- Violated: **a file with services (or enumerations) but without messages is added without its imports**. -/
theorem C99_violated_service_import : (get serviceOnly 9 {} 1).map (·.set) = some [1, 2] ∧ Needs serviceOnly 2 0 ∧
    (receive serviceOnly [] [1, 2] 11).2 = none := by
  refine ⟨by decide +kernel, ?_, by decide +kernel⟩
  exact .step (g := 1) (by simp [serviceOnly]) (.step (g := 0) (by simp [serviceOnly]) (.refl 0))

/-- Two packages with a message type of the same name; the file of the second imports the file of the first.  Message 2 is
nested in message 1. -/
def twins : World where
  file | 0 => { deps := [], msgs := [0], package := true } | 1 => { deps := [0], msgs := [1], package := true }
       | 2 => { deps := [], msgs := [3] } | _ => { deps := [], msgs := [] }
  desc | 0 => ⟨0, 7, []⟩ | 1 => ⟨1, 7, [some 0]⟩ | 2 => ⟨1, 8, []⟩ | 3 => ⟨2, 7, []⟩ | _ => ⟨nowhere, 0, []⟩

/-- Violated: **a subscriber takes the type of the same name from another package**: the description is complete and in order,
but the search stops at the import, and the messages are read as messages of the imported type. -/
theorem C99_violated_same_name : (get twins 9 {} 1).map (·.set) = some [0, 1] ∧
    (receive twins [] [0, 1] (twins.desc 1).name).2 = some 0 := by
  decide +kernel

/-- Violated: **a nested message type is not found**. -/
theorem C99_violated_nested : (get twins 9 {} 2).map (·.set) = some [0, 1] ∧
    (receive twins [] [0, 1] (twins.desc 2).name).2 = none := by
  decide +kernel

/-- Violated: **a type seen before outside of any package is taken for every type of the same name**, even if no two types of
the publisher have the same name. -/
theorem C99_violated_old_type :
    let pool := (receive twins [] [2] (twins.desc 3).name).1
    (receive twins [] [2] (twins.desc 3).name).2 = some 3 ∧ (receive twins pool [0, 1] (twins.desc 1).name).2 = some 3 := by
  decide +kernel

/-- A chain of files, each with two messages without fields; each imports the previous one. -/
def chain : World where
  file n := { deps := if n = 0 then [] else [n - 1], msgs := [2 * n, 2 * n + 1] }
  desc d := ⟨d / 2, d, []⟩

theorem chain_calls : ∀ k d (s s' : St), get chain k s d = some s' → s'.calls + 1 = s.calls + 2 ^ (d / 2 + 1) := by
  intro k
  induction k with
  | zero => intro d s s' h; simp [get] at h
  | succ k ih =>
    intro d s s' h
    obtain ⟨s1, h1, h2⟩ := get_eq chain k s s' d h
    have hcalls : s'.calls = s1.calls := by
      rcases h2 with ⟨_, rfl⟩ | ⟨_, h2⟩
      · rfl
      · simp only [chain, List.foldlM_nil, Option.pure_def, Option.some.injEq] at h2
        rw [← h2]
    rw [hcalls]
    by_cases hz : d / 2 = 0
    · simp only [chain, hz, if_true, List.foldlM_nil, Option.pure_def, Option.some.injEq] at h1
      rw [← h1, hz]
    · have hd : (chain.file (chain.desc d).file).deps = [d / 2 - 1] := by simp [chain, hz]
      rw [hd, List.foldlM_cons] at h1
      cases hx : dep chain (get chain k) { s with calls := s.calls + 1 } (d / 2 - 1) with
      | none => rw [hx] at h1; simp at h1
      | some c =>
        rw [hx] at h1
        simp only [Option.bind_eq_bind, Option.bind_some, List.foldlM_nil, Option.pure_def, Option.some.injEq] at h1
        subst h1
        obtain ⟨x, hx1, hx2⟩ := dep_eq chain _ _ c _ hx
        have hcx : c = x := by
          rcases hx2 with ⟨h, _⟩ | ⟨_, h⟩
          · exact h
          · simp [chain] at h
        subst hcx
        have hm : (chain.file (d / 2 - 1)).msgs = [2 * (d / 2 - 1), 2 * (d / 2 - 1) + 1] := rfl
        rw [hm, List.foldlM_cons, ] at hx1
        cases hy : get chain k { s with calls := s.calls + 1 } (2 * (d / 2 - 1)) with
        | none => rw [hy] at hx1; simp at hx1
        | some y =>
          rw [hy] at hx1
          simp only [Option.bind_eq_bind, Option.bind_some, List.foldlM_cons, List.foldlM_nil, Option.pure_def] at hx1
          cases hz2 : get chain k y (2 * (d / 2 - 1) + 1) with
          | none => rw [hz2] at hx1; simp at hx1
          | some z =>
            rw [hz2] at hx1
            simp only [Option.bind_some, Option.some.injEq] at hx1
            subst hx1
            have e1 := ih _ _ _ hy
            have e2 := ih _ _ _ hz2
            have a1 : 2 * (d / 2 - 1) / 2 + 1 = d / 2 := by omega
            have a2 : (2 * (d / 2 - 1) + 1) / 2 + 1 = d / 2 := by omega
            rw [a1] at e1
            rw [a2] at e2
            simp only at e1
            rw [Nat.pow_succ]
            omega

/-- Violated: **describing a type takes a number of steps exponential in the depth of the imports**: with two messages in each
file of a chain of `n` imports more than `2 ^ n` calls. -/
theorem C99_violated_exponential (n : Nat) : Valid chain ∧ (∃ k s, get chain k {} (2 * n) = some s) ∧
    ∀ k s, get chain k {} (2 * n) = some s → s.calls + 1 = 2 ^ (n + 1) := by
  have hv : Valid chain := by
    refine ⟨?_, ?_, ?_⟩
    · intro f g hg
      simp only [chain] at hg
      split at hg
      · simp at hg
      · rw [List.mem_singleton.1 hg]; omega
    · intro f d hd
      simp only [chain, List.mem_cons, List.not_mem_nil, or_false] at hd ⊢
      omega
    · intro d m hm
      simp [chain] at hm
  refine ⟨hv, C99_describe_returns hv _, ?_⟩
  intro k s h
  have := chain_calls k (2 * n) {} s h
  have e : 2 * n / 2 = n := by omega
  rw [e] at this
  simpa using this

/-- The hypotheses of the positive theorems can be met: a chain of three files, each noticed. -/
example : Valid chain ∧ AllSeen chain (chain.desc 4).file ∧ (get chain 9 {} 4).map (·.set) = some [0, 1, 2] ∧
    (receive chain [] [0, 1, 2] (chain.desc 4).name).2 = some 4 ∧ 4 ∈ (chain.file (chain.desc 4).file).msgs := by
  refine ⟨(C99_violated_exponential 0).1, ?_, by decide +kernel, by decide +kernel, by decide⟩
  intro f _ g _
  exact .inl (by simp [chain])

end Ecal.Proto.TypeDesc
