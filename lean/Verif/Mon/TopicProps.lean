import Verif.Mon.Topic
import Verif.Wire.RegistrationProps
import Verif.Reader.Props

/-!
# C131: a publisher or subscriber is shown as it is

What the monitoring of another process shows after a registration has arrived, against what
the application did with the publisher or subscriber.
-/

namespace Ecal.MonTopic

open Ecal.Wire (Bytes RegSample mapInsert bytesLt IsMap serializeReg deserializeReg)

/-! ## Specification -/

/-- Something with `P` happened, and nothing with `Q` since. -/
def Since {α : Type} (P Q : α → Prop) (h : List α) : Prop := ∃ (a : List α) (o : α) (b : List α), h = a ++ o :: b ∧ P o ∧ ∀ x ∈ b, ¬ Q x

/-- `v` is what was last said about the attribute `n` of a publisher. -/
def AttrIs (h : List PubOp) (n v : Bytes) : Prop :=
  Since (fun o => o = .setAttr n v) (fun o => (∃ v' : Bytes, o = .setAttr n v') ∨ o = .clearAttr n) h

/-- The same for a subscriber. -/
def SubAttrIs (h : List SubOp) (n v : Bytes) : Prop :=
  Since (fun o => o = .setAttr n v) (fun o => (∃ v' : Bytes, o = .setAttr n v') ∨ o = .clearAttr n) h

/-- The type information given last, the one of the creation if there was none. -/
def InfoIs (i0 : Info) (h : List PubOp) (i : Info) : Prop :=
  Since (fun o => o = .setInfo i) (fun o => ∃ i' : Info, o = .setInfo i') h ∨ ((∀ i' : Info, .setInfo i' ∉ h) ∧ i = i0)

/-- The id given last, 0 if there was none. -/
def IdIs (h : List PubOp) (i : Int) : Prop :=
  Since (fun o => o = .setId i) (fun o => ∃ j : Int, o = .setId j) h ∨ ((∀ j : Int, .setId j ∉ h) ∧ i = 0)

/-- The subscriber registered and did not leave since. -/
def Subscribed (h : List PubOp) (p : Conn.Peer) : Prop := Since (fun o => ∃ ls : List Gate.Layer, o = .join p ls) (fun o => o = .leave p) h

def isSend : PubOp → Bool
  | .send .. => true
  | _ => false

/-- What the monitoring shows of a publisher after a registration made after the history has arrived. -/
def PubShown (c : Writer.Config) (f : Fixed) (i : Info) (h : List PubOp) (e : Env) (en : Entry) : Prop :=
  ∃ m' : RegSample, deserializeReg {} (serializeReg (pubSample c f e (pubRun c (pubNew i) h).1)) = some m' ∧ en = entry m'

/-- The registration fits into what the serialisation can count. -/
def PubFits (c : Writer.Config) (f : Fixed) (i : Info) (h : List PubOp) (e : Env) : Prop :=
  (serializeReg (pubSample c f e (pubRun c (pubNew i) h).1)).length < 2 ^ 32

def SubShown (c : Reader.Config) (f : Fixed) (i : Info) (h : List SubOp) (e : Env) (en : Entry) : Prop :=
  ∃ m' : RegSample, deserializeReg {} (serializeReg (subSample c f e i (subRun c {} h).1)) = some m' ∧ en = entry m'

def SubFits (c : Reader.Config) (f : Fixed) (i : Info) (h : List SubOp) (e : Env) : Prop :=
  (serializeReg (subSample c f e i (subRun c {} h).1)).length < 2 ^ 32

/-! ## Lemmas -/

theorem since_snoc {α : Type} (P Q : α → Prop) (h : List α) (o : α) : Since P Q (h ++ [o]) ↔ P o ∨ (¬ Q o ∧ Since P Q h) := by
  constructor
  · rintro ⟨a, x, b, hab, hp, hq⟩
    rcases List.eq_nil_or_concat b with rfl | ⟨b', y, rfl⟩
    · have := List.append_inj' hab rfl
      cases this.2
      exact Or.inl hp
    · rw [List.concat_eq_append] at hab hq
      have := List.append_inj' (show h ++ [o] = (a ++ x :: b') ++ [y] by rw [hab]; simp) rfl
      cases this.2
      exact Or.inr ⟨hq _ (by simp), a, x, b', this.1, hp, fun z hz => hq z (by simp [hz])⟩
  · rintro (hp | ⟨hq, a, x, b, rfl, hp, hb⟩)
    · exact ⟨h, o, [], rfl, hp, by simp⟩
    · exact ⟨a, x, b ++ [o], by simp, hp, by
        intro y hy
        rcases List.mem_append.1 hy with hy | hy
        · exact hb y hy
        · rw [List.mem_singleton.1 hy]; exact hq⟩

theorem since_nil {α : Type} (P Q : α → Prop) : ¬ Since P Q ([] : List α) := by
  rintro ⟨a, o, b, h, _⟩
  simp at h

theorem snocInd {α : Type} (M : List α → Prop) (h0 : M []) (h1 : ∀ (l : List α) (x : α), M l → M (l ++ [x])) (l : List α) : M l := by
  have : ∀ (n : Nat) (l : List α), l.length = n → M l := by
    intro n
    induction n with
    | zero => intro l hl; rw [List.length_eq_zero_iff.1 hl]; exact h0
    | succ n ih =>
      intro l hl
      rcases List.eq_nil_or_concat l with rfl | ⟨l', x, rfl⟩
      · exact h0
      · rw [List.concat_eq_append] at hl ⊢
        exact h1 l' x (ih l' (by simpa using hl))
  exact this _ l rfl

theorem pubRun_snoc (c : Writer.Config) (s : PubSt) (h : List PubOp) (o : PubOp) :
    pubRun c s (h ++ [o]) = ((pubStep c (pubRun c s h).1 o).1, (pubRun c s h).2 ++ [(pubStep c (pubRun c s h).1 o).2]) := by
  induction h generalizing s with
  | nil => rfl
  | cons x h ih => simp only [List.cons_append, pubRun, ih]

theorem subRun_snoc (c : Reader.Config) (s : SubSt) (h : List SubOp) (o : SubOp) :
    subRun c s (h ++ [o]) = ((subStep c (subRun c s h).1 o).1, (subRun c s h).2 ++ (subStep c (subRun c s h).1 o).2) := by
  induction h generalizing s with
  | nil => simp [subRun]
  | cons x h ih => simp only [List.cons_append, subRun, ih, List.append_assoc]

theorem bytesLt_total : ∀ (a b : Bytes), a ≠ b → bytesLt a b = false → bytesLt b a = true
  | [], [], h, _ => absurd rfl h
  | [], _ :: _, _, h => by simp [bytesLt] at h
  | _ :: _, [], _, _ => rfl
  | x :: a, y :: b, hne, h => by
    simp only [bytesLt] at h ⊢
    by_cases h1 : x.toNat < y.toNat
    · simp [h1] at h
    · by_cases h2 : y.toNat < x.toNat
      · simp [h2]
      · have hxy : x = y := UInt8.toNat_inj.1 (by omega)
        subst hxy
        simp only [Nat.lt_irrefl, if_false] at h ⊢
        exact bytesLt_total a b (fun e => hne (by rw [e])) h

theorem bytesLt_trans : ∀ (a b c : Bytes), bytesLt a b = true → bytesLt b c = true → bytesLt a c = true
  | [], [], _, h, _ => by simp [bytesLt] at h
  | _ :: _, [], _, h, _ => by simp [bytesLt] at h
  | _, _ :: _, [], _, h => by simp [bytesLt] at h
  | [], _ :: _, _ :: _, _, _ => rfl
  | x :: a, y :: b, z :: c, h, k => by
    simp only [bytesLt] at h k ⊢
    by_cases h1 : x.toNat < y.toNat
    · by_cases h2 : y.toNat < z.toNat
      · rw [if_pos (by omega)]
      · by_cases h3 : z.toNat < y.toNat
        · simp [h3, h2] at k
        · rw [if_pos (by omega)]
    · by_cases h1' : y.toNat < x.toNat
      · simp [h1, h1'] at h
      · by_cases h2 : y.toNat < z.toNat
        · rw [if_pos (by omega)]
        · by_cases h3 : z.toNat < y.toNat
          · simp [h3, h2] at k
          · rw [if_neg (by omega), if_neg (by omega)]
            rw [if_neg h1, if_neg h1'] at h
            rw [if_neg h2, if_neg h3] at k
            exact bytesLt_trans a b c h k

theorem isMap_fun (l : List (Bytes × Bytes)) (h : IsMap l) (n v v' : Bytes) (hv : (n, v) ∈ l) (hv' : (n, v') ∈ l) : v = v' := by
  induction l with
  | nil => cases hv
  | cons q l ih =>
    have hp := List.pairwise_cons.1 h
    have irr := Wire.bytesLt_irrefl n
    rcases List.mem_cons.1 hv with e | hv1 <;> rcases List.mem_cons.1 hv' with e' | hv1'
    · rw [← e'] at e; cases e; rfl
    · have := hp.1 _ hv1'; rw [← e] at this; rw [irr] at this; cases this
    · have := hp.1 _ hv1; rw [← e'] at this; rw [irr] at this; cases this
    · exact ih hp.2 hv1 hv1'

theorem mapInsert_spec (l : List (Bytes × Bytes)) (p : Bytes × Bytes) (h : IsMap l) :
    IsMap (mapInsert l p) ∧ ∀ q : Bytes × Bytes, q ∈ mapInsert l p ↔ q = p ∨ (q ∈ l ∧ q.1 ≠ p.1) := by
  induction l with
  | nil => exact ⟨List.pairwise_cons.2 ⟨by simp, List.Pairwise.nil⟩, by simp [mapInsert]⟩
  | cons x l ih =>
    have hp := List.pairwise_cons.1 h
    have ih := ih hp.2
    simp only [mapInsert]
    by_cases hx : x.1 = p.1
    · rw [if_pos hx]
      refine ⟨List.pairwise_cons.2 ⟨fun y hy => by rw [← hx]; exact hp.1 y hy, hp.2⟩, fun q => ?_⟩
      constructor
      · intro hq
        rcases List.mem_cons.1 hq with rfl | hq
        · exact Or.inl rfl
        · refine Or.inr ⟨List.mem_cons_of_mem _ hq, fun e => ?_⟩
          have := hp.1 q hq
          rw [hx, e, Wire.bytesLt_irrefl] at this
          cases this
      · rintro (rfl | ⟨hq, hne⟩)
        · simp
        · rcases List.mem_cons.1 hq with rfl | hq
          · exact absurd hx hne
          · exact List.mem_cons_of_mem _ hq
    · rw [if_neg hx]
      by_cases hl : bytesLt p.1 x.1 = true
      · rw [if_pos hl]
        refine ⟨List.pairwise_cons.2 ⟨?_, h⟩, fun q => ?_⟩
        · intro y hy
          rcases List.mem_cons.1 hy with rfl | hy
          · exact hl
          · exact bytesLt_trans _ _ _ hl (hp.1 y hy)
        · constructor
          · intro hq
            rcases List.mem_cons.1 hq with rfl | hq
            · exact Or.inl rfl
            · refine Or.inr ⟨hq, fun e => ?_⟩
              rcases List.mem_cons.1 hq with rfl | hq
              · exact hx e
              · have := bytesLt_trans _ _ _ hl (hp.1 q hq)
                rw [e, Wire.bytesLt_irrefl] at this
                cases this
          · rintro (rfl | ⟨hq, _⟩)
            · simp
            · exact List.mem_cons_of_mem _ hq
      · rw [if_neg hl]
        have hl' : bytesLt p.1 x.1 = false := by simpa using hl
        refine ⟨List.pairwise_cons.2 ⟨?_, ih.1⟩, fun q => ?_⟩
        · intro y hy
          rcases (ih.2 y).1 hy with rfl | ⟨hy, _⟩
          · exact bytesLt_total _ _ (fun e => hx e.symm) hl'
          · exact hp.1 y hy
        · constructor
          · intro hq
            rcases List.mem_cons.1 hq with rfl | hq
            · exact Or.inr ⟨List.mem_cons_self, hx⟩
            · rcases (ih.2 q).1 hq with rfl | ⟨h1, h2⟩
              · exact Or.inl rfl
              · exact Or.inr ⟨List.mem_cons_of_mem _ h1, h2⟩
          · rintro (rfl | ⟨hq, hne⟩)
            · exact List.mem_cons_of_mem _ ((ih.2 q).2 (Or.inl rfl))
            · rcases List.mem_cons.1 hq with rfl | hq
              · simp
              · exact List.mem_cons_of_mem _ ((ih.2 q).2 (Or.inr ⟨hq, hne⟩))

theorem mapErase_map (l : List (Bytes × Bytes)) (n : Bytes) (h : IsMap l) : IsMap (mapErase l n) := List.Pairwise.filter _ h

theorem mem_mapErase (l : List (Bytes × Bytes)) (n : Bytes) (q : Bytes × Bytes) : q ∈ mapErase l n ↔ q ∈ l ∧ q.1 ≠ n := by
  simp [mapErase]

/-! ### Publisher state against the history -/

theorem pub_attr (c : Writer.Config) (i : Info) (h : List PubOp) :
    IsMap (pubRun c (pubNew i) h).1.attr ∧ ∀ n v : Bytes, (n, v) ∈ (pubRun c (pubNew i) h).1.attr ↔ AttrIs h n v := by
  induction h using snocInd with
  | h0 =>
    refine ⟨List.Pairwise.nil, fun n v => ⟨fun hm => ?_, fun hs => absurd hs (since_nil _ _)⟩⟩
    simp [pubRun, pubNew] at hm
  | h1 h o ih =>
    rw [pubRun_snoc]
    simp only [AttrIs, since_snoc] at ih ⊢
    have key : (pubStep c (pubRun c (pubNew i) h).1 o).1.attr = (pubRun c (pubNew i) h).1.attr →
        (∀ n v : Bytes, o ≠ .setAttr n v) → (∀ n : Bytes, o ≠ .clearAttr n) →
        IsMap (pubStep c (pubRun c (pubNew i) h).1 o).1.attr ∧ ∀ n v : Bytes, (n, v) ∈ (pubStep c (pubRun c (pubNew i) h).1 o).1.attr ↔
          o = .setAttr n v ∨ ¬ ((∃ v' : Bytes, o = .setAttr n v') ∨ o = .clearAttr n) ∧
            Since (fun o => o = .setAttr n v) (fun o => (∃ v' : Bytes, o = .setAttr n v') ∨ o = .clearAttr n) h := by
      intro hk h1 h2
      rw [hk]
      refine ⟨ih.1, fun n v => ?_⟩
      rw [ih.2]
      constructor
      · intro hs
        refine Or.inr ⟨?_, hs⟩
        rintro (⟨v', e⟩ | e)
        · exact h1 _ _ e
        · exact h2 _ e
      · rintro (e | ⟨_, hs⟩)
        · exact absurd e (h1 n v)
        · exact hs
    cases o with
    | setInfo x => exact key rfl (by intro n v e; cases e) (by intro n e; cases e)
    | setId x => exact key rfl (by intro n v e; cases e) (by intro n e; cases e)
    | join p ls => exact key rfl (by intro n v e; cases e) (by intro n e; cases e)
    | leave p => exact key rfl (by intro n v e; cases e) (by intro n e; cases e)
    | send pl t ok =>
      refine key ?_ (by intro n v e; cases e) (by intro n e; cases e)
      simp only [pubStep]
      split <;> rfl
    | setAttr n' v' =>
      have := mapInsert_spec (pubRun c (pubNew i) h).1.attr (n', v') ih.1
      refine ⟨this.1, fun n v => ?_⟩
      simp only [pubStep]
      rw [this.2, ih.2]
      constructor
      · rintro (e | ⟨hs, hne⟩)
        · cases e; exact Or.inl rfl
        · refine Or.inr ⟨?_, hs⟩
          rintro (⟨w, e⟩ | e)
          · cases e; exact hne rfl
          · cases e
      · rintro (e | ⟨hn, hs⟩)
        · cases e; exact Or.inl rfl
        · refine Or.inr ⟨hs, fun e => hn (Or.inl ⟨v', ?_⟩)⟩
          simp only at e
          rw [e]
    | clearAttr n' =>
      refine ⟨mapErase_map _ _ ih.1, fun n v => ?_⟩
      simp only [pubStep]
      rw [mem_mapErase, ih.2]
      constructor
      · rintro ⟨hs, hne⟩
        refine Or.inr ⟨?_, hs⟩
        rintro (⟨w, e⟩ | e)
        · cases e
        · cases e; exact hne rfl
      · rintro (e | ⟨hn, hs⟩)
        · cases e
        · refine ⟨hs, fun e => hn (Or.inr ?_)⟩
          simp only at e
          rw [e]

theorem pub_info (c : Writer.Config) (i0 : Info) (h : List PubOp) (i : Info) : InfoIs i0 h i ↔ i = (pubRun c (pubNew i0) h).1.info := by
  induction h using snocInd generalizing i with
  | h0 =>
    simp only [InfoIs]
    constructor
    · rintro (hs | ⟨_, e⟩)
      · exact absurd hs (since_nil _ _)
      · exact e
    · intro e; exact Or.inr ⟨by simp, e⟩
  | h1 h o ih =>
    rw [pubRun_snoc]
    simp only [InfoIs, since_snoc] at ih ⊢
    have key : (pubStep c (pubRun c (pubNew i0) h).1 o).1.info = (pubRun c (pubNew i0) h).1.info → (∀ x : Info, o ≠ .setInfo x) →
        (((o = .setInfo i ∨ (¬ ∃ i' : Info, o = .setInfo i') ∧ Since (fun o => o = .setInfo i) (fun o => ∃ i' : Info, o = .setInfo i') h) ∨
          (∀ i' : Info, .setInfo i' ∉ h ++ [o]) ∧ i = i0) ↔ i = (pubStep c (pubRun c (pubNew i0) h).1 o).1.info) := by
      intro hk hne
      rw [hk, ← ih i]
      have hm : (∀ i' : Info, .setInfo i' ∉ h ++ [o]) ↔ (∀ i' : Info, .setInfo i' ∉ h) := by
        constructor
        · intro H i' hi; exact H i' (List.mem_append_left _ hi)
        · intro H i' hi
          rcases List.mem_append.1 hi with hi | hi
          · exact H i' hi
          · exact hne i' (List.mem_singleton.1 hi).symm
      rw [hm]
      constructor
      · rintro ((e | ⟨_, hs⟩) | hr)
        · exact absurd e (hne i)
        · exact Or.inl hs
        · exact Or.inr hr
      · rintro (hs | hr)
        · exact Or.inl (Or.inr ⟨fun ⟨x, e⟩ => hne x e, hs⟩)
        · exact Or.inr hr
    cases o with
    | setInfo x =>
      simp only [pubStep]
      constructor
      · rintro ((e | ⟨hn, _⟩) | ⟨hn, _⟩)
        · cases e; rfl
        · exact absurd ⟨x, rfl⟩ hn
        · exact absurd (List.mem_append_right h (List.mem_singleton.2 rfl)) (hn x)
      · intro e; exact Or.inl (Or.inl (by rw [e]))
    | setId x => exact key rfl (by intro _ e; cases e)
    | setAttr n v => exact key rfl (by intro _ e; cases e)
    | clearAttr n => exact key rfl (by intro _ e; cases e)
    | join p ls => exact key rfl (by intro _ e; cases e)
    | leave p => exact key rfl (by intro _ e; cases e)
    | send pl t ok => exact key (by simp only [pubStep]; split <;> rfl) (by intro _ e; cases e)

theorem pub_setId (c : Writer.Config) (i0 : Info) (h : List PubOp) (i : Int) : IdIs h i ↔ i = (pubRun c (pubNew i0) h).1.setId := by
  induction h using snocInd generalizing i with
  | h0 =>
    simp only [IdIs]
    constructor
    · rintro (hs | ⟨_, e⟩)
      · exact absurd hs (since_nil _ _)
      · exact e
    · intro e; exact Or.inr ⟨by simp, e⟩
  | h1 h o ih =>
    rw [pubRun_snoc]
    simp only [IdIs, since_snoc] at ih ⊢
    have key : (pubStep c (pubRun c (pubNew i0) h).1 o).1.setId = (pubRun c (pubNew i0) h).1.setId → (∀ x : Int, o ≠ .setId x) →
        (((o = .setId i ∨ (¬ ∃ j : Int, o = .setId j) ∧ Since (fun o => o = .setId i) (fun o => ∃ j : Int, o = .setId j) h) ∨
          (∀ j : Int, .setId j ∉ h ++ [o]) ∧ i = 0) ↔ i = (pubStep c (pubRun c (pubNew i0) h).1 o).1.setId) := by
      intro hk hne
      rw [hk, ← ih i]
      have hm : (∀ j : Int, .setId j ∉ h ++ [o]) ↔ (∀ j : Int, .setId j ∉ h) := by
        constructor
        · intro H i' hi; exact H i' (List.mem_append_left _ hi)
        · intro H i' hi
          rcases List.mem_append.1 hi with hi | hi
          · exact H i' hi
          · exact hne i' (List.mem_singleton.1 hi).symm
      rw [hm]
      constructor
      · rintro ((e | ⟨_, hs⟩) | hr)
        · exact absurd e (hne i)
        · exact Or.inl hs
        · exact Or.inr hr
      · rintro (hs | hr)
        · exact Or.inl (Or.inr ⟨fun ⟨x, e⟩ => hne x e, hs⟩)
        · exact Or.inr hr
    cases o with
    | setId x =>
      simp only [pubStep]
      constructor
      · rintro ((e | ⟨hn, _⟩) | ⟨hn, _⟩)
        · cases e; rfl
        · exact absurd ⟨x, rfl⟩ hn
        · exact absurd (List.mem_append_right h (List.mem_singleton.2 rfl)) (hn x)
      · intro e; exact Or.inl (Or.inl (by rw [e]))
    | setInfo x => exact key rfl (by intro _ e; cases e)
    | setAttr n v => exact key rfl (by intro _ e; cases e)
    | clearAttr n => exact key rfl (by intro _ e; cases e)
    | join p ls => exact key rfl (by intro _ e; cases e)
    | leave p => exact key rfl (by intro _ e; cases e)
    | send pl t ok => exact key (by simp only [pubStep]; split <;> rfl) (by intro _ e; cases e)

theorem start_other (st : Writer.State) (t : Option Writer.TL) :
    (Writer.start st t).subs = st.subs ∧ (Writer.start st t).created = st.created ∧ (Writer.start st t).clock = st.clock ∧
    (st.udp = true → (Writer.start st t).udp = true) ∧ (st.shm = true → (Writer.start st t).shm = true) ∧ (st.tcp = true → (Writer.start st t).tcp = true) := by
  unfold Writer.start
  split <;> simp_all

theorem pub_created (c : Writer.Config) (i : Info) (h : List PubOp) : (pubRun c (pubNew i) h).1.w.created = true := by
  induction h using snocInd with
  | h0 => rfl
  | h1 h o ih =>
    rw [pubRun_snoc]
    cases o with
    | join p ls => simp only [pubStep, Writer.step]; rw [(start_other _ _).2.1]; exact ih
    | send pl t ok =>
      simp only [pubStep, Writer.step, ih, Writer.write]
      repeat' split
      all_goals simp_all
    | _ => exact ih

theorem pub_subs (c : Writer.Config) (i : Info) (h : List PubOp) :
    (pubRun c (pubNew i) h).1.w.subs.Nodup ∧ ∀ p : Conn.Peer, p ∈ (pubRun c (pubNew i) h).1.w.subs ↔ Subscribed h p := by
  induction h using snocInd with
  | h0 =>
    refine ⟨List.Pairwise.nil, fun p => ⟨fun hm => ?_, fun hs => absurd hs (since_nil _ _)⟩⟩
    simp [pubRun, pubNew, Writer.init] at hm
  | h1 h o ih =>
    rw [pubRun_snoc]
    simp only [Subscribed, since_snoc] at ih ⊢
    have key : (pubStep c (pubRun c (pubNew i) h).1 o).1.w.subs = (pubRun c (pubNew i) h).1.w.subs →
        (∀ (p : Conn.Peer) (ls : List Gate.Layer), o ≠ .join p ls) → (∀ p : Conn.Peer, o ≠ .leave p) →
        (pubStep c (pubRun c (pubNew i) h).1 o).1.w.subs.Nodup ∧ ∀ p : Conn.Peer, p ∈ (pubStep c (pubRun c (pubNew i) h).1 o).1.w.subs ↔
          (∃ ls : List Gate.Layer, o = .join p ls) ∨ ¬ o = .leave p ∧ Since (fun o => ∃ ls : List Gate.Layer, o = .join p ls) (fun o => o = .leave p) h := by
      intro hk h1 h2
      rw [hk]
      refine ⟨ih.1, fun p => ?_⟩
      rw [ih.2]
      exact ⟨fun hs => Or.inr ⟨h2 p, hs⟩, fun H => H.elim (fun ⟨ls, e⟩ => absurd e (h1 p ls)) (fun H => H.2)⟩
    cases o with
    | setInfo x => exact key rfl (by intro _ _ e; cases e) (by intro _ e; cases e)
    | setId x => exact key rfl (by intro _ _ e; cases e) (by intro _ e; cases e)
    | setAttr n v => exact key rfl (by intro _ _ e; cases e) (by intro _ e; cases e)
    | clearAttr n => exact key rfl (by intro _ _ e; cases e) (by intro _ e; cases e)
    | send pl t ok =>
      refine key ?_ (by intro _ _ e; cases e) (by intro _ e; cases e)
      have hc := pub_created c i h
      simp only [pubStep, Writer.step, hc, Writer.write]
      repeat' split
      all_goals simp_all
    | join p ls =>
      simp only [pubStep, Writer.step]
      rw [(start_other _ _).1]
      by_cases hp : p ∈ (pubRun c (pubNew i) h).1.w.subs
      · rw [if_pos hp]
        refine ⟨ih.1, fun q => ?_⟩
        rw [ih.2]
        constructor
        · intro hs; exact Or.inr ⟨by simp, hs⟩
        · rintro (⟨ls', e⟩ | ⟨_, hs⟩)
          · cases e; exact (ih.2 _).1 hp
          · exact hs
      · rw [if_neg hp]
        refine ⟨List.nodup_cons.2 ⟨hp, ih.1⟩, fun q => ?_⟩
        rw [List.mem_cons, ih.2]
        constructor
        · rintro (e | hs)
          · exact Or.inl ⟨ls, by rw [e]⟩
          · exact Or.inr ⟨by simp, hs⟩
        · rintro (⟨ls', e⟩ | ⟨_, hs⟩)
          · cases e; exact Or.inl rfl
          · exact Or.inr hs
    | leave p =>
      simp only [pubStep, Writer.step]
      refine ⟨List.Pairwise.filter _ ih.1, fun q => ?_⟩
      rw [List.mem_filter, ih.2]
      constructor
      · rintro ⟨hs, hne⟩
        refine Or.inr ⟨fun e => ?_, hs⟩
        cases e
        simp at hne
      · rintro (⟨ls', e⟩ | ⟨hne, hs⟩)
        · cases e
        · refine ⟨hs, ?_⟩
          have : q ≠ p := fun e => hne (by rw [e])
          simp [this]

theorem pub_clock (c : Writer.Config) (i : Info) (h : List PubOp) :
    (pubRun c (pubNew i) h).1.w.clock = (h.filter isSend).length := by
  induction h using snocInd with
  | h0 => rfl
  | h1 h o ih =>
    have hc := pub_created c i h
    rw [pubRun_snoc, List.filter_append, List.length_append, ← ih]
    cases o with
    | join p ls => simp only [pubStep, Writer.step]; rw [(start_other _ _).2.2.1]; rfl
    | send pl t ok =>
      rw [show (List.filter isSend [PubOp.send pl t ok]).length = 1 from rfl]
      simp only [pubStep, Writer.step, hc]
      by_cases he : (pubRun c (pubNew i) h).1.w.subs.isEmpty = true
      · simp [he]
      · simp [he, Writer.write]
    | _ => rfl

theorem subs_empty (c : Writer.Config) (i : Info) (h : List PubOp) :
    (pubRun c (pubNew i) h).1.w.subs.isEmpty = false ↔ ∃ p : Conn.Peer, Subscribed h p := by
  have hs := (pub_subs c i h).2
  cases hl : (pubRun c (pubNew i) h).1.w.subs with
  | nil =>
    rw [hl] at hs
    simp only [List.isEmpty_nil, Bool.true_eq_false, false_iff]
    rintro ⟨p, hp⟩
    exact List.not_mem_nil ((hs p).2 hp)
  | cons p l =>
    rw [hl] at hs
    simp only [List.isEmpty_cons, true_iff]
    exact ⟨p, (hs p).1 List.mem_cons_self⟩

theorem pub_keep (c : Writer.Config) (s : PubSt) (o : PubOp) (ho : isSend o = false) :
    (pubStep c s o).1.id = s.id ∧ (pubStep c s o).1.size = s.size := by
  cases o <;> first | exact ⟨rfl, rfl⟩ | cases ho

theorem pub_keeps (c : Writer.Config) (i : Info) (a b : List PubOp) (hb : ∀ o ∈ b, isSend o = false) :
    (pubRun c (pubNew i) (a ++ b)).1.id = (pubRun c (pubNew i) a).1.id ∧ (pubRun c (pubNew i) (a ++ b)).1.size = (pubRun c (pubNew i) a).1.size := by
  induction b using snocInd with
  | h0 => simp
  | h1 b o ih =>
    rw [← List.append_assoc, pubRun_snoc]
    have := ih (fun x hx => hb x (List.mem_append_left _ hx))
    have hk := pub_keep c (pubRun c (pubNew i) (a ++ b)).1 o (hb o (by simp))
    exact ⟨hk.1.trans this.1, hk.2.trans this.2⟩

/-- Layers of the attempts of one call. -/
def TriedBy (l : Reader.Layer) (h : List (Tried × Nat)) : Prop := ∃ r ∈ h, ∃ b : Bool, (l, b) ∈ r.1

theorem pub_layers (c : Writer.Config) (i : Info) (h : List PubOp) :
    let r := pubRun c (pubNew i) h
    (r.1.udp = true ↔ TriedBy .udp r.2) ∧ (r.1.shm = true ↔ TriedBy .shm r.2) ∧ (r.1.tcp = true ↔ TriedBy .tcp r.2) ∧
    (r.1.udp = true → r.1.w.udp = true) ∧ (r.1.shm = true → r.1.w.shm = true) ∧ (r.1.tcp = true → r.1.w.tcp = true) := by
  induction h using snocInd with
  | h0 => simp [pubRun, pubNew, TriedBy]
  | h1 h o ih =>
    have hc := pub_created c i h
    simp only at ih ⊢
    rw [pubRun_snoc]
    have snoc : ∀ (l : Reader.Layer) (x : Tried × Nat), TriedBy l ((pubRun c (pubNew i) h).2 ++ [x]) ↔ TriedBy l (pubRun c (pubNew i) h).2 ∨ ∃ b : Bool, (l, b) ∈ x.1 := by
      intro l x
      simp only [TriedBy, List.mem_append, List.mem_singleton]
      constructor
      · rintro ⟨r, hr | rfl, hb⟩
        · exact Or.inl ⟨r, hr, hb⟩
        · exact Or.inr hb
      · rintro (⟨r, hr, hb⟩ | hb)
        · exact ⟨r, Or.inl hr, hb⟩
        · exact ⟨x, Or.inr rfl, hb⟩
    simp only [snoc, ← ih.1, ← ih.2.1, ← ih.2.2.1]
    have ih := ih.2.2.2
    cases o with
    | join p ls =>
      simp only [pubStep, Writer.step]
      have := fun t => start_other (pubRun c (pubNew i) h).1.w t
      refine ⟨by simp, by simp, by simp, fun hu => (this _).2.2.2.1 (ih.1 hu), fun hu => (this _).2.2.2.2.1 (ih.2.1 hu), fun hu => (this _).2.2.2.2.2 (ih.2.2 hu)⟩
    | send pl t ok =>
      generalize (pubRun c (pubNew i) h).1 = s at *
      simp only [pubStep, Writer.step, hc]
      by_cases he : s.w.subs.isEmpty = true
      · simp [he]; exact ih
      · simp only [he, Writer.write]
        cases hu : s.w.udp <;> cases hs : s.w.shm <;> cases ht : s.w.tcp <;> simp_all [Writer.copyOf]
    | _ => simpa [pubStep, Writer.step] using ih

theorem tried_send (c : Writer.Config) (i : Info) (e : Env) (f : Fixed) (h : List PubOp) :
    let r := pubRun c (pubNew i) h
    (entry (pubSample c f e r.1)).udp = r.1.udp ∧ (entry (pubSample c f e r.1)).shm = r.1.shm ∧ (entry (pubSample c f e r.1)).tcp = r.1.tcp := by
  have hl := (pub_layers c i h).2.2.2
  simp only at hl ⊢
  generalize (pubRun c (pubNew i) h).1 = s at *
  simp only [entry, pubSample, anyActive]
  cases hu : s.w.udp <;> cases hs : s.w.shm <;> cases ht : s.w.tcp <;> cases ku : s.udp <;> cases ks : s.shm <;> cases kt : s.tcp <;>
    simp_all [layer]

theorem pub_entry (c : Writer.Config) (f : Fixed) (i : Info) (h : List PubOp) (e : Env) (hf : PubFits c f i h e) (en : Entry) :
    PubShown c f i h e en ↔ en = entry (pubSample c f e (pubRun c (pubNew i) h).1) := by
  have := Wire.C28_topic_complete (pubSample c f e (pubRun c (pubNew i) h).1) (Or.inl rfl) (pub_attr c i h).1 hf rfl ⟨rfl, rfl, rfl⟩
  unfold PubShown
  rw [this]
  constructor
  · rintro ⟨m', hm, rfl⟩; cases hm; rfl
  · intro e; exact ⟨_, rfl, e⟩

/-! ### Subscriber state against the history -/

def dataOp : SubOp → Option Reader.Op
  | .data o => some o
  | _ => none

theorem readerRun_append (c : Reader.Config) (s : Reader.State) (a b : List Reader.Op) :
    Reader.run c s (a ++ b) = ((Reader.run c (Reader.run c s a).1 b).1, (Reader.run c s a).2 ++ (Reader.run c (Reader.run c s a).1 b).2) := by
  induction a generalizing s with
  | nil => simp [Reader.run]
  | cons x a ih => simp only [List.cons_append, Reader.run, ih, List.append_assoc]

theorem sub_reader (c : Reader.Config) (h : List SubOp) :
    ((subRun c {} h).1.r, (subRun c {} h).2) = Reader.run c Reader.init (h.filterMap dataOp) := by
  induction h using snocInd with
  | h0 => rfl
  | h1 h o ih =>
    have ih1 := congrArg Prod.fst ih
    have ih2 := congrArg Prod.snd ih
    simp only at ih1 ih2
    rw [subRun_snoc, List.filterMap_append, readerRun_append, ← ih1, ← ih2]
    cases o with
    | data o => simp [subStep, dataOp, Reader.run]
    | _ => rfl

theorem sub_attr (c : Reader.Config) (h : List SubOp) :
    IsMap (subRun c {} h).1.attr ∧ ∀ n v : Bytes, (n, v) ∈ (subRun c {} h).1.attr ↔ SubAttrIs h n v := by
  induction h using snocInd with
  | h0 =>
    refine ⟨List.Pairwise.nil, fun n v => ⟨fun hm => ?_, fun hs => absurd hs (since_nil _ _)⟩⟩
    simp [subRun] at hm
  | h1 h o ih =>
    rw [subRun_snoc]
    simp only [SubAttrIs, since_snoc] at ih ⊢
    have key : (subStep c (subRun c {} h).1 o).1.attr = (subRun c {} h).1.attr →
        (∀ n v : Bytes, o ≠ .setAttr n v) → (∀ n : Bytes, o ≠ .clearAttr n) →
        IsMap (subStep c (subRun c {} h).1 o).1.attr ∧ ∀ n v : Bytes, (n, v) ∈ (subStep c (subRun c {} h).1 o).1.attr ↔
          o = .setAttr n v ∨ ¬ ((∃ v' : Bytes, o = .setAttr n v') ∨ o = .clearAttr n) ∧
            Since (fun o => o = .setAttr n v) (fun o => (∃ v' : Bytes, o = .setAttr n v') ∨ o = .clearAttr n) h := by
      intro hk h1 h2
      rw [hk]
      refine ⟨ih.1, fun n v => ?_⟩
      rw [ih.2]
      constructor
      · intro hs
        refine Or.inr ⟨?_, hs⟩
        rintro (⟨v', e⟩ | e)
        · exact h1 _ _ e
        · exact h2 _ e
      · rintro (e | ⟨_, hs⟩)
        · exact absurd e (h1 n v)
        · exact hs
    cases o with
    | data x => exact key rfl (by intro n v e; cases e) (by intro n e; cases e)
    | join p => exact key rfl (by intro n v e; cases e) (by intro n e; cases e)
    | leave p => exact key rfl (by intro n v e; cases e) (by intro n e; cases e)
    | setAttr n' v' =>
      have := mapInsert_spec (subRun c {} h).1.attr (n', v') ih.1
      refine ⟨this.1, fun n v => ?_⟩
      simp only [subStep]
      rw [this.2, ih.2]
      constructor
      · rintro (e | ⟨hs, hne⟩)
        · cases e; exact Or.inl rfl
        · refine Or.inr ⟨?_, hs⟩
          rintro (⟨w, e⟩ | e)
          · cases e; exact hne rfl
          · cases e
      · rintro (e | ⟨hn, hs⟩)
        · cases e; exact Or.inl rfl
        · refine Or.inr ⟨hs, fun e => hn (Or.inl ⟨v', ?_⟩)⟩
          simp only at e
          rw [e]
    | clearAttr n' =>
      refine ⟨mapErase_map _ _ ih.1, fun n v => ?_⟩
      simp only [subStep]
      rw [mem_mapErase, ih.2]
      constructor
      · rintro ⟨hs, hne⟩
        refine Or.inr ⟨?_, hs⟩
        rintro (⟨w, e⟩ | e)
        · cases e
        · cases e; exact hne rfl
      · rintro (e | ⟨hn, hs⟩)
        · cases e
        · refine ⟨hs, fun e => hn (Or.inr ?_)⟩
          simp only at e
          rw [e]

theorem sub_entry (c : Reader.Config) (f : Fixed) (i : Info) (h : List SubOp) (e : Env) (hf : SubFits c f i h e) (en : Entry) :
    SubShown c f i h e en ↔ en = entry (subSample c f e i (subRun c {} h).1) := by
  have := Wire.C28_topic_complete (subSample c f e i (subRun c {} h).1) (Or.inr (Or.inr (Or.inl rfl))) (sub_attr c h).1 hf rfl ⟨rfl, rfl, rfl⟩
  unfold SubShown
  rw [this]
  constructor
  · rintro ⟨m', hm, rfl⟩; cases hm; rfl
  · intro e; exact ⟨_, rfl, e⟩

/-- Reception keeps the size of the last sample it handed on. -/
theorem reader_size (c : Reader.Config) (h : List Reader.Op) :
    ∀ (l : List Reader.Sample) (x : Reader.Sample), Reader.delivered (Reader.run c Reader.init h).2 = l ++ [x] →
      (Reader.run c Reader.init h).1.size = x.payload.length := by
  induction h using snocInd with
  | h0 => intro l x hl; simp [Reader.run] at hl
  | h1 h o ih =>
    intro l x
    rw [readerRun_append, Reader.delivered_append]
    simp only [Reader.run, List.append_nil]
    generalize (Reader.run c Reader.init h).1 = s at *
    have hd : (Reader.delivered (Reader.step c s o).2 = [] ∧ (Reader.step c s o).1.size = s.size) ∨
        ∃ y : Reader.Sample, Reader.delivered (Reader.step c s o).2 = [y] ∧ (Reader.step c s o).1.size = y.payload.length := by
      cases o with
      | sample y =>
        simp only [Reader.step, Reader.applySample]
        repeat' split
        all_goals first
          | (left; simp [Reader.delivered, Reader.Ev.sample?]; done)
          | (right; exact ⟨y, rfl, rfl⟩)
      | read => simp only [Reader.step, Reader.read]; left; repeat' split
                all_goals simp [Reader.delivered, Reader.Ev.sample?]
      | addCb => simp only [Reader.step]; left; split <;> simp [Reader.delivered]
      | remCb => simp only [Reader.step]; left; split <;> simp [Reader.delivered]
      | setId ids => left; simp [Reader.step, Reader.delivered]
      | stop => simp only [Reader.step]; left; split <;> simp [Reader.delivered]
    rcases hd with ⟨h0, h1⟩ | ⟨y, h0, h1⟩
    · rw [h0, h1, List.append_nil]
      exact ih l x
    · rw [h0, h1]
      intro e
      have := (List.append_inj' e rfl).2
      cases this
      rfl

/-- A layer counts as active as soon as a sample has come in by it. -/
theorem reader_active (c : Reader.Config) (h : List Reader.Op) (hn : .stop ∉ h) :
    (Reader.run c Reader.init h).1.created = true ∧
    ∀ l : Reader.Layer, l ∈ (Reader.run c Reader.init h).1.active ↔ Reader.layerEnabled c l = true ∧ ∃ s : Reader.Sample, .sample s ∈ h ∧ s.layer = l := by
  induction h using snocInd with
  | h0 => simp [Reader.run, Reader.init]
  | h1 h o ih =>
    have ih := ih (fun hm => hn (List.mem_append_left _ hm))
    rw [readerRun_append]
    simp only [Reader.run]
    generalize (Reader.run c Reader.init h).1 = s at *
    have key : (Reader.step c s o).1.created = true → (Reader.step c s o).1.active = s.active → (∀ y : Reader.Sample, o ≠ .sample y) →
        (Reader.step c s o).1.created = true ∧ ∀ l : Reader.Layer, l ∈ (Reader.step c s o).1.active ↔
          Reader.layerEnabled c l = true ∧ ∃ y : Reader.Sample, .sample y ∈ h ++ [o] ∧ y.layer = l := by
      intro h1 h2 h3
      refine ⟨h1, fun l => ?_⟩
      rw [h2, ih.2]
      constructor
      · rintro ⟨hl, y, hy, e⟩; exact ⟨hl, y, List.mem_append_left _ hy, e⟩
      · rintro ⟨hl, y, hy, e⟩
        rcases List.mem_append.1 hy with hy | hy
        · exact ⟨hl, y, hy, e⟩
        · exact absurd (List.mem_singleton.1 hy).symm (h3 y)
    have hc := ih.1
    cases o with
    | stop => exact absurd (List.mem_append_right h (List.mem_singleton.2 rfl)) hn
    | setId ids => exact key hc rfl (by intro y e; cases e)
    | addCb => exact key (by simp [Reader.step, hc]) (by simp [Reader.step, hc]) (by intro y e; cases e)
    | remCb => exact key (by simp [Reader.step, hc]) (by simp [Reader.step, hc]) (by intro y e; cases e)
    | read =>
      refine key ?_ ?_ (by intro y e; cases e) <;>
        · simp only [Reader.step, Reader.read]
          repeat' split
          all_goals first | exact hc | rfl
    | sample y =>
      have ha : (Reader.step c s (.sample y)).1.created = true ∧ (Reader.step c s (.sample y)).1.active =
          if Reader.layerEnabled c y.layer = true then (if y.layer ∈ s.active then s.active else y.layer :: s.active) else s.active := by
        simp only [Reader.step, Reader.applySample, hc]
        by_cases hl : Reader.layerEnabled c y.layer = true
        · simp only [hl]
          repeat' split
          all_goals simp_all
        · simp [hl, hc]
      refine ⟨ha.1, fun l => ?_⟩
      rw [ha.2]
      have hex : (∃ z : Reader.Sample, Reader.Op.sample z ∈ h ++ [.sample y] ∧ z.layer = l) ↔ (∃ z : Reader.Sample, .sample z ∈ h ∧ z.layer = l) ∨ y.layer = l := by
        constructor
        · rintro ⟨z, hz, e⟩
          rcases List.mem_append.1 hz with hz | hz
          · exact Or.inl ⟨z, hz, e⟩
          · have := List.mem_singleton.1 hz
            cases this
            exact Or.inr e
        · rintro (⟨z, hz, e⟩ | e)
          · exact ⟨z, List.mem_append_left _ hz, e⟩
          · exact ⟨y, by simp, e⟩
      rw [hex]
      by_cases hl : Reader.layerEnabled c y.layer = true
      · rw [if_pos hl]
        by_cases hm : y.layer ∈ s.active
        · rw [if_pos hm, ih.2]
          constructor
          · rintro ⟨h1, h2⟩; exact ⟨h1, Or.inl h2⟩
          · rintro ⟨h1, h2 | rfl⟩
            · exact ⟨h1, h2⟩
            · exact (ih.2 _).1 hm
        · rw [if_neg hm, List.mem_cons, ih.2]
          constructor
          · rintro (rfl | ⟨h1, h2⟩)
            · exact ⟨hl, Or.inr rfl⟩
            · exact ⟨h1, Or.inl h2⟩
          · rintro ⟨h1, h2 | rfl⟩
            · exact Or.inr ⟨h1, h2⟩
            · exact Or.inl rfl
      · rw [if_neg hl, ih.2]
        constructor
        · rintro ⟨h1, h2⟩; exact ⟨h1, Or.inl h2⟩
        · rintro ⟨h1, h2 | rfl⟩
          · exact ⟨h1, h2⟩
          · exact absurd h1 hl

/-! ## Publishers -/

/-- **C131, shown.**  A registration of a publisher that arrives is shown, with one entry only. -/
theorem C131_shown (c : Writer.Config) (f : Fixed) (i : Info) (h : List PubOp) (e : Env) (hf : PubFits c f i h e) :
    ∃ en : Entry, PubShown c f i h e en ∧ ∀ en' : Entry, PubShown c f i h e en' → en' = en :=
  ⟨_, (pub_entry c f i h e hf _).2 rfl, fun en' hs => (pub_entry c f i h e hf en').1 hs⟩

/-- The same for a subscriber. -/
theorem C131_sub_shown (c : Reader.Config) (f : Fixed) (i : Info) (h : List SubOp) (e : Env) (hf : SubFits c f i h e) :
    ∃ en : Entry, SubShown c f i h e en ∧ ∀ en' : Entry, SubShown c f i h e en' → en' = en :=
  ⟨_, (sub_entry c f i h e hf _).2 rfl, fun en' hs => (sub_entry c f i h e hf en').1 hs⟩

/-- Configuration of the examples: all layers on, shared memory locally, multicast remotely. -/
def exC : Writer.Config :=
  { udp := true, shm := true, tcp := true, prioLocal := [.shm, .udp], prioRemote := [.udp], zeroCopy := false, host := "a", tid := "1", tidHash := 0 }

/-- A subscriber of the examples, on the same host. -/
def exP : Conn.Peer := { host := "a", pid := 7, tid := "2" }

/-- It receives by all layers. -/
def exL : List Gate.Layer := [⟨.udp, 2, true⟩, ⟨.shm, 2, true⟩, ⟨.tcp, 2, true⟩]

/-- One on another host. -/
def exQ : Conn.Peer := { host := "b", pid := 8, tid := "3" }

def exF : Fixed := { host := [97], group := [97], pid := 5, pname := [112], tname := [116], tid := [49] }

/-- A history of the examples. -/
def exH : List PubOp :=
  [.setAttr [97] [49], .setAttr [98] [50], .setId 9, .join exP exL, .join exQ exL, .send [1, 2, 3] 0 (fun _ => true), .clearAttr [98], .setAttr [97] [51], .leave exQ]

example : PubFits exC exF {} exH {} := by unfold PubFits; decide +kernel

/-- **C131, identity.**  Host, host group, process, topic name and id are those the publisher was created with, the unit name is
the one at the time of the registration. -/
theorem C131_identity (c : Writer.Config) (f : Fixed) (i : Info) (h : List PubOp) (e : Env) (hf : PubFits c f i h e) (en : Entry)
    (hs : PubShown c f i h e en) :
    en.hname = f.host ∧ en.hgname = f.group ∧ en.pid = f.pid ∧ en.pname = f.pname ∧ en.tname = f.tname ∧ en.tid = f.tid ∧
    en.uname = e.unit ∧ en.dfreq = e.freq ∧ en.publisher = true ∧ en.drops = 0 := by
  rw [(pub_entry c f i h e hf en).1 hs]
  exact ⟨rfl, rfl, rfl, rfl, rfl, rfl, rfl, rfl, rfl, rfl⟩

/-- **C131, attributes.**  Shown are exactly the attributes that were set and not cleared since, with the value set last. -/
theorem C131_attributes (c : Writer.Config) (f : Fixed) (i : Info) (h : List PubOp) (e : Env) (hf : PubFits c f i h e) (en : Entry)
    (hs : PubShown c f i h e en) (n v : Bytes) :
    ((n, v) ∈ en.attr ↔ AttrIs h n v) ∧ (∀ v' : Bytes, (n, v) ∈ en.attr → (n, v') ∈ en.attr → v = v') := by
  rw [(pub_entry c f i h e hf en).1 hs]
  exact ⟨(pub_attr c i h).2 n v, fun v' h1 h2 => isMap_fun _ (pub_attr c i h).1 n v v' h1 h2⟩

example : AttrIs exH [97] [51] ∧ ¬ AttrIs exH [97] [49] ∧ ¬ ∃ v : Bytes, AttrIs exH [98] v := by
  have h := fun n v => (pub_attr exC {} exH).2 n v
  refine ⟨(h _ _).1 (by decide +kernel), fun hn => ?_, fun ⟨v, hn⟩ => ?_⟩
  · exact absurd ((h _ _).2 hn) (by decide +kernel)
  · have := (h _ _).2 hn
    rw [show (pubRun exC (pubNew {}) exH).1.attr = [([97], [51])] by decide +kernel] at this
    cases List.mem_singleton.1 this

/-- **C131, type.**  The type information is the one given last, as far as the configuration shares it. -/
theorem C131_type (c : Writer.Config) (f : Fixed) (i0 : Info) (h : List PubOp) (e : Env) (hf : PubFits c f i0 h e) (en : Entry)
    (hs : PubShown c f i0 h e en) (i : Info) (hi : InfoIs i0 h i) :
    (f.shareType = true → en.info.name = i.name ∧ en.info.enc = i.enc) ∧ (f.shareType = false → en.info.name = [] ∧ en.info.enc = []) ∧
    (f.shareDesc = true → en.info.desc = i.desc) ∧ (f.shareDesc = false → en.info.desc = []) := by
  rw [(pub_entry c f i0 h e hf en).1 hs, (pub_info c i0 h i).1 hi]
  simp only [entry, pubSample, shared]
  refine ⟨fun hb => ?_, fun hb => ?_, fun hb => ?_, fun hb => ?_⟩ <;> simp [hb]

example : InfoIs { name := [120] } exH { name := [120] } ∧ InfoIs {} (exH ++ [.setInfo { enc := [121] }]) { enc := [121] } :=
  ⟨(pub_info exC _ _ _).2 (by decide +kernel), (pub_info exC _ _ _).2 (by decide +kernel)⟩

/-- **C131, counter.**  The send counter is the number of calls of `Send`, whether or not somebody listened. -/
theorem C131_counter (c : Writer.Config) (f : Fixed) (i : Info) (h : List PubOp) (e : Env) (hf : PubFits c f i h e) (en : Entry)
    (hs : PubShown c f i h e en) : en.dclock = BitVec.ofNat 64 (h.filter isSend).length := by
  rw [(pub_entry c f i h e hf en).1 hs, ← pub_clock c i h]
  rfl

/-- **C131, connections.**  The numbers of connections are the numbers of subscribers present on the same host and elsewhere. -/
theorem C131_connections (c : Writer.Config) (f : Fixed) (i : Info) (h : List PubOp) (e : Env) (hf : PubFits c f i h e) (en : Entry)
    (hs : PubShown c f i h e en) :
    ∃ loc ext : List Conn.Peer, loc.Nodup ∧ ext.Nodup ∧ (∀ p : Conn.Peer, p ∈ loc ↔ Subscribed h p ∧ p.host = c.host) ∧
      (∀ p : Conn.Peer, p ∈ ext ↔ Subscribed h p ∧ p.host ≠ c.host) ∧
      en.connLoc = BitVec.ofNat 32 loc.length ∧ en.connExt = BitVec.ofNat 32 ext.length := by
  have hp := pub_subs c i h
  rw [(pub_entry c f i h e hf en).1 hs]
  refine ⟨(pubRun c (pubNew i) h).1.w.subs.filter (fun p => p.host = c.host), (pubRun c (pubNew i) h).1.w.subs.filter (fun p => !decide (p.host = c.host)),
    List.Pairwise.filter _ hp.1, List.Pairwise.filter _ hp.1, fun p => ?_, fun p => ?_, rfl, ?_⟩
  · rw [List.mem_filter, hp.2]; simp
  · rw [List.mem_filter, hp.2]; simp
  · have hlen : ∀ l : List Conn.Peer, (l.filter (fun p => !decide (p.host = c.host))).length = l.length - (l.filter (fun p => decide (p.host = c.host))).length := by
      intro l
      have : (l.filter (fun p => decide (p.host = c.host))).length + (l.filter (fun p => !decide (p.host = c.host))).length = l.length := by
        induction l with
        | nil => rfl
        | cons x l ih => by_cases hx : x.host = c.host <;> simp [hx] <;> omega
      omega
    rw [hlen]
    rfl

example : Subscribed exH exP ∧ ¬ Subscribed exH exQ ∧ exP.host = exC.host ∧ exQ.host ≠ exC.host := by
  have h := (pub_subs exC {} exH).2
  exact ⟨(h _).1 (by decide +kernel), fun hn => absurd ((h _).2 hn) (by decide +kernel), by decide +kernel, by decide +kernel⟩

/-- **C131, id and size of the last sample.**  If somebody was subscribed when the last sample was sent, its size (as 32 bit number) and
the id given before it are shown.  Missing: an id given since, a sample sent to nobody, sizes from 2 GiB on. -/
theorem C131_last_sample_partial (c : Writer.Config) (f : Fixed) (i : Info) (a b : List PubOp) (pl : List UInt8) (t : Int) (ok : Reader.Layer → Bool)
    (e : Env) (hf : PubFits c f i (a ++ .send pl t ok :: b) e) (en : Entry) (hs : PubShown c f i (a ++ .send pl t ok :: b) e en)
    (hp : ∃ p : Conn.Peer, Subscribed a p) (hb : ∀ o ∈ b, isSend o = false) (id : Int) (hi : IdIs a id) :
    en.tsize = BitVec.ofNat 32 pl.length ∧ en.did = BitVec.ofInt 64 id := by
  rw [(pub_entry c f i _ e hf en).1 hs]
  have he := (subs_empty c i a).2 hp
  have hk := pub_keeps c i (a ++ [.send pl t ok]) b hb
  rw [List.append_assoc, List.singleton_append, pubRun_snoc] at hk
  rw [(pub_setId c i a id).1 hi]
  simp only [entry, pubSample]
  rw [hk.1, hk.2]
  simp [pubStep, he]

example : (∃ p : Conn.Peer, Subscribed [.setId 9, .join exP exL] p) ∧ IdIs [.setId 9, .join exP exL] 9 :=
  ⟨⟨exP, ((pub_subs exC {} _).2 _).1 (by decide +kernel)⟩, (pub_setId exC {} _ _).2 (by decide +kernel)⟩

/-- **C131, sent to nobody.**  A sample sent while nobody is subscribed changes nothing of what is shown but the counter. -/
theorem C131_unheard_partial (c : Writer.Config) (f : Fixed) (i : Info) (h : List PubOp) (pl : List UInt8) (t : Int) (ok : Reader.Layer → Bool)
    (e : Env) (hf : PubFits c f i h e) (hf' : PubFits c f i (h ++ [.send pl t ok]) e) (en en' : Entry) (hs : PubShown c f i h e en)
    (hs' : PubShown c f i (h ++ [.send pl t ok]) e en') (hn : ¬ ∃ p : Conn.Peer, Subscribed h p) :
    en' = { en with dclock := en.dclock + 1 } := by
  rw [(pub_entry c f i h e hf en).1 hs, (pub_entry c f i _ e hf' en').1 hs', pubRun_snoc]
  have he : (pubRun c (pubNew i) h).1.w.subs.isEmpty = true := by
    cases hb : (pubRun c (pubNew i) h).1.w.subs.isEmpty with
    | true => rfl
    | false => exact absurd ((subs_empty c i h).1 hb) hn
  have hc := pub_created c i h
  generalize (pubRun c (pubNew i) h).1 = s at *
  simp only [pubStep, Writer.step, he, hc, entry, pubSample]
  simp [BitVec.ofNat_add]

/-- **C131, layers.**  A layer is shown as active exactly if some sample was given to it. -/
theorem C131_layers_partial (c : Writer.Config) (f : Fixed) (i : Info) (h : List PubOp) (e : Env) (hf : PubFits c f i h e) (en : Entry)
    (hs : PubShown c f i h e en) :
    let calls := (pubRun c (pubNew i) h).2
    (en.udp = true ↔ TriedBy .udp calls) ∧ (en.shm = true ↔ TriedBy .shm calls) ∧ (en.tcp = true ↔ TriedBy .tcp calls) := by
  have hl := pub_layers c i h
  have ht := tried_send c i e f h
  simp only at hl ht ⊢
  rw [(pub_entry c f i h e hf en).1 hs, ht.1, ht.2.1, ht.2.2]
  exact ⟨hl.1, hl.2.1, hl.2.2.1⟩

/-- In particular a layer by which a sample was really sent is shown as active. -/
theorem C131_sent_is_active (c : Writer.Config) (f : Fixed) (i : Info) (h : List PubOp) (e : Env) (hf : PubFits c f i h e) (en : Entry)
    (hs : PubShown c f i h e en) :
    ∀ r ∈ (pubRun c (pubNew i) h).2, ((.udp, true) ∈ r.1 → en.udp = true) ∧ ((.shm, true) ∈ r.1 → en.shm = true) ∧ ((.tcp, true) ∈ r.1 → en.tcp = true) := by
  have hl := C131_layers_partial c f i h e hf en hs
  intro r hr
  exact ⟨fun hm => hl.1.2 ⟨r, hr, true, hm⟩, fun hm => hl.2.1.2 ⟨r, hr, true, hm⟩, fun hm => hl.2.2.2 ⟨r, hr, true, hm⟩⟩

/-- **C131 violated: failed layers.**  A layer is shown as active although every attempt to send by it failed (and `Send` returned 0). -/
theorem C131_violated_failed_layer : ∃ (h : List PubOp) (en : Entry), PubShown exC exF {} h {} en ∧ en.shm = true ∧
    ∀ r ∈ (pubRun exC (pubNew {}) h).2, (.shm, true) ∉ r.1 ∧ r.2 = 0 :=
  ⟨[.join exP exL, .send [1] 0 (fun _ => false)], _, (pub_entry _ _ _ _ _ (by unfold PubFits; decide +kernel) _).2 rfl, by decide +kernel, by decide +kernel⟩

/-- **C131 violated: layers out of use.**  A layer stays active when nobody who uses it is left: here the only subscriber by multicast is gone. -/
theorem C131_violated_layer_out_of_use : ∃ (h : List PubOp) (en : Entry), PubShown exC exF {} h {} en ∧ en.udp = true ∧
    (∀ p : Conn.Peer, ¬ Subscribed h p) ∧ en.connLoc = 0 ∧ en.connExt = 0 :=
  ⟨[.join exQ exL, .send [1] 0 (fun _ => true), .leave exQ], _, (pub_entry _ _ _ _ _ (by unfold PubFits; decide +kernel) _).2 rfl,
   by decide +kernel, fun p hp => by
     have := ((pub_subs exC {} _).2 p).2 hp
     rw [show (pubRun exC (pubNew {}) [.join exQ exL, .send [1] 0 (fun _ => true), .leave exQ]).1.w.subs = [] by decide +kernel] at this
     exact List.not_mem_nil this, by decide +kernel, by decide +kernel⟩

/-- **C131 violated: ids.**  An id given with `SetID` is not shown until a sample is sent to somebody. -/
theorem C131_violated_set_id : ∃ (h : List PubOp) (en : Entry), PubShown exC exF {} h {} en ∧ IdIs h 9 ∧ (∃ o ∈ h, isSend o = true) ∧ en.did = 0 :=
  ⟨[.setId 9, .send [1] 0 (fun _ => true)], _, (pub_entry _ _ _ _ _ (by unfold PubFits; decide +kernel) _).2 rfl,
   (pub_setId exC {} _ _).2 (by decide +kernel), ⟨_, List.mem_cons_of_mem _ List.mem_cons_self, rfl⟩, by decide +kernel⟩

/-- **C131 violated: sizes.**  After two samples of different size the size of the first one is shown, if nobody was subscribed any
more when the second one was sent; `Send` returned its size all the same. -/
theorem C131_violated_unheard_size : ∃ (h : List PubOp) (en : Entry), PubShown exC exF {} h {} en ∧
    (pubRun exC (pubNew {}) h).2.map (·.2) = [0, 3, 0, 1] ∧ en.dclock = 2 ∧ en.tsize = 3 :=
  ⟨[.join exP exL, .send [1, 2, 3] 0 (fun _ => true), .leave exP, .send [1] 0 (fun _ => true)], _,
   (pub_entry _ _ _ _ _ (by unfold PubFits; decide +kernel) _).2 rfl, by decide +kernel, by decide +kernel, by decide +kernel⟩

/-- **C131 violated: large samples.**  The size of a sample of 2 GiB is shown as a negative number. -/
theorem C131_violated_large (pl : List UInt8) (hl : pl.length = 2 ^ 31) (en : Entry)
    (hf : PubFits exC exF {} [.join exP exL, .send pl 0 (fun _ => true)] {})
    (hs : PubShown exC exF {} [.join exP exL, .send pl 0 (fun _ => true)] {} en) : en.tsize.toInt = -2147483648 := by
  have := (C131_last_sample_partial exC exF {} [.join exP exL] [] pl 0 (fun _ => true) {} hf en hs
    ⟨exP, ((pub_subs exC {} _).2 _).1 (by decide +kernel)⟩ (by simp) 0 ((pub_setId exC {} _ _).2 rfl)).1
  rw [this, hl]
  decide +kernel

/-! ## Subscribers -/

/-- **C131, identity of a subscriber.** -/
theorem C131_sub_identity (c : Reader.Config) (f : Fixed) (i : Info) (h : List SubOp) (e : Env) (hf : SubFits c f i h e) (en : Entry)
    (hs : SubShown c f i h e en) :
    en.hname = f.host ∧ en.hgname = f.group ∧ en.pid = f.pid ∧ en.pname = f.pname ∧ en.tname = f.tname ∧ en.tid = f.tid ∧
    en.uname = e.unit ∧ en.dfreq = e.freq ∧ en.publisher = false ∧ (f.shareType = true → en.info.name = i.name ∧ en.info.enc = i.enc) ∧
    (f.shareType = false → en.info.name = [] ∧ en.info.enc = []) ∧ (f.shareDesc = true → en.info.desc = i.desc) ∧ (f.shareDesc = false → en.info.desc = []) := by
  rw [(sub_entry c f i h e hf en).1 hs]
  refine ⟨rfl, rfl, rfl, rfl, rfl, rfl, rfl, rfl, rfl, fun hb => ?_, fun hb => ?_, fun hb => ?_, fun hb => ?_⟩ <;> simp [entry, subSample, shared, hb]

/-- **C131, attributes of a subscriber.** -/
theorem C131_sub_attributes (c : Reader.Config) (f : Fixed) (i : Info) (h : List SubOp) (e : Env) (hf : SubFits c f i h e) (en : Entry)
    (hs : SubShown c f i h e en) (n v : Bytes) :
    ((n, v) ∈ en.attr ↔ SubAttrIs h n v) ∧ (∀ v' : Bytes, (n, v) ∈ en.attr → (n, v') ∈ en.attr → v = v') := by
  rw [(sub_entry c f i h e hf en).1 hs]
  exact ⟨(sub_attr c h).2 n v, fun v' h1 h2 => isMap_fun _ (sub_attr c h).1 n v v' h1 h2⟩

/-- **C131, counter of a subscriber.**  The receive counter is the number of samples handed to the application. -/
theorem C131_sub_counter (c : Reader.Config) (f : Fixed) (i : Info) (h : List SubOp) (e : Env) (hf : SubFits c f i h e) (en : Entry)
    (hs : SubShown c f i h e en) : en.dclock = BitVec.ofNat 64 (Reader.delivered (subRun c {} h).2).length := by
  rw [(sub_entry c f i h e hf en).1 hs]
  have hr := sub_reader c h
  have h1 := congrArg Prod.fst hr
  have h2 := congrArg Prod.snd hr
  simp only at h1 h2
  rw [h2, ← Reader.C10_clock_counts_deliveries, ← h1]
  rfl

/-- **C131, size at a subscriber.**  The size is the one of the sample handed to the application last, as 32 bit number. -/
theorem C131_sub_size_partial (c : Reader.Config) (f : Fixed) (i : Info) (h : List SubOp) (e : Env) (hf : SubFits c f i h e) (en : Entry)
    (hs : SubShown c f i h e en) (l : List Reader.Sample) (x : Reader.Sample) (hd : Reader.delivered (subRun c {} h).2 = l ++ [x]) :
    en.tsize = BitVec.ofNat 32 x.payload.length := by
  rw [(sub_entry c f i h e hf en).1 hs]
  have hr := sub_reader c h
  have h1 := congrArg Prod.fst hr
  have h2 := congrArg Prod.snd hr
  simp only at h1 h2
  rw [h2] at hd
  have := reader_size c _ l x hd
  rw [← h1] at this
  rw [← this]
  rfl

/-- **C131, lost samples.**  The number of lost samples is, as 32 bit number, that of C08: the samples skipped plus the number of gaps. -/
theorem C131_sub_drops_partial (c : Reader.Config) (hc : c.drop = true) (f : Fixed) (i : Info) (h : List SubOp) (e : Env) (hf : SubFits c f i h e)
    (en : Entry) (hs : SubShown c f i h e en) :
    en.drops = BitVec.ofInt 32 (Reader.lostCount (Reader.delivered (subRun c {} h).2) + Reader.gapCount (Reader.delivered (subRun c {} h).2)) := by
  rw [(sub_entry c f i h e hf en).1 hs]
  have hr := sub_reader c h
  have h1 := congrArg Prod.fst hr
  have h2 := congrArg Prod.snd hr
  simp only at h1 h2
  rw [h2, ← Reader.C08_lost_plus_gaps_partial c hc, ← h1]
  rfl

/-- **C131, layers of a subscriber.**  A layer is shown as active exactly if it is switched on and a sample came in by it, whatever became of
the sample. -/
theorem C131_sub_layers_partial (c : Reader.Config) (f : Fixed) (i : Info) (h : List SubOp) (e : Env) (hf : SubFits c f i h e) (en : Entry)
    (hs : SubShown c f i h e en) (hn : .data .stop ∉ h) :
    (en.udp = true ↔ c.udp = true ∧ ∃ s : Reader.Sample, .data (.sample s) ∈ h ∧ s.layer = .udp) ∧
    (en.shm = true ↔ c.shm = true ∧ ∃ s : Reader.Sample, .data (.sample s) ∈ h ∧ s.layer = .shm) ∧
    (en.tcp = true ↔ c.tcp = true ∧ ∃ s : Reader.Sample, .data (.sample s) ∈ h ∧ s.layer = .tcp) := by
  rw [(sub_entry c f i h e hf en).1 hs]
  have h1 := congrArg Prod.fst (sub_reader c h)
  simp only at h1
  have hmem : ∀ o : Reader.Op, o ∈ h.filterMap dataOp ↔ .data o ∈ h := by
    intro o
    rw [List.mem_filterMap]
    constructor
    · rintro ⟨x, hx, e⟩
      cases x <;> simp [dataOp] at e
      rw [← e]; exact hx
    · intro hx; exact ⟨_, hx, rfl⟩
  have ha := (reader_active c (h.filterMap dataOp) (fun hm => hn ((hmem _).1 hm))).2
  simp only [hmem, ← h1] at ha
  refine ⟨?_, ?_, ?_⟩
  · refine Iff.trans ?_ (ha .udp)
    simp [entry, subSample, anyActive, layer]
  · refine Iff.trans ?_ (ha .shm)
    simp [entry, subSample, anyActive, layer]
  · refine Iff.trans ?_ (ha .tcp)
    simp [entry, subSample, anyActive, layer]

/-- Configuration and samples of the examples. -/
def exR : Reader.Config := { udp := true, shm := true, tcp := false, drop := true }
def exS (k : Int) (n : Nat) (l : Reader.Layer) : Reader.Sample := { tid := "9", payload := [1, 2], id := 0, clock := k, time := 0, hash := n, layer := l }

def exG : List SubOp := [.join exP, .setAttr [97] [49], .data (.sample (exS 1 1 .shm)), .data .read, .data (.sample (exS 4 2 .udp))]

example : SubFits exR exF {} exG {} ∧ .data .stop ∉ exG ∧ exR.drop = true ∧
    Reader.delivered (subRun exR {} exG).2 = [exS 1 1 .shm] ++ [exS 4 2 .udp] := by
  refine ⟨by unfold SubFits; decide +kernel, by simp [exG], rfl, by decide +kernel⟩

/-- **C131 violated: connections of a subscriber.**  A subscriber is shown without connections, however many publishers it is connected to. -/
theorem C131_violated_sub_connections (c : Reader.Config) (f : Fixed) (i : Info) (h : List SubOp) (e : Env) (hf : SubFits c f i h e) (en : Entry)
    (hs : SubShown c f i h e en) : en.connLoc = 0 ∧ en.connExt = 0 := by
  rw [(sub_entry c f i h e hf en).1 hs]
  exact ⟨rfl, rfl⟩

example : (subRun exR {} exG).1.pubs = [exP] := by decide +kernel

/-- **C131 violated: layers of a subscriber.**  A layer is shown as active although every sample that came in by it was discarded. -/
theorem C131_violated_sub_layer : ∃ (h : List SubOp) (en : Entry), SubShown exR exF {} h {} en ∧ en.udp = true ∧
    ∀ s ∈ Reader.delivered (subRun exR {} h).2, s.layer ≠ .udp :=
  ⟨[.data (.sample (exS 1 1 .shm)), .data (.sample (exS 1 1 .udp))], _, (sub_entry _ _ _ _ _ (by unfold SubFits; decide +kernel) _).2 rfl,
   by decide +kernel, by decide +kernel⟩

/-- **C131 violated: lost samples.**  Two samples are missing, three are shown as lost. -/
theorem C131_violated_sub_drops : ∃ en : Entry, SubShown exR exF {} exG {} en ∧ Reader.lostCount (Reader.delivered (subRun exR {} exG).2) = 2 ∧ en.drops = 3 :=
  ⟨_, (sub_entry _ _ _ _ _ (by unfold SubFits; decide +kernel) _).2 rfl, by decide +kernel, by decide +kernel⟩

end Ecal.MonTopic
