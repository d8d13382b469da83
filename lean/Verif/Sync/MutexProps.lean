import Verif.Sync.Mutex

/-! # C47: the named lock gives mutual exclusion -/

namespace Ecal.Sync.Mutex

open Ecal

/-- The disciplines the lock needs from its users.  With the plain lock: only a holder unlocks, and a
handle is destroyed only if no other handle holds the lock.  With either: the owning handle (which
unlinks the name) is destroyed last, and nobody opens the object before it is initialised. -/
def Allowed (cfg : Config) (st : State) : Step → Prop
  | .opn _ => ∀ k hd, st.handles.find k = some hd → hd.pending = false
  | .unlock h => cfg.robust = true ∨ ∀ k ∈ st.holders, k = h
  | .destroy h => (cfg.robust = true ∨ ∀ k ∈ st.holders, k = h) ∧
      ((∀ hd, st.handles.find h = some hd → hd.owner = false) ∨
        ∀ k hd, st.handles.find k = some hd → k = h)
  | _ => True

def AllAllowed (cfg : Config) : State → List Step → Prop
  | _, [] => True
  | st, a :: l => Allowed cfg st a ∧ AllAllowed cfg (step cfg st a) l

structure Inv (st : State) : Prop where
  bound   : ∀ o, st.link = some o → o < st.objs.length
  linked  : ∀ h hd, st.handles.find h = some hd → st.link = some hd.obj
  alone   : ∀ h hd, st.handles.find h = some hd → hd.pending = true →
    (∀ k kd, st.handles.find k = some kd → k = h) ∧ st.holders = []
  hold    : ∀ h ∈ st.holders, ∃ hd, st.handles.find h = some hd ∧ hd.pending = false ∧
    st.objs[hd.obj]? = some (some (.alive h))
  nodup   : st.holders.Nodup

/-- The handles of two holders refer to the same object, whose lock names one of them. -/
theorem holders_eq {st : State} (h : Inv st) {a b : Nat} (ha : a ∈ st.holders) (hb : b ∈ st.holders) :
    a = b := by
  obtain ⟨x, hx, _, hlx⟩ := h.hold a ha
  obtain ⟨y, hy, _, hly⟩ := h.hold b hb
  have h1 := h.linked a x hx
  have h2 := h.linked b y hy
  rw [h1] at h2
  simp only [Option.some.injEq] at h2
  rw [h2, hly] at hlx
  simp only [Option.some.injEq, Who.alive.injEq] at hlx
  exact hlx.symm

theorem holders_le_one {st : State} (h : Inv st) : st.holders.length ≤ 1 := by
  cases hl : st.holders with
  | nil => simp
  | cons a l =>
    cases l with
    | nil => simp
    | cons b l =>
      have hab : a = b := holders_eq h (by rw [hl]; simp) (by rw [hl]; simp)
      have := h.nodup
      rw [hl, hab] at this
      simp at this

theorem mem_minus {l : List Nat} {h k : Nat} : k ∈ minus l h ↔ k ∈ l ∧ k ≠ h := by
  simp [minus]

theorem nodup_minus {l : List Nat} (h : Nat) (hn : l.Nodup) : (minus l h).Nodup := hn.filter _

/-- A release by `h` keeps the lock of every other holder, if the discipline is kept. -/
theorem release_keeps {cfg : Config} {st : State} (_ : Inv st) {h k o : Nat} {l : Option Who}
    (hal : cfg.robust = true ∨ ∀ k ∈ st.holders, k = h) (hk : k ∈ st.holders) (hkh : k ≠ h)
    (hl : st.objs[o]? = some l) (hlk : st.objs[o]? = some (some (.alive k))) :
    releaseBy cfg l h = some (.alive k) := by
  rw [hl] at hlk
  simp only [Option.some.injEq] at hlk
  subst hlk
  rcases hal with hr | hr
  · have : ¬ (some (Who.alive k) = some (Who.alive h)) := by simp [hkh]
    simp [releaseBy, hr, this]
  · exact absurd (hr k hk) hkh

/-- Replacing the lock state of the linked object keeps the bounds. -/
theorem bound_set {st : State} (h : Inv st) (i : Nat) (v : Option Who) (o : Nat) (ho : st.link = some o) :
    o < (st.objs.set i v).length := by
  rw [List.length_set]; exact h.bound o ho

theorem inv_step (cfg : Config) {st : State} (h : Inv st) (a : Step) (hal : Allowed cfg st a) :
    Inv (step cfg st a) := by
  cases a with
  | opn x =>
    simp only [step]
    cases hf : st.handles.find x with
    | some hd => exact h
    | none =>
      cases hlk : st.link with
      | none => exact h
      | some o =>
        have hal : ∀ k hd, st.handles.find k = some hd → hd.pending = false := hal
        simp only
        refine { bound := ?_, linked := ?_, alone := ?_, hold := ?_, nodup := h.nodup }
        · intro o' ho'
          exact h.bound o' (by rw [hlk]; exact ho')
        · intro k kd hk
          simp only [AMap.find_set] at hk
          by_cases hkx : x = k
          · rw [if_pos hkx] at hk
            simp only [Option.some.injEq] at hk
            subst hk
            rfl
          · rw [if_neg hkx] at hk
            have := h.linked k kd hk
            rw [hlk] at this
            exact this
        · intro k kd hk hp
          simp only [AMap.find_set] at hk
          by_cases hkx : x = k
          · rw [if_pos hkx] at hk
            simp only [Option.some.injEq] at hk
            subst hk; cases hp
          · rw [if_neg hkx] at hk
            rw [hal k kd hk] at hp; cases hp
        · intro k hk
          obtain ⟨kd, h1, h2, h3⟩ := h.hold k hk
          have hkx : x ≠ k := by rintro rfl; rw [hf] at h1; cases h1
          exact ⟨kd, by simp only [AMap.find_set, if_neg hkx]; exact h1, h2, h3⟩
  | create x =>
    simp only [step]
    cases hf : st.handles.find x with
    | some hd => exact h
    | none =>
      cases hlk : st.link with
      | some o => exact h
      | none =>
        have hno : ∀ k, st.handles.find k = none := by
          intro k
          cases hk : st.handles.find k with
          | none => rfl
          | some kd => have := h.linked k kd hk; rw [hlk] at this; cases this
        have hemp : st.holders = [] := by
          cases hh : st.holders with
          | nil => rfl
          | cons a l =>
            obtain ⟨kd, h1, _⟩ := h.hold a (by rw [hh]; simp)
            rw [hno a] at h1; cases h1
        have hfs : ∀ k kd, (st.handles.set x ⟨st.objs.length, true, true⟩).find k = some kd →
            k = x ∧ kd = ⟨st.objs.length, true, true⟩ := by
          intro k kd hk
          rw [AMap.find_set] at hk
          by_cases hkx : x = k
          · rw [if_pos hkx] at hk
            simp only [Option.some.injEq] at hk
            exact ⟨hkx.symm, hk.symm⟩
          · rw [if_neg hkx, hno k] at hk; cases hk
        simp only
        refine { bound := ?_, linked := ?_, alone := ?_, hold := ?_, nodup := h.nodup }
        · intro o ho
          simp only [Option.some.injEq] at ho
          subst ho; simp
        · intro k kd hk
          obtain ⟨_, rfl⟩ := hfs k kd hk
          rfl
        · intro k kd hk _
          obtain ⟨rfl, _⟩ := hfs k kd hk
          exact ⟨fun j jd hj => (hfs j jd hj).1, hemp⟩
        · intro k hk
          simp only [hemp] at hk
          cases hk
  | init x =>
    simp only [step]
    cases hf : st.handles.find x with
    | none => exact h
    | some hd =>
      by_cases hp : hd.pending = true
      · simp only [hp, if_true]
        obtain ⟨hal1, hemp⟩ := h.alone x hd hf hp
        have hfs : ∀ k kd, (st.handles.set x { hd with pending := false }).find k = some kd →
            kd = { hd with pending := false } := by
          intro k kd hk
          rw [AMap.find_set] at hk
          by_cases hkx : x = k
          · rw [if_pos hkx] at hk
            simp only [Option.some.injEq] at hk
            exact hk.symm
          · rw [if_neg hkx] at hk
            exact absurd (hal1 k kd hk).symm hkx
        refine { bound := bound_set h _ _, linked := ?_, alone := ?_, hold := ?_, nodup := h.nodup }
        · intro k kd hk
          have := hfs k kd hk
          subst this
          exact h.linked x hd hf
        · intro k kd hk hpk
          have := hfs k kd hk
          subst this
          cases hpk
        · intro k hk
          simp only [hemp] at hk
          cases hk
      · simp only [if_neg hp]; exact h
  | lock x =>
    simp only [step]
    cases hf : st.handles.find x with
    | none => exact h
    | some hd =>
      simp only
      by_cases hp : hd.pending = true ∨ x ∈ st.holders
      · rw [if_pos hp]; exact h
      · rw [if_neg hp]
        have hp1 : hd.pending = false := by
          cases hq : hd.pending with
          | false => rfl
          | true => exact absurd (Or.inl hq) hp
        have hx : x ∉ st.holders := fun hh => hp (Or.inr hh)
        -- a new holder: nobody else holds, because the lock is not with a living holder
        have hacq : (∀ k, st.objs[hd.obj]? ≠ some (some (.alive k))) →
            Inv { st with objs := st.objs.set hd.obj (some (.alive x)), holders := x :: st.holders } := by
          intro hfree
          have hemp : st.holders = [] := by
            cases hh : st.holders with
            | nil => rfl
            | cons a l =>
              obtain ⟨kd, h1, _, h3⟩ := h.hold a (by rw [hh]; simp)
              have e1 := h.linked a kd h1
              have e2 := h.linked x hd hf
              rw [e1] at e2
              simp only [Option.some.injEq] at e2
              rw [e2] at h3
              exact absurd h3 (hfree a)
          refine { bound := bound_set h _ _, linked := h.linked, alone := ?_, hold := ?_, nodup := ?_ }
          · intro k kd hk hpk
            have := (h.alone k kd hk hpk).1 x hd hf
            subst this
            simp only at hk
            rw [hf] at hk
            simp only [Option.some.injEq] at hk
            subst hk
            rw [hp1] at hpk; cases hpk
          · intro k hk
            simp only [hemp, List.mem_singleton] at hk
            subst hk
            refine ⟨hd, hf, hp1, ?_⟩
            have hb := h.bound _ (h.linked k hd hf)
            simp only [List.getElem?_set_self hb]
          · simp [hemp]
        cases hl : st.objs[hd.obj]? with
        | none => exact h
        | some l =>
          cases l with
          | none => exact hacq (by intro k; rw [hl]; simp)
          | some w =>
            cases w with
            | alive k => exact h
            | dead =>
              by_cases hr : cfg.robust = true
              · simp only [hr, if_true]
                exact hacq (by intro k; rw [hl]; simp)
              · simp only [if_neg hr]; exact h
  | unlock x =>
    simp only [step]
    cases hf : st.handles.find x with
    | none => exact h
    | some hd =>
      simp only
      by_cases hp : hd.pending = true
      · rw [if_pos hp]; exact h
      · rw [if_neg hp]
        cases hl : st.objs[hd.obj]? with
        | none => exact h
        | some l =>
          have hal : cfg.robust = true ∨ ∀ k ∈ st.holders, k = x := hal
          simp only
          refine { bound := bound_set h _ _, linked := h.linked, alone := ?_, hold := ?_,
                   nodup := nodup_minus x h.nodup }
          · intro k kd hk hpk
            obtain ⟨h1, h2⟩ := h.alone k kd hk hpk
            exact ⟨h1, by simp only [h2]; rfl⟩
          · intro k hk
            obtain ⟨hk1, hk2⟩ := mem_minus.mp hk
            obtain ⟨kd, h1, h2, h3⟩ := h.hold k hk1
            refine ⟨kd, h1, h2, ?_⟩
            have e1 := h.linked k kd h1
            have e2 := h.linked x hd hf
            rw [e1] at e2
            simp only [Option.some.injEq] at e2
            have hb := h.bound _ (h.linked x hd hf)
            rw [e2] at h3 ⊢
            simp only [List.getElem?_set_self hb, release_keeps h hal hk1 hk2 hl h3]
  | destroy x =>
    simp only [step]
    cases hf : st.handles.find x with
    | none => exact h
    | some hd =>
      simp only
      by_cases hp : hd.pending = true
      · rw [if_pos hp]; exact h
      · rw [if_neg hp]
        cases hl : st.objs[hd.obj]? with
        | none => exact h
        | some l =>
          obtain ⟨hal, hown⟩ : (cfg.robust = true ∨ ∀ k ∈ st.holders, k = x) ∧
            ((∀ hd, st.handles.find x = some hd → hd.owner = false) ∨
              ∀ k hd, st.handles.find k = some hd → k = x) := hal
          have hfe : ∀ k kd, (st.handles.erase x).find k = some kd →
              x ≠ k ∧ st.handles.find k = some kd ∧ hd.owner = false := by
            intro k kd hk
            rw [AMap.find_erase] at hk
            by_cases hkx : x = k
            · rw [if_pos hkx] at hk; cases hk
            · rw [if_neg hkx] at hk
              refine ⟨hkx, hk, ?_⟩
              rcases hown with ho | ho
              · exact ho hd hf
              · exact absurd (ho k kd hk).symm hkx
          simp only
          refine { bound := ?_, linked := ?_, alone := ?_, hold := ?_,
                   nodup := nodup_minus x h.nodup }
          · intro o ho
            simp only at ho
            by_cases hw : hd.owner = true
            · rw [if_pos hw] at ho; cases ho
            · rw [if_neg hw] at ho; exact bound_set h _ _ o ho
          · intro k kd hk
            obtain ⟨_, hk2, hw⟩ := hfe k kd hk
            simp only [hw]
            exact h.linked k kd hk2
          · intro k kd hk hpk
            obtain ⟨hkx, hk2, _⟩ := hfe k kd hk
            exact absurd ((h.alone k kd hk2 hpk).1 x hd hf) hkx
          · intro k hk
            obtain ⟨hk1, hk2⟩ := mem_minus.mp hk
            obtain ⟨kd, h1, h2, h3⟩ := h.hold k hk1
            refine ⟨kd, ?_, h2, ?_⟩
            · simp only [AMap.find_erase, if_neg (Ne.symm hk2)]; exact h1
            have e1 := h.linked k kd h1
            have e2 := h.linked x hd hf
            rw [e1] at e2
            simp only [Option.some.injEq] at e2
            have hb := h.bound _ (h.linked x hd hf)
            rw [e2] at h3 ⊢
            simp only [List.getElem?_set_self hb, release_keeps h hal hk1 hk2 hl h3]
  | drop x =>
    simp only [step]
    cases hf : st.handles.find x with
    | none => exact h
    | some hd =>
      have hfs : ∀ k kd, (st.handles.set x { hd with owner := false }).find k = some kd →
          ∃ kd', st.handles.find k = some kd' ∧ kd.obj = kd'.obj ∧ kd.pending = kd'.pending := by
        intro k kd hk
        rw [AMap.find_set] at hk
        by_cases hkx : x = k
        · rw [if_pos hkx] at hk
          simp only [Option.some.injEq] at hk
          subst hk; subst hkx
          exact ⟨hd, hf, rfl, rfl⟩
        · rw [if_neg hkx] at hk
          exact ⟨kd, hk, rfl, rfl⟩
      simp only
      refine { bound := h.bound, linked := ?_, alone := ?_, hold := ?_, nodup := h.nodup }
      · intro k kd hk
        obtain ⟨kd', h1, h2, _⟩ := hfs k kd hk
        rw [h2]; exact h.linked k kd' h1
      · intro k kd hk hpk
        obtain ⟨kd', h1, _, h3⟩ := hfs k kd hk
        rw [h3] at hpk
        obtain ⟨ha, hb⟩ := h.alone k kd' h1 hpk
        exact ⟨fun j jd hj => by obtain ⟨jd', hj', _⟩ := hfs j jd hj; exact ha j jd' hj', hb⟩
      · intro k hk
        obtain ⟨kd, h1, h2, h3⟩ := h.hold k hk
        by_cases hkx : x = k
        · subst hkx
          rw [hf] at h1
          simp only [Option.some.injEq] at h1
          subst h1
          exact ⟨{ hd with owner := false }, by simp only [AMap.find_set, if_true], h2, h3⟩
        · exact ⟨kd, by simp only [AMap.find_set, if_neg hkx]; exact h1, h2, h3⟩
  | die x =>
    simp only [step]
    cases hf : st.handles.find x with
    | none => exact h
    | some hd =>
      simp only
      cases hl : st.objs[hd.obj]? with
      | none => exact h
      | some l =>
        have hfe : ∀ k kd, (st.handles.erase x).find k = some kd →
            x ≠ k ∧ st.handles.find k = some kd := by
          intro k kd hk
          rw [AMap.find_erase] at hk
          by_cases hkx : x = k
          · rw [if_pos hkx] at hk; cases hk
          · rw [if_neg hkx] at hk
            exact ⟨hkx, hk⟩
        simp only
        refine { bound := bound_set h _ _, linked := ?_, alone := ?_, hold := ?_,
                 nodup := nodup_minus x h.nodup }
        · intro k kd hk
          exact h.linked k kd (hfe k kd hk).2
        · intro k kd hk hpk
          obtain ⟨hkx, hk2⟩ := hfe k kd hk
          exact absurd ((h.alone k kd hk2 hpk).1 x hd hf) hkx
        · intro k hk
          obtain ⟨hk1, hk2⟩ := mem_minus.mp hk
          obtain ⟨kd, h1, h2, h3⟩ := h.hold k hk1
          refine ⟨kd, ?_, h2, ?_⟩
          · simp only [AMap.find_erase, if_neg (Ne.symm hk2)]; exact h1
          have e1 := h.linked k kd h1
          have e2 := h.linked x hd hf
          rw [e1] at e2
          simp only [Option.some.injEq] at e2
          have hb := h.bound _ (h.linked x hd hf)
          rw [e2] at h3 ⊢
          rw [h3] at hl
          simp only [Option.some.injEq] at hl
          subst hl
          have : ¬ (some (Who.alive k) = some (Who.alive x)) := by simp [hk2]
          simp only [List.getElem?_set_self hb, if_neg this]

theorem inv_run (cfg : Config) (steps : List Step) :
    ∀ st : State, Inv st → AllAllowed cfg st steps → Inv (run cfg st steps) := by
  induction steps with
  | nil => intro st h _; exact h
  | cons a l ih => intro st h hal; exact ih _ (inv_step cfg h a hal.1) hal.2

theorem inv_init : Inv {} where
  bound := by intro o h; cases h
  linked := by intro h hd hf; cases hf
  alone := by intro h hd hf; cases hf
  hold := by intro h hh; cases hh
  nodup := List.nodup_nil

/-- **C47** Whatever the interleaving of opening, creating, locking, unlocking, destroying, dropping
ownership and process deaths, at most one user holds the named lock, provided the users keep the
disciplines of `Allowed`.  For the recoverable lock these are only: do not open before initialisation has
finished, and destroy the owning handle last. -/
theorem C47_mutual_exclusion_partial (cfg : Config) (steps : List Step) (hal : AllAllowed cfg {} steps) :
    (run cfg {} steps).holders.length ≤ 1 :=
  holders_le_one (inv_run cfg steps {} inv_init hal)

example : AllAllowed ⟨true⟩ {} [.create 1, .init 1, .lock 1, .die 1] := by
  refine ⟨trivial, trivial, trivial, trivial, trivial⟩

/-- The unrestricted property. -/
def Exclusive (cfg : Config) : Prop := ∀ steps : List Step, (run cfg {} steps).holders.length ≤ 1

/-- **C47, violation (plain lock)**: destroying a handle releases the lock another handle holds. -/
theorem C47_violated_foreign_destroy :
    (run ⟨false⟩ {} [.create 1, .init 1, .opn 2, .opn 3, .lock 1, .destroy 3, .lock 2]).holders = [2, 1] := by
  decide +kernel

/-- **C47, violation (plain lock)**: unlocking without holding releases the lock of the holder. -/
theorem C47_violated_foreign_unlock :
    (run ⟨false⟩ {} [.create 1, .init 1, .opn 2, .lock 1, .unlock 2, .lock 2]).holders = [2, 1] := by
  decide +kernel

/-- The same two scripts are harmless with the recoverable lock. -/
theorem C47_recoverable_refuses_foreign_release :
    (run ⟨true⟩ {} [.create 1, .init 1, .opn 2, .opn 3, .lock 1, .destroy 3, .lock 2]).holders = [1] ∧
    (run ⟨true⟩ {} [.create 1, .init 1, .opn 2, .lock 1, .unlock 2, .lock 2]).holders = [1] := by
  decide +kernel

/-- **C47, violation (both locks)**: the owner removes the name while another user holds the lock; the
next user creates a second object under the same name and holds "the same lock" as well. -/
theorem C47_violated_unlink (r : Bool) :
    (run ⟨r⟩ {} [.create 1, .init 1, .opn 2, .lock 2, .destroy 1, .create 3, .init 3, .lock 3]).holders =
      [3, 2] := by
  cases r <;> decide +kernel

/-- **C47, violation (both locks)**: a user opens and locks the object between its creation and its
initialisation; the initialisation resets the lock and a second user gets it. -/
theorem C47_violated_init_race (r : Bool) :
    (run ⟨r⟩ {} [.create 1, .opn 2, .lock 2, .init 1, .lock 1]).holders = [1, 2] := by
  cases r <;> decide +kernel

/-- **C47, violation** of the full statement: two processes can hold the lock at the same time, for the
plain and for the recoverable lock. -/
theorem C47_violated (r : Bool) : ¬ Exclusive ⟨r⟩ := by
  intro h
  have := h [.create 1, .opn 2, .lock 2, .init 1, .lock 1]
  rw [C47_violated_init_race r] at this
  simp at this

/-! ### A dead holder -/

/-- **C47** With the recoverable lock, whoever locks next after the holder died gets the lock. -/
theorem C47_recovers_from_dead_holder (st : State) (h : Nat) (hd : Handle)
    (hf : st.handles.find h = some hd) (hp : hd.pending = false) (hh : h ∉ st.holders)
    (hl : st.objs[hd.obj]? = some (some .dead)) :
    h ∈ (step ⟨true⟩ st (.lock h)).holders := by
  simp [step, hf, hp, hh, hl]

example : (run ⟨true⟩ {} [.create 1, .init 1, .opn 2, .lock 1, .die 1]).objs = [some .dead] := by
  decide +kernel

/-- Steps that only lock, open, or die. -/
def NoRelease : Step → Prop
  | .opn _ => True
  | .lock _ => True
  | .die _ => True
  | .drop _ => True
  | _ => False

theorem dead_stays_step (st : State) (o : Nat) (a : Step) (ha : NoRelease a)
    (hl : st.objs[o]? = some (some .dead)) : (step ⟨false⟩ st a).objs[o]? = some (some .dead) := by
  cases a with
  | opn x => simp only [step]; split <;> exact hl
  | create x => cases ha
  | init x => cases ha
  | unlock x => cases ha
  | destroy x => cases ha
  | drop x => simp only [step]; split <;> exact hl
  | lock x =>
    simp only [step]
    cases hf : st.handles.find x with
    | none => exact hl
    | some hd =>
      simp only
      by_cases hp : hd.pending = true ∨ x ∈ st.holders
      · rw [if_pos hp]; exact hl
      · rw [if_neg hp]
        cases ho : st.objs[hd.obj]? with
        | none => exact hl
        | some l =>
          cases l with
          | none =>
            have : hd.obj ≠ o := by intro e; rw [e, hl] at ho; cases ho
            simp only [List.getElem?_set_ne this]; exact hl
          | some w =>
            cases w with
            | alive k => exact hl
            | dead => simp only [Bool.false_eq_true, if_false]; exact hl
  | die x =>
    simp only [step]
    cases hf : st.handles.find x with
    | none => exact hl
    | some hd =>
      simp only
      cases ho : st.objs[hd.obj]? with
      | none => exact hl
      | some l =>
        simp only
        by_cases e : hd.obj = o
        · rw [e] at ho ⊢
          rw [hl] at ho
          simp only [Option.some.injEq] at ho
          subst ho
          have hb : o < st.objs.length := by
            have := List.getElem?_eq_some_iff.mp hl
            exact this.1
          simp [List.getElem?_set_self hb]
        · simp only [List.getElem?_set_ne e]; exact hl

/-- **C47, violation (plain lock)**: once a holder has died, no later attempt to lock succeeds, however
long the others try (as long as nobody releases a lock it does not hold). -/
theorem C47_violated_dead_holder_blocks (steps : List Step) (hs : ∀ a ∈ steps, NoRelease a) :
    ∀ (st : State) (o : Nat), st.objs[o]? = some (some .dead) →
      (run ⟨false⟩ st steps).objs[o]? = some (some .dead) := by
  induction steps with
  | nil => intro st o hl; exact hl
  | cons a l ih =>
    intro st o hl
    exact ih (fun b hb => hs b (List.mem_cons_of_mem _ hb)) _ o
      (dead_stays_step st o a (hs a (List.mem_cons_self ..)) hl)

end Ecal.Sync.Mutex
