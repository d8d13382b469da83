import Verif.Sync.LocksLemmas

/-!
# Critical sections that keep an order of the locks

General lemmas for tables of critical sections (`Verif/Sync/SvcLocks.lean`).  No code of the library is modelled here.
-/

namespace Ecal.Sync.LockOrder
open Ecal.Sync.Locks

variable {L : Type} [DecidableEq L]

/-- A critical section. -/
def sect (l : L) (m : Mode) (body : List (Act L)) : List (Act L) := .acq l m :: (body ++ [.rel l])

/-- Take a lock for a moment. -/
def touch (l : L) : List (Act L) := sect l .excl []

/-- Actions that keep the order when they are made with `held` held. -/
def Safe (rk : L → Nat) (held : List (L × Mode)) (a : List (Act L)) : Prop :=
  ∀ r, Ordered rk held r → Ordered rk held (a ++ r)

theorem safe_nil (rk : L → Nat) (held) : Safe rk held [] := fun _ h => h

theorem safe_append {rk : L → Nat} {held a b} (ha : Safe rk held a) (hb : Safe rk held b) : Safe rk held (a ++ b) := by
  intro r hr
  rw [List.append_assoc]
  exact ha _ (hb _ hr)

theorem safe_flatMap {rk : L → Nat} {held} {α : Type} (f : α → List (Act L)) (xs : List α) (h : ∀ x ∈ xs, Safe rk held (f x)) :
    Safe rk held (xs.flatMap f) := by
  induction xs with
  | nil => exact safe_nil rk held
  | cons x r ih =>
    rw [List.flatMap_cons]
    exact safe_append (h x List.mem_cons_self) (ih (fun y hy => h y (List.mem_cons_of_mem _ hy)))

/-- Everything held is below the lock. -/
def Below (rk : L → Nat) (held : List (L × Mode)) (k : Nat) : Prop := ∀ h ∈ held, rk h.1 < k

omit [DecidableEq L] in
theorem below_cons {rk : L → Nat} {held l m k} (h : Below rk held k) (hl : rk l < k) : Below rk ((l, m) :: held) k := by
  intro x hx
  rcases List.mem_cons.1 hx with rfl | hx
  · exact hl
  · exact h x hx

omit [DecidableEq L] in
theorem below_nil {rk : L → Nat} {k} : Below rk [] k := by intro x hx; cases hx

omit [DecidableEq L] in
theorem below_mono {rk : L → Nat} {held k k'} (h : Below rk held k) (hk : k ≤ k') : Below rk held k' :=
  fun x hx => Nat.lt_of_lt_of_le (h x hx) hk

/-- A critical section: the lock is above everything held, the body is safe with it. -/
theorem safe_sect {rk : L → Nat} {held l m body} (hl : Below rk held (rk l)) (hb : Safe rk ((l, m) :: held) body) :
    Safe rk held (sect l m body) := by
  intro r hr
  have hf : ((l, m) :: held).filter (fun h => h.1 != l) = held := by
    rw [List.filter_cons_of_neg (by simp)]
    apply List.filter_eq_self.2
    intro x hx
    simp only [bne_iff_ne, ne_eq]
    intro he
    have := hl x hx
    rw [he] at this
    exact Nat.lt_irrefl _ this
  have : sect l m body ++ r = .acq l m :: (body ++ (.rel l :: r)) := by simp [sect]
  rw [this]
  refine ⟨hl, hb _ ?_⟩
  show Ordered rk (((l, m) :: held).filter (fun h => h.1 != l)) r
  rw [hf]
  exact hr

/-- The same with the bound as a number: the body may assume the bound of the lock. -/
theorem safe_sect' {rk : L → Nat} {held l m body} (k : Nat) (hk : Below rk held k) (hkl : k ≤ rk l)
    (hb : ∀ held', Below rk held' (rk l + 1) → Safe rk held' body) : Safe rk held (sect l m body) := by
  have hl : Below rk held (rk l) := below_mono hk hkl
  exact safe_sect hl (hb _ (below_cons (below_mono hl (by omega)) (by omega)))

theorem safe_touch {rk : L → Nat} {held l} (k : Nat) (hk : Below rk held k) (hkl : k ≤ rk l) : Safe rk held (touch l) :=
  safe_sect (below_mono hk hkl) (safe_nil _ _)

theorem start_ordered (rk : L → Nat) (ps : List (List (Act L))) (h : ∀ p ∈ ps, Safe rk [] p) : AllOrdered rk (start ps) := by
  intro t ht
  simp only [start, List.mem_map] at ht
  obtain ⟨p, hp, rfl⟩ := ht
  have := h p hp [] rfl
  rwa [List.append_nil] at this

/-- A checker for deadlocks. -/
def deadlockedB (pref : Bool) (s : Sys L) : Bool :=
  s.any (fun t => !t.rest.isEmpty) && (List.range s.length).all (fun i => (step pref s i).isNone)

theorem deadlockedB_sound (pref : Bool) (s : Sys L) (h : deadlockedB pref s = true) : Deadlocked pref s := by
  simp only [deadlockedB, Bool.and_eq_true] at h
  constructor
  · intro hf
    obtain ⟨t, ht, hne⟩ := List.any_eq_true.1 h.1
    rw [hf t ht] at hne
    simp at hne
  · intro i
    by_cases hi : i < s.length
    · have := List.all_eq_true.1 h.2 i (List.mem_range.2 hi)
      exact Option.isNone_iff_eq_none.1 this
    · simp [step, List.getElem?_eq_none (Nat.le_of_not_lt hi)]

end Ecal.Sync.LockOrder
