import Verif.Sync.ServerRaces
import Verif.Sync.RacesLemmas

/-!
# C90: data races on a service server

Which operations on one service server may run in different threads at the same time without a data race.
-/

namespace Ecal.Sync.ServerRaces
open Ecal.Sync.Races

/-- A call of the server by the user that needs its implementation. -/
def usesHandle : Op → Bool
  | .request | .event _ | .finalize | .cycle => false
  | _ => true

/-- One half of the table of operations that must not run at the same time. -/
def rivalOf : Op → Op → Bool
  | .create, .event _ => true
  | .create, b => usesHandle b
  | .destroy, .request | .destroy, .event true => true
  | .destroy, b => usesHandle b
  | .finalize, .getName | .finalize, .cycle => true
  | _, _ => false

/-- The table. -/
def rival (a b : Op) : Bool := rivalOf a b || rivalOf b a

def allOps : List Op :=
  [.create, .request, .event false, .event true, .setMethod, .setEvent, .isConnected, .getName, .destroy, .finalize, .cycle]

theorem mem_allOps (o : Op) : o ∈ allOps := by
  cases o with
  | event b => cases b <;> decide
  | _ => decide

theorem clash_table : ∀ a ∈ allOps, ∀ b ∈ allOps, clash a.acts b.acts = rival a b := by decide +kernel

theorem clash_eq (a b : Op) : clash a.acts b.acts = rival a b := clash_table a (mem_allOps a) b (mem_allOps b)

theorem races_table : ∀ a ∈ allOps, ∀ b ∈ allOps, rival a b = true → racesB a.acts b.acts = true := by decide +kernel

theorem startAll_two (a b : Op) : startAll [[a], [b]] = start [a.acts, b.acts] := by simp [startAll]

/-- **C90**, the locks that do their work: on the methods with their counts, the event callbacks, the connection state and the list of
registrations there is never a race, whatever any number of threads do with the server. -/
theorem C90_locked (ts : List (List Op)) (tr : List Nat) (s : Sys Lk Var) (h : run (startAll ts) tr = some s) (v : Var)
    (hv : v ∈ [Var.methods, .evMap, .conn, .regList]) : ¬ RaceOn s v := by
  have table : ∀ x ∈ [(Var.methods, Lk.methodL), (.evMap, .evL), (.conn, .connL), (.regList, .regL)],
      ∀ o ∈ allOps, ∀ a ∈ accs [] o.acts, a.var = x.1 → (x.2, Mode.excl) ∈ a.held := by decide +kernel
  have key : ∀ l, (v, l) ∈ [(Var.methods, Lk.methodL), (.evMap, .evL), (.conn, .connL), (.regList, .regL)] →
      ¬ RaceOn s v := fun l hl => no_race_on Op.acts v l (fun o a ha e => table (v, l) hl o (mem_allOps o) a ha e) ts tr h
  simp only [List.mem_cons, List.not_mem_nil, or_false] at hv
  rcases hv with rfl | rfl | rfl | rfl
  · exact key .methodL (by decide)
  · exact key .evL (by decide)
  · exact key .connL (by decide)
  · exact key .regL (by decide)

example : ∃ tr s, run (startAll [[.request], [.cycle], [.destroy]]) tr = some s ∧ (∃ t, s[0]? = some t ∧ t.touches .methods) :=
  ⟨List.replicate 4 0, _, rfl, _, rfl, .inr rfl⟩

/-- **C90**, the part that holds: threads none of whose operations are rivals of those of another thread never race. -/
theorem C90_race_free_partial (ts : List (List Op))
    (hc : ∀ (i j : Nat) (os qs : List Op), i ≠ j → ts[i]? = some os → ts[j]? = some qs → ∀ o ∈ os, ∀ q ∈ qs, rival o q = false)
    (tr : List Nat) (s : Sys Lk Var) (h : run (startAll ts) tr = some s) : ¬ Race s :=
  no_race Op.acts ts (fun i j os qs hij hi hj o ho q hq => by rw [clash_eq]; exact hc i j os qs hij hi hj o ho q hq) tr h

example : ∀ (i j : Nat) (os qs : List Op), i ≠ j → [[Op.create, .setMethod, .setEvent, .destroy], [.cycle, .cycle]][i]? = some os →
    [[Op.create, .setMethod, .setEvent, .destroy], [.cycle, .cycle]][j]? = some qs → ∀ o ∈ os, ∀ q ∈ qs, rival o q = false := by
  intro i j os qs hij hi hj
  match i, j with
  | 0, 0 => exact absurd rfl hij
  | 1, 1 => exact absurd rfl hij
  | 0, 1 => obtain rfl := Option.some.inj hi; obtain rfl := Option.some.inj hj; decide
  | 1, 0 => obtain rfl := Option.some.inj hi; obtain rfl := Option.some.inj hj; decide
  | i + 2, _ => cases hi
  | _, j + 2 => cases hj

/-- Operations that may be made by any number of threads at the same time. -/
def quiet : Op → Bool
  | .request | .event _ | .setMethod | .setEvent | .isConnected | .getName | .cycle => true
  | _ => false

/-- **C90**, the ordinary use: between the creation and the end of a server any number of threads may serve requests, report connections,
change the methods and callbacks and ask for the state at the same time while registration cycles run. -/
theorem C90_quiet (ts : List (List Op)) (hq : ∀ os ∈ ts, ∀ o ∈ os, quiet o = true) (tr : List Nat) (s : Sys Lk Var)
    (h : run (startAll ts) tr = some s) : ¬ Race s := by
  refine C90_race_free_partial ts ?_ tr s h
  intro i j os qs _ hi hj o ho q hq'
  have table : ∀ a ∈ allOps, ∀ b ∈ allOps, quiet a = true → quiet b = true → rival a b = false := by decide +kernel
  exact table o (mem_allOps o) q (mem_allOps q) (hq os (List.mem_of_getElem? hi) o ho) (hq qs (List.mem_of_getElem? hj) q hq')

example : ∀ os ∈ [[Op.request, .request], [.event true, .request], [.setMethod, .setEvent], [.cycle, .cycle]], ∀ o ∈ os,
    quiet o = true := by
  decide

/-- **C90**, exactly: two operations can race iff they are rivals in the table. -/
theorem C90_race_iff (a b : Op) : (∃ tr s, run (startAll [[a], [b]]) tr = some s ∧ Race s) ↔ rival a b = true := by
  constructor
  · rintro ⟨tr, s, h, hr⟩
    false_or_by_contra
    rename_i hx
    rw [Bool.not_eq_true] at hx
    have hx' : rival b a = false := by
      unfold rival at hx ⊢
      rw [Bool.or_comm]
      exact hx
    refine C90_race_free_partial [[a], [b]] ?_ tr s h hr
    intro i j os qs hij hi hj
    match i, j with
    | 0, 0 => exact absurd rfl hij
    | 1, 1 => exact absurd rfl hij
    | 0, 1 =>
      obtain rfl := Option.some.inj hi
      obtain rfl := Option.some.inj hj
      intro o ho q hq
      rw [List.mem_singleton.1 ho, List.mem_singleton.1 hq]
      exact hx
    | 1, 0 =>
      obtain rfl := Option.some.inj hi
      obtain rfl := Option.some.inj hj
      intro o ho q hq
      rw [List.mem_singleton.1 ho, List.mem_singleton.1 hq]
      exact hx'
    | i + 2, _ => cases hi
    | _, j + 2 => cases hj
  · intro h
    rw [startAll_two]
    exact racesB_sound (races_table a (mem_allOps a) b (mem_allOps b) h)

example : rival .destroy .request = true ∧ rival .request .request = false := by decide

/-- **C90 is violated** by the end of a server: `Destroy` stops the TCP servers without waiting for the service threads and clears the name and
the identifier of the server while a request that is just being served copies them. -/
theorem C90_violated_destroy :
    (∃ tr s, run (startAll [[.destroy], [.request]]) tr = some s ∧ RaceOn s .name) ∧
    (∃ tr s, run (startAll [[.destroy], [.request]]) tr = some s ∧ RaceOn s .sid) ∧
    (∃ tr s, run (startAll [[.destroy], [.event true]]) tr = some s ∧ RaceOn s .name) := by
  rw [startAll_two, startAll_two]
  exact ⟨racesOnB_sound (by decide +kernel), racesOnB_sound (by decide +kernel), racesOnB_sound (by decide +kernel)⟩

/-- **C90 is violated** by the start of a server: a TCP server accepts connections before it has been stored, and the service thread that reports
a connection reads the place where it is being stored. -/
theorem C90_violated_create (c : Bool) :
    (∃ tr s, run (startAll [[.create], [.event c]]) tr = some s ∧ RaceOn s .srv0) ∧
    (∃ tr s, run (startAll [[.create], [.event c]]) tr = some s ∧ RaceOn s .srv1) := by
  rw [startAll_two]
  exact ⟨racesOnB_sound (by cases c <;> decide +kernel), racesOnB_sound (by cases c <;> decide +kernel)⟩

/-- **C90 is violated** by `Finalize`: it clears the name and the identifier of the server under a lock that is only shared, while the
registration cycle, which is stopped later, copies both. -/
theorem C90_violated_finalize :
    (∃ tr s, run (startAll [[.finalize], [.cycle]]) tr = some s ∧ RaceOn s .name) ∧
    (∃ tr s, run (startAll [[.finalize], [.cycle]]) tr = some s ∧ RaceOn s .sid) := by
  rw [startAll_two]
  exact ⟨racesOnB_sound (by decide +kernel), racesOnB_sound (by decide +kernel)⟩

/-- **C90**, `Finalize` and the service threads: requests and events never race with the end of a server in `Finalize`. -/
theorem C90_finalize_requests (os : List Op) (ho : ∀ o ∈ os, o = .request ∨ ∃ b, o = .event b) (tr : List Nat) (s : Sys Lk Var)
    (h : run (startAll [[.finalize], os]) tr = some s) : ¬ Race s := by
  refine C90_race_free_partial _ ?_ tr s h
  have table : ∀ b, (b = Op.request ∨ ∃ c, b = .event c) → rival .finalize b = false ∧ rival b .finalize = false := by
    rintro b (rfl | ⟨c, rfl⟩)
    · decide
    · cases c <;> decide
  intro i j os' qs hij hi hj o ho' q hq
  match i, j with
  | 0, 0 => exact absurd rfl hij
  | 1, 1 => exact absurd rfl hij
  | 0, 1 =>
    obtain rfl := Option.some.inj hi
    obtain rfl := Option.some.inj hj
    rw [List.mem_singleton.1 ho']
    exact (table q (ho q hq)).1
  | 1, 0 =>
    obtain rfl := Option.some.inj hi
    obtain rfl := Option.some.inj hj
    rw [List.mem_singleton.1 hq]
    exact (table o (ho o ho')).2
  | i + 2, _ => cases hi
  | _, j + 2 => cases hj

example : ∀ o ∈ [Op.request, .event true], o = .request ∨ ∃ b, o = .event b := by
  intro o ho
  simp only [List.mem_cons, List.not_mem_nil, or_false] at ho
  rcases ho with rfl | rfl
  · exact .inl rfl
  · exact .inr ⟨_, rfl⟩

end Ecal.Sync.ServerRaces
