import Verif.Sync.ClientRaces
import Verif.Sync.RacesLemmas

/-!
# C89: data races on a service client

Which operations on one service client may run in different threads at the same time without a data race.
-/

namespace Ecal.Sync.ClientRaces
open Ecal.Sync.Races

/-- A call of the client by the user that needs its implementation. -/
def usesHandle : Op → Bool
  | .response | .finalize | .register _ | .cycle _ => false
  | _ => true

/-- One half of the table of operations that must not run at the same time. -/
def rivalOf : Op → Op → Bool
  | .setHost, .setHost | .setHost, .call | .setHost, .callAsync => true
  | .cycle true, .isConnected | .cycle true, .register _ => true
  | .finalize, .call | .finalize, .callAsync | .finalize, .setHost | .finalize, .getName | .finalize, .register _ | .finalize, .cycle _
  | .finalize, .finalize => true
  | .destroy, b => usesHandle b
  | _, _ => false

/-- The table. -/
def rival (a b : Op) : Bool := rivalOf a b || rivalOf b a

def allOps : List Op :=
  [.call, .callAsync, .response, .setHost, .setResp, .setEvent, .isConnected, .getName, .destroy, .finalize, .register false, .register true,
   .cycle false, .cycle true]

theorem mem_allOps (o : Op) : o ∈ allOps := by
  cases o with
  | register b => cases b <;> decide
  | cycle b => cases b <;> decide
  | _ => decide

theorem clash_table : ∀ a ∈ allOps, ∀ b ∈ allOps, clash a.acts b.acts = rival a b := by decide +kernel

theorem clash_eq (a b : Op) : clash a.acts b.acts = rival a b := clash_table a (mem_allOps a) b (mem_allOps b)

theorem races_table : ∀ a ∈ allOps, ∀ b ∈ allOps, rival a b = true → racesB a.acts b.acts = true := by decide +kernel

theorem startAll_two (a b : Op) : startAll [[a], [b]] = start [a.acts, b.acts] := by simp [startAll]

/-- **C89**, the locks that do their work: on the sessions, the callbacks, the methods with their counts and the list of registrations there is
never a race, whatever any number of threads do with the client. -/
theorem C89_locked (ts : List (List Op)) (tr : List Nat) (s : Sys Lk Var) (h : run (startAll ts) tr = some s) (v : Var)
    (hv : v ∈ [Var.clientMap, .respCb, .evMap, .methods, .regList]) : ¬ RaceOn s v := by
  have table : ∀ x ∈ [(Var.clientMap, Lk.clientL), (.respCb, .respL), (.evMap, .evL), (.methods, .methodL), (.regList, .regL)],
      ∀ o ∈ allOps, ∀ a ∈ accs [] o.acts, a.var = x.1 → (x.2, Mode.excl) ∈ a.held := by decide +kernel
  have key : ∀ l, (v, l) ∈ [(Var.clientMap, Lk.clientL), (.respCb, .respL), (.evMap, .evL), (.methods, .methodL), (.regList, .regL)] →
      ¬ RaceOn s v := fun l hl => no_race_on Op.acts v l (fun o a ha e => table (v, l) hl o (mem_allOps o) a ha e) ts tr h
  simp only [List.mem_cons, List.not_mem_nil, or_false] at hv
  rcases hv with rfl | rfl | rfl | rfl | rfl
  · exact key .clientL (by decide)
  · exact key .respL (by decide)
  · exact key .evL (by decide)
  · exact key .methodL (by decide)
  · exact key .regL (by decide)

example : ∃ tr s, run (startAll [[.call], [.cycle true], [.destroy]]) tr = some s ∧ (∃ t, s[0]? = some t ∧ t.touches .clientMap) :=
  ⟨List.replicate 7 0, _, rfl, _, rfl, .inl rfl⟩

/-- **C89**, the part that holds: threads none of whose operations are rivals of those of another thread never race. -/
theorem C89_race_free_partial (ts : List (List Op))
    (hc : ∀ (i j : Nat) (os qs : List Op), i ≠ j → ts[i]? = some os → ts[j]? = some qs → ∀ o ∈ os, ∀ q ∈ qs, rival o q = false)
    (tr : List Nat) (s : Sys Lk Var) (h : run (startAll ts) tr = some s) : ¬ Race s :=
  no_race Op.acts ts (fun i j os qs hij hi hj o ho q hq => by rw [clash_eq]; exact hc i j os qs hij hi hj o ho q hq) tr h

example : ∀ (i j : Nat) (os qs : List Op), i ≠ j → [[Op.setHost, .call, .destroy], [.register true, .register false]][i]? = some os →
    [[Op.setHost, .call, .destroy], [.register true, .register false]][j]? = some qs → ∀ o ∈ os, ∀ q ∈ qs, rival o q = false := by
  intro i j os qs hij hi hj
  match i, j with
  | 0, 0 => exact absurd rfl hij
  | 1, 1 => exact absurd rfl hij
  | 0, 1 => obtain rfl := Option.some.inj hi; obtain rfl := Option.some.inj hj; decide
  | 1, 0 => obtain rfl := Option.some.inj hi; obtain rfl := Option.some.inj hj; decide
  | i + 2, _ => cases hi
  | _, j + 2 => cases hj

/-- Operations that may be made by any number of threads at the same time. -/
def quiet : Op → Bool
  | .call | .callAsync | .response | .setResp | .setEvent | .isConnected | .getName | .register _ | .cycle false => true
  | _ => false

/-- **C89**, the ordinary use: any number of threads may call, receive responses, change the callbacks and ask for the state at the same time
while servers register and registration cycles run, as long as no connection fails. -/
theorem C89_quiet (ts : List (List Op)) (hq : ∀ os ∈ ts, ∀ o ∈ os, quiet o = true) (tr : List Nat) (s : Sys Lk Var)
    (h : run (startAll ts) tr = some s) : ¬ Race s := by
  refine C89_race_free_partial ts ?_ tr s h
  intro i j os qs _ hi hj o ho q hq'
  have table : ∀ a ∈ allOps, ∀ b ∈ allOps, quiet a = true → quiet b = true → rival a b = false := by decide +kernel
  exact table o (mem_allOps o) q (mem_allOps q) (hq os (List.mem_of_getElem? hi) o ho) (hq qs (List.mem_of_getElem? hj) q hq')

example : ∀ os ∈ [[Op.call, .callAsync], [.call, .setEvent], [.response], [.register true], [.cycle false, .cycle false]], ∀ o ∈ os,
    quiet o = true := by
  decide

/-- The operations the library makes in its own threads. -/
def library : List Op := [.response, .register false, .register true, .cycle false, .cycle true]

/-- **C89**, the end of a client: a thread of the user that destroys the client never races with the threads of the library, although
responses may still arrive when the client has been taken out of the gate. -/
theorem C89_destroy (os : List Op) (ho : ∀ o ∈ os, o ∈ library) (tr : List Nat) (s : Sys Lk Var)
    (h : run (startAll [[.destroy], os]) tr = some s) : ¬ Race s := by
  refine C89_race_free_partial _ ?_ tr s h
  have table : ∀ b ∈ library, rival .destroy b = false ∧ rival b .destroy = false := by decide +kernel
  intro i j os' qs hij hi hj o ho' q hq
  match i, j with
  | 0, 0 => exact absurd rfl hij
  | 1, 1 => exact absurd rfl hij
  | 0, 1 =>
    obtain rfl := Option.some.inj hi
    obtain rfl := Option.some.inj hj
    rw [List.mem_singleton.1 ho']
    exact (table q (ho q hq)).1
  | 1, 0 =>
    obtain rfl := Option.some.inj hi
    obtain rfl := Option.some.inj hj
    rw [List.mem_singleton.1 hq]
    exact (table o (ho o ho')).2
  | i + 2, _ => cases hi
  | _, j + 2 => cases hj

example : ∀ o ∈ [Op.cycle true, .register true, .response], o ∈ library := by decide

/-- **C89**, exactly: two operations can race iff they are rivals in the table. -/
theorem C89_race_iff (a b : Op) : (∃ tr s, run (startAll [[a], [b]]) tr = some s ∧ Race s) ↔ rival a b = true := by
  constructor
  · rintro ⟨tr, s, h, hr⟩
    false_or_by_contra
    rename_i hx
    rw [Bool.not_eq_true] at hx
    have hx' : rival b a = false := by
      unfold rival at hx ⊢
      rw [Bool.or_comm]
      exact hx
    refine C89_race_free_partial [[a], [b]] ?_ tr s h hr
    intro i j os qs hij hi hj
    match i, j with
    | 0, 0 => exact absurd rfl hij
    | 1, 1 => exact absurd rfl hij
    | 0, 1 =>
      obtain rfl := Option.some.inj hi
      obtain rfl := Option.some.inj hj
      intro o ho q hq
      rw [List.mem_singleton.1 ho, List.mem_singleton.1 hq]
      exact hx
    | 1, 0 =>
      obtain rfl := Option.some.inj hi
      obtain rfl := Option.some.inj hj
      intro o ho q hq
      rw [List.mem_singleton.1 ho, List.mem_singleton.1 hq]
      exact hx'
    | i + 2, _ => cases hi
    | _, j + 2 => cases hj
  · intro h
    rw [startAll_two]
    exact racesB_sound (races_table a (mem_allOps a) b (mem_allOps b) h)

example : rival .setHost .call = true ∧ rival .call .call = false := by decide

/-- **C89 is violated**, without any call of the user: the registration cycle finds a connection failed and takes it out of the map of the
connected servers without the lock of this map while a registration searches or extends the map in another thread. -/
theorem C89_violated_library (n : Bool) :
    ∃ tr s, run (startAll [[.cycle true], [.register n]]) tr = some s ∧ RaceOn s .connMap := by
  rw [startAll_two]
  exact racesOnB_sound (by cases n <;> decide +kernel)

/-- **C89 is violated** by a thread that asks whether the client is connected at this moment. -/
theorem C89_violated_connected :
    ∃ tr s, run (startAll [[.cycle true], [.isConnected]]) tr = some s ∧ RaceOn s .connMap := by
  rw [startAll_two]
  exact racesOnB_sound (by decide +kernel)

/-- **C89 is violated** by `Finalize`: it clears the name and the identifier of the client under a lock that is only shared, while registrations
compare the name and the registration cycle, which is stopped later, copies both. -/
theorem C89_violated_finalize (n f : Bool) :
    (∃ tr s, run (startAll [[.finalize], [.register n]]) tr = some s ∧ RaceOn s .name) ∧
    (∃ tr s, run (startAll [[.finalize], [.cycle f]]) tr = some s ∧ RaceOn s .sid) ∧
    (∃ tr s, run (startAll [[.finalize], [.call]]) tr = some s ∧ RaceOn s .name) := by
  rw [startAll_two, startAll_two, startAll_two]
  exact ⟨racesOnB_sound (by cases n <;> decide +kernel), racesOnB_sound (by cases f <;> decide +kernel), racesOnB_sound (by decide +kernel)⟩

/-- **C89 is violated** by a thread that changes the host filter while another one calls. -/
theorem C89_violated_host :
    (∃ tr s, run (startAll [[.setHost], [.call]]) tr = some s ∧ RaceOn s .host) ∧
    (∃ tr s, run (startAll [[.setHost], [.callAsync]]) tr = some s ∧ RaceOn s .host) := by
  rw [startAll_two, startAll_two]
  exact ⟨racesOnB_sound (by decide +kernel), racesOnB_sound (by decide +kernel)⟩

/-- **`Destroy` gives up what `Finalize` gives up**: every variable that `Finalize` reads or writes, `Destroy` reads or writes too. -/
theorem C89_destroy_covers_finalize :
    ∀ x ∈ accs [] Op.finalize.acts, ∃ y ∈ accs [] Op.destroy.acts, y.var = x.var ∧ (x.write = true → y.write = true) := by
  decide +kernel

end Ecal.Sync.ClientRaces
