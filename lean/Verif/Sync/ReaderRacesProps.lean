import Verif.Sync.ReaderRaces
import Verif.Sync.RacesLemmas

/-!
# C88: data races on a subscriber

Which operations on one subscriber may run in different threads at the same time without a data race.
-/

namespace Ecal.Sync.ReaderRaces
open Ecal.Sync.Races

/-- A call of the subscriber by the user that needs its data reader. -/
def usesHandle : Op → Bool
  | .deliver .. | .finalize | .applyPub | .removePub | .cycle => false
  | _ => true

/-- One half of the table of operations that must not run at the same time. -/
def rivalOf : Op → Op → Bool
  | .setId, .setId | .setId, .deliver .. => true
  | .setAttr, .setAttr | .setAttr, .cycle => true
  | .deliver .., .cycle => true
  | .dump, .receive | .dump, .deliver _ false => true
  | .destroy, b => usesHandle b
  | _, _ => false

/-- The table. -/
def rival (a b : Op) : Bool := rivalOf a b || rivalOf b a

def allOps : List Op :=
  [.deliver false false, .deliver false true, .deliver true false, .deliver true true, .receive, .setRecv, .setEvent, .setId, .setAttr,
   .count, .getInfo, .dump, .destroy, .finalize, .applyPub, .removePub, .cycle]

theorem mem_allOps (o : Op) : o ∈ allOps := by
  cases o with
  | deliver d c => cases d <;> cases c <;> decide
  | _ => decide

theorem clash_table : ∀ a ∈ allOps, ∀ b ∈ allOps, clash a.acts b.acts = rival a b := by decide +kernel

theorem clash_eq (a b : Op) : clash a.acts b.acts = rival a b := clash_table a (mem_allOps a) b (mem_allOps b)

theorem races_table : ∀ a ∈ allOps, ∀ b ∈ allOps, rival a b = true → racesB a.acts b.acts = true := by decide +kernel

theorem startAll_two (a b : Op) : startAll [[a], [b]] = start [a.acts, b.acts] := by simp [startAll]

/-- **C88**, the locks that do their work: on the map of publishers, the callbacks, the frequency, the hashes and the counters of the samples
and the list of registrations there is never a race, whatever any number of threads do with the subscriber. -/
theorem C88_locked (ts : List (List Op)) (tr : List Nat) (s : Sys Lk Var) (h : run (startAll ts) tr = some s) (v : Var)
    (hv : v ∈ [Var.pubMap, .recvCb, .evMap, .freq, .hashes, .counters, .regList]) : ¬ RaceOn s v := by
  have table : ∀ x ∈ [(Var.pubMap, Lk.mapL), (.recvCb, .recvL), (.evMap, .evL), (.freq, .freqL), (.hashes, .recvL), (.counters, .recvL),
      (.regList, .regL)], ∀ o ∈ allOps, ∀ a ∈ accs [] o.acts, a.var = x.1 → (x.2, Mode.excl) ∈ a.held := by decide +kernel
  have key : ∀ l, (v, l) ∈ [(Var.pubMap, Lk.mapL), (.recvCb, .recvL), (.evMap, .evL), (.freq, .freqL), (.hashes, .recvL), (.counters, .recvL),
      (.regList, .regL)] → ¬ RaceOn s v := fun l hl =>
    no_race_on Op.acts v l (fun o a ha e => table (v, l) hl o (mem_allOps o) a ha e) ts tr h
  simp only [List.mem_cons, List.not_mem_nil, or_false] at hv
  rcases hv with rfl | rfl | rfl | rfl | rfl | rfl | rfl
  · exact key .mapL (by decide)
  · exact key .recvL (by decide)
  · exact key .evL (by decide)
  · exact key .freqL (by decide)
  · exact key .recvL (by decide)
  · exact key .recvL (by decide)
  · exact key .regL (by decide)

example : ∃ tr s, run (startAll [[.deliver true true], [.deliver true false], [.destroy]]) tr = some s ∧
    (∃ t, s[0]? = some t ∧ t.touches .recvCb) :=
  ⟨List.replicate 20 0, _, rfl, _, rfl, .inl rfl⟩

/-- **C88**, the part that holds: threads none of whose operations are rivals of those of another thread never race. -/
theorem C88_race_free_partial (ts : List (List Op))
    (hc : ∀ (i j : Nat) (os qs : List Op), i ≠ j → ts[i]? = some os → ts[j]? = some qs → ∀ o ∈ os, ∀ q ∈ qs, rival o q = false)
    (tr : List Nat) (s : Sys Lk Var) (h : run (startAll ts) tr = some s) : ¬ Race s :=
  no_race Op.acts ts (fun i j os qs hij hi hj o ho q hq => by rw [clash_eq]; exact hc i j os qs hij hi hj o ho q hq) tr h

example : ∀ (i j : Nat) (os qs : List Op), i ≠ j → [[Op.deliver true true, .deliver false false], [.receive, .setRecv, .destroy]][i]? = some os →
    [[Op.deliver true true, .deliver false false], [.receive, .setRecv, .destroy]][j]? = some qs → ∀ o ∈ os, ∀ q ∈ qs, rival o q = false := by
  intro i j os qs hij hi hj
  match i, j with
  | 0, 0 => exact absurd rfl hij
  | 1, 1 => exact absurd rfl hij
  | 0, 1 => obtain rfl := Option.some.inj hi; obtain rfl := Option.some.inj hj; decide
  | 1, 0 => obtain rfl := Option.some.inj hi; obtain rfl := Option.some.inj hj; decide
  | i + 2, _ => cases hi
  | _, j + 2 => cases hj

/-- Operations that may be made by any number of threads at the same time. -/
def quiet : Op → Bool
  | .receive | .setRecv | .setEvent | .count | .getInfo | .finalize | .applyPub | .removePub | .deliver .. => true
  | _ => false

/-- **C88**, between two registration cycles: any number of layers may deliver at the same time while other threads receive, change the
callbacks and count, registrations come and go, and even while the library is finalised. -/
theorem C88_quiet (ts : List (List Op)) (hq : ∀ os ∈ ts, ∀ o ∈ os, quiet o = true) (tr : List Nat) (s : Sys Lk Var)
    (h : run (startAll ts) tr = some s) : ¬ Race s := by
  refine C88_race_free_partial ts ?_ tr s h
  intro i j os qs _ hi hj o ho q hq'
  have table : ∀ a ∈ allOps, ∀ b ∈ allOps, quiet a = true → quiet b = true → rival a b = false := by decide +kernel
  exact table o (mem_allOps o) q (mem_allOps q) (hq os (List.mem_of_getElem? hi) o ho) (hq qs (List.mem_of_getElem? hj) q hq')

example : ∀ os ∈ [[Op.deliver true true, .deliver false false], [.setRecv, .receive], [.applyPub, .removePub], [.finalize]], ∀ o ∈ os, quiet o = true := by
  decide

/-- **C88**, the end of a subscriber: a thread of the user that alone uses and then destroys the subscriber never races with deliveries,
registrations and the finalisation, although deliveries may still run when the subscriber has been taken out of the gate. -/
theorem C88_destroy (us : List Op) (ts : List (List Op)) (hu : ∀ o ∈ us, quiet o = true ∨ o = .destroy)
    (ht : ∀ os ∈ ts, ∀ o ∈ os, o ∈ [Op.deliver false false, .deliver false true, .deliver true false, .deliver true true, .applyPub, .removePub, .finalize])
    (tr : List Nat) (s : Sys Lk Var) (h : run (startAll (us :: ts)) tr = some s) : ¬ Race s := by
  refine C88_race_free_partial _ ?_ tr s h
  have table : ∀ a ∈ allOps, ∀ b ∈ [Op.deliver false false, .deliver false true, .deliver true false, .deliver true true, .applyPub, .removePub, .finalize],
      (quiet a = true ∨ a = .destroy) → rival a b = false ∧ rival b a = false := by decide +kernel
  have quietL : ∀ b ∈ [Op.deliver false false, .deliver false true, .deliver true false, .deliver true true, .applyPub, .removePub, .finalize],
      quiet b = true := by decide
  intro i j os qs hij hi hj o ho q hq
  match i, j with
  | 0, 0 => exact absurd rfl hij
  | 0, j + 1 =>
    obtain rfl := Option.some.inj hi
    exact (table o (mem_allOps o) q (ht qs (List.mem_of_getElem? (i := j) (by simpa using hj)) q hq) (hu o ho)).1
  | i + 1, 0 =>
    obtain rfl := Option.some.inj hj
    exact (table q (mem_allOps q) o (ht os (List.mem_of_getElem? (i := i) (by simpa using hi)) o ho) (hu q hq)).2
  | i + 1, j + 1 =>
    exact (table o (mem_allOps o) q (ht qs (List.mem_of_getElem? (i := j) (by simpa using hj)) q hq)
      (.inl (quietL o (ht os (List.mem_of_getElem? (i := i) (by simpa using hi)) o ho)))).1

example : (∀ o ∈ [Op.setRecv, .receive, .destroy], quiet o = true ∨ o = .destroy) ∧
    (∀ os ∈ [[Op.deliver true true], [.deliver false false, .applyPub]], ∀ o ∈ os,
      o ∈ [Op.deliver false false, .deliver false true, .deliver true false, .deliver true true, .applyPub, .removePub, .finalize]) := by
  decide

/-- **C88**, exactly: two operations can race iff they are rivals in the table. -/
theorem C88_race_iff (a b : Op) : (∃ tr s, run (startAll [[a], [b]]) tr = some s ∧ Race s) ↔ rival a b = true := by
  constructor
  · rintro ⟨tr, s, h, hr⟩
    false_or_by_contra
    rename_i hx
    rw [Bool.not_eq_true] at hx
    have hx' : rival b a = false := by
      unfold rival at hx ⊢
      rw [Bool.or_comm]
      exact hx
    refine C88_race_free_partial [[a], [b]] ?_ tr s h hr
    intro i j os qs hij hi hj
    match i, j with
    | 0, 0 => exact absurd rfl hij
    | 1, 1 => exact absurd rfl hij
    | 0, 1 =>
      obtain rfl := Option.some.inj hi
      obtain rfl := Option.some.inj hj
      intro o ho q hq
      rw [List.mem_singleton.1 ho, List.mem_singleton.1 hq]
      exact hx
    | 1, 0 =>
      obtain rfl := Option.some.inj hi
      obtain rfl := Option.some.inj hj
      intro o ho q hq
      rw [List.mem_singleton.1 ho, List.mem_singleton.1 hq]
      exact hx'
    | i + 2, _ => cases hi
    | _, j + 2 => cases hj
  · intro h
    rw [startAll_two]
    exact racesB_sound (races_table a (mem_allOps a) b (mem_allOps b) h)

example : rival .setId (.deliver true true) = true ∧ rival .receive (.deliver true false) = false := by decide

/-- **C88 is violated**, without any call of the user: a layer delivers a sample (and marks itself as active, and counts the samples that got
lost) while the registration cycle reads the state of the layers and this count in another thread. -/
theorem C88_violated_library (d c : Bool) (l : Layer) :
    (∃ tr s, run (startAll [[.deliver d c], [.cycle]]) tr = some s ∧ RaceOn s (.active l)) ∧
    (∃ tr s, run (startAll [[.deliver true c], [.cycle]]) tr = some s ∧ RaceOn s .drops) := by
  rw [startAll_two, startAll_two]
  exact ⟨racesOnB_sound (by cases d <;> cases c <;> cases l <;> decide +kernel), racesOnB_sound (by cases c <;> decide +kernel)⟩

/-- **C88 is violated** by a thread that sets the accepted identifiers while samples arrive (the set is searched while it is assigned), or the
attributes while the registration cycle copies them. -/
theorem C88_violated_setters (d c : Bool) :
    (∃ tr s, run (startAll [[.setId], [.deliver d c]]) tr = some s ∧ RaceOn s .idSet) ∧
    (∃ tr s, run (startAll [[.setAttr], [.cycle]]) tr = some s ∧ RaceOn s .attr) := by
  rw [startAll_two, startAll_two]
  exact ⟨racesOnB_sound (by cases d <;> cases c <;> decide +kernel), racesOnB_sound (by decide +kernel)⟩

/-- **`Destroy` gives up what `Finalize` gives up**: every variable that `Finalize` reads or writes, `Destroy` reads or writes too. -/
theorem C88_destroy_covers_finalize :
    ∀ x ∈ accs [] Op.finalize.acts, ∃ y ∈ accs [] Op.destroy.acts, y.var = x.var ∧ (x.write = true → y.write = true) := by
  decide +kernel

end Ecal.Sync.ReaderRaces
