import Verif.Sync.WriterRaces
import Verif.Sync.RacesLemmas

/-!
# C87: data races on a publisher

Which operations on one publisher may run in different threads at the same time without a data race.
-/

namespace Ecal.Sync.WriterRaces
open Ecal.Sync.Races

/-- The operation counts a send. -/
def counts : Op → Bool
  | .send .. | .idle => true
  | _ => false

/-- The operation makes a description of the publisher for the registration. -/
def describes : Op → Bool
  | .cycle | .applySub (some _) _ => true
  | .send _ shm _ grow => shm && grow
  | _ => false

/-- A call of the publisher by the user that needs its data writer. -/
def usesHandle : Op → Bool
  | .send .. | .idle | .setInfo | .getInfo | .setAttr | .setEvent | .count | .dump | .destroy => true
  | _ => false

/-- One half of the table of operations that must not run at the same time. -/
def rivalOf : Op → Op → Bool
  | .setInfo, .setInfo | .setInfo, .getInfo | .setInfo, .dump => true
  | .setInfo, b => describes b
  | .setAttr, .setAttr => true
  | .setAttr, b => describes b
  | .setId, .setId | .setId, .send .. => true
  | .destroy, b => usesHandle b
  | .finalize, .send .. => true
  | .cycle, .applySub (some _) _ => true
  | .send _ true _ true, .applySub _ true => true
  | .send .., .dump | .idle, .dump => true
  | .send .., b | .idle, b => counts b || describes b
  | _, _ => false

/-- The table. -/
def rival (a b : Op) : Bool := rivalOf a b || rivalOf b a

def bools : List Bool := [false, true]

def allOps : List Op :=
  (bools.flatMap fun u => bools.flatMap fun s => bools.flatMap fun t => bools.map fun g => Op.send u s t g) ++
  ([none, some .udp, some .shm, some .tcp].flatMap fun st => bools.map fun c => Op.applySub st c) ++
  [.idle, .setInfo, .getInfo, .setAttr, .setId, .setEvent, .count, .dump, .destroy, .finalize, .removeSub, .cycle]

theorem mem_allOps (o : Op) : o ∈ allOps := by
  cases o with
  | send u s t g => cases u <;> cases s <;> cases t <;> cases g <;> decide
  | applySub st c =>
    cases st with
    | none => cases c <;> decide
    | some l => cases l <;> cases c <;> decide
  | _ => decide

theorem clash_table : ∀ a ∈ allOps, ∀ b ∈ allOps, clash a.acts b.acts = rival a b := by decide +kernel

theorem clash_eq (a b : Op) : clash a.acts b.acts = rival a b := clash_table a (mem_allOps a) b (mem_allOps b)

theorem races_table : ∀ a ∈ allOps, ∀ b ∈ allOps, rival a b = true → racesB a.acts b.acts = true := by decide +kernel

theorem startAll_two (a b : Op) : startAll [[a], [b]] = start [a.acts, b.acts] := by simp [startAll]

/-- **C87**, the locks that do their work: on the map of subscribers, the map of callbacks, the frequency, the events of the
memory files and the list of registrations there is never a race, whatever any number of threads do with the publisher. -/
theorem C87_locked (ts : List (List Op)) (tr : List Nat) (s : Sys Lk Var) (h : run (startAll ts) tr = some s) (v : Var)
    (hv : v ∈ [Var.subMap, .evMap, .freq, .handles, .regList]) : ¬ RaceOn s v := by
  have table : ∀ x ∈ [(Var.subMap, Lk.subMapL), (.evMap, .evMapL), (.freq, .freqL), (.handles, .handlesL), (.regList, .regL)],
      ∀ o ∈ allOps, ∀ a ∈ accs [] o.acts, a.var = x.1 → (x.2, Mode.excl) ∈ a.held := by decide +kernel
  have key : ∀ l, (v, l) ∈ [(Var.subMap, Lk.subMapL), (.evMap, .evMapL), (.freq, .freqL), (.handles, .handlesL), (.regList, .regL)] →
      ¬ RaceOn s v := fun l hl =>
    no_race_on Op.acts v l (fun o a ha e => table (v, l) hl o (mem_allOps o) a ha e) ts tr h
  simp only [List.mem_cons, List.not_mem_nil, or_false] at hv
  rcases hv with rfl | rfl | rfl | rfl | rfl
  · exact key .subMapL (by decide)
  · exact key .evMapL (by decide)
  · exact key .freqL (by decide)
  · exact key .handlesL (by decide)
  · exact key .regL (by decide)

example : ∃ tr s, run (startAll [[.send true true true true, .setEvent], [.applySub (some .shm) true], [.cycle], [.count, .destroy]]) tr = some s ∧
    (∃ t, s[0]? = some t ∧ t.touches .subMap) :=
  ⟨[0, 0], _, rfl, _, rfl, .inl rfl⟩

/-- **C87**, the part that holds: threads none of whose operations are rivals of those of another thread never race. -/
theorem C87_race_free_partial (ts : List (List Op))
    (hc : ∀ (i j : Nat) (os qs : List Op), i ≠ j → ts[i]? = some os → ts[j]? = some qs → ∀ o ∈ os, ∀ q ∈ qs, rival o q = false)
    (tr : List Nat) (s : Sys Lk Var) (h : run (startAll ts) tr = some s) : ¬ Race s :=
  no_race Op.acts ts (fun i j os qs hij hi hj o ho q hq => by rw [clash_eq]; exact hc i j os qs hij hi hj o ho q hq) tr h

example : ∀ (i j : Nat) (os qs : List Op), i ≠ j → [[Op.send true true true false, .setEvent, .count], [.applySub none true, .removeSub]][i]? = some os →
    [[Op.send true true true false, .setEvent, .count], [.applySub none true, .removeSub]][j]? = some qs → ∀ o ∈ os, ∀ q ∈ qs, rival o q = false := by
  intro i j os qs hij hi hj
  match i, j with
  | 0, 0 => exact absurd rfl hij
  | 1, 1 => exact absurd rfl hij
  | 0, 1 => obtain rfl := Option.some.inj hi; obtain rfl := Option.some.inj hj; decide
  | 1, 0 => obtain rfl := Option.some.inj hi; obtain rfl := Option.some.inj hj; decide
  | i + 2, _ => cases hi
  | _, j + 2 => cases hj

/-- Operations that may be made by any number of threads at the same time. -/
def quiet : Op → Bool
  | .getInfo | .setEvent | .count | .removeSub | .cycle | .applySub none _ => true
  | _ => false

/-- **C87**, a publisher nobody sends with, renames or destroys: once all its layers run, any number of threads may ask for
its information, count, change the event callbacks, and the registrations come and go, without a race. -/
theorem C87_quiet (ts : List (List Op)) (hq : ∀ os ∈ ts, ∀ o ∈ os, quiet o = true) (tr : List Nat) (s : Sys Lk Var)
    (h : run (startAll ts) tr = some s) : ¬ Race s := by
  refine C87_race_free_partial ts ?_ tr s h
  intro i j os qs _ hi hj o ho q hq'
  have table : ∀ a ∈ allOps, ∀ b ∈ allOps, quiet a = true → quiet b = true → rival a b = false := by decide +kernel
  exact table o (mem_allOps o) q (mem_allOps q) (hq os (List.mem_of_getElem? hi) o ho) (hq qs (List.mem_of_getElem? hj) q hq')

example : ∀ os ∈ [[Op.getInfo, .count], [.setEvent, .setEvent], [.applySub none true, .removeSub], [.cycle, .cycle]], ∀ o ∈ os, quiet o = true := by
  decide

/-- **C87**, exactly: two operations can race iff they are rivals in the table. -/
theorem C87_race_iff (a b : Op) : (∃ tr s, run (startAll [[a], [b]]) tr = some s ∧ Race s) ↔ rival a b = true := by
  constructor
  · rintro ⟨tr, s, h, hr⟩
    false_or_by_contra
    rename_i hx
    rw [Bool.not_eq_true] at hx
    have hx' : rival b a = false := by
      unfold rival at hx ⊢
      rw [Bool.or_comm]
      exact hx
    refine C87_race_free_partial [[a], [b]] ?_ tr s h hr
    intro i j os qs hij hi hj
    match i, j with
    | 0, 0 => exact absurd rfl hij
    | 1, 1 => exact absurd rfl hij
    | 0, 1 =>
      obtain rfl := Option.some.inj hi
      obtain rfl := Option.some.inj hj
      intro o ho q hq
      rw [List.mem_singleton.1 ho, List.mem_singleton.1 hq]
      exact hx
    | 1, 0 =>
      obtain rfl := Option.some.inj hi
      obtain rfl := Option.some.inj hj
      intro o ho q hq
      rw [List.mem_singleton.1 ho, List.mem_singleton.1 hq]
      exact hx'
    | i + 2, _ => cases hi
    | _, j + 2 => cases hj
  · intro h
    rw [startAll_two]
    exact racesB_sound (races_table a (mem_allOps a) b (mem_allOps b) h)

example : rival .setAttr .cycle = true ∧ rival .setEvent .cycle = false := by decide

/-- The variables two sends of one publisher race for, by the layers they use.  A send that has to enlarge its memory file
describes the publisher, with the layers that are in use. -/
def sendRivals : Op → Op → List Var
  | .send u s t g, .send u' s' t' g' =>
    [.payload, .size, .id, .clock] ++
    (if u && u' || u && s' && g' || u' && s && g then [.active .udp] else []) ++
    (if t && t' || t && s' && g' || t' && s && g then [.active .tcp] else []) ++
    (if s && s' then [.active .shm, .file, .fileIdx] ++ (if g || g' then [.fileName] else []) else [])
  | _, _ => []

def allSends : List Op :=
  bools.flatMap fun u => bools.flatMap fun s => bools.flatMap fun t => bools.map fun g => Op.send u s t g

theorem send_table (u s t g : Bool) : ∀ b ∈ allSends, (accs [] (Op.send u s t g).acts).all (fun x => (accs [] b.acts).all (fun y =>
    !x.clash y || (sendRivals (.send u s t g) b).contains x.var && (sendRivals b (.send u s t g)).contains x.var)) = true := by
  cases u <;> cases s <;> cases t <;> cases g <;> decide +kernel

set_option maxHeartbeats 1000000 in
theorem send_races (u s t g : Bool) : ∀ b ∈ allSends,
    (sendRivals (.send u s t g) b).all (fun v => racesOnB v (Op.send u s t g).acts b.acts) = true := by
  cases u <;> cases s <;> cases t <;> cases g <;> decide +kernel

theorem send_clash {u s t g : Bool} {b : Op} (hb : b ∈ allSends) {v : Var} (h : clashOn v (Op.send u s t g).acts b.acts = true) :
    v ∈ sendRivals (.send u s t g) b ∧ v ∈ sendRivals b (.send u s t g) := by
  unfold clashOn at h
  simp only [List.any_eq_true, Bool.and_eq_true, beq_iff_eq] at h
  obtain ⟨x, hx, y, hy, hv, hc⟩ := h
  have t := send_table u s t g b hb
  simp only [List.all_eq_true] at t
  have t := t x hx y hy
  rw [hc, hv] at t
  simpa using t

/-- **C87**, two sends at the same time: the payload, its size and number, the counter, and what the layers both use keep — and
nothing else — is raced for. -/
theorem C87_two_sends (u s t g u' s' t' g' : Bool) (v : Var) :
    (∃ tr st, run (startAll [[.send u s t g], [.send u' s' t' g']]) tr = some st ∧ RaceOn st v) ↔
      v ∈ sendRivals (.send u s t g) (.send u' s' t' g') := by
  have hm : ∀ u s t g, Op.send u s t g ∈ allSends := by
    intro u s t g; cases u <;> cases s <;> cases t <;> cases g <;> decide
  constructor
  · rintro ⟨tr, st, h, hr⟩
    obtain ⟨i, j, os, qs, hij, hos, hqs, o, ho, q, hq, hc⟩ := raceOn_ops Op.acts _ tr h hr
    match i, j with
    | 0, 0 => exact absurd rfl hij
    | 1, 1 => exact absurd rfl hij
    | 0, 1 =>
      obtain rfl := Option.some.inj hos
      obtain rfl := Option.some.inj hqs
      rw [List.mem_singleton.1 ho, List.mem_singleton.1 hq] at hc
      exact (send_clash (hm _ _ _ _) hc).1
    | 1, 0 =>
      obtain rfl := Option.some.inj hos
      obtain rfl := Option.some.inj hqs
      rw [List.mem_singleton.1 ho, List.mem_singleton.1 hq] at hc
      exact (send_clash (hm _ _ _ _) hc).2
    | i + 2, _ => cases hos
    | _, j + 2 => cases hqs
  · intro h
    rw [startAll_two]
    have t := send_races u s t g _ (hm u' s' t' g')
    rw [List.all_eq_true] at t
    exact racesOnB_sound (t v h)

example : sendRivals (.send true false false false) (.send true true false false) = [.payload, .size, .id, .clock, .active .udp] := by
  decide

/-- **C87 is violated**, without any call of the user: the registration of a subscriber starts a layer (and stores a pointer to it) in a
thread that receives registrations while the registration cycle reads this pointer in another thread. -/
theorem C87_violated_library (l : Layer) (c : Bool) :
    ∃ tr s, run (startAll [[.applySub (some l) c], [.cycle]]) tr = some s ∧ RaceOn s (.ptr l) := by
  rw [startAll_two]
  exact racesOnB_sound (by cases l <;> cases c <;> decide +kernel)

/-- **C87 is violated** by a program with one thread that only sends: a registration starts a layer while a payload is sent (and the
send follows the pointer to the layer), and the registration cycle describes the publisher while a payload is sent (it
reads the counter of the sends). -/
theorem C87_violated_send (u s t g : Bool) (l : Layer) (c : Bool) :
    (∃ tr st, run (startAll [[.send u s t g], [.applySub (some l) c]]) tr = some st ∧ RaceOn st (.ptr l)) ∧
    (∃ tr st, run (startAll [[.send u s t g], [.cycle]]) tr = some st ∧ RaceOn st .clock) := by
  rw [startAll_two, startAll_two]
  exact ⟨racesOnB_sound (by cases u <;> cases s <;> cases t <;> cases g <;> cases l <;> cases c <;> decide +kernel),
    racesOnB_sound (by cases u <;> cases s <;> cases t <;> cases g <;> decide +kernel)⟩

/-- **`Destroy` gives up what `Finalize` gives up**: every variable that `Finalize` reads or writes, `Destroy` reads or writes too. -/
theorem C87_destroy_covers_finalize :
    ∀ x ∈ accs [] Op.finalize.acts, ∃ y ∈ accs [] Op.destroy.acts, y.var = x.var ∧ (x.write = true → y.write = true) := by
  decide +kernel

end Ecal.Sync.WriterRaces
