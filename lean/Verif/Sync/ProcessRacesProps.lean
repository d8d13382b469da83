import Verif.Sync.ProcessRaces
import Verif.Sync.RacesLemmas

/-!
# C121: data races on the data of the whole process

Which operations on the information about the process, the monitoring and the logging may run in different threads at the same time without
a data race.
-/

namespace Ecal.Sync.ProcessRaces
open Ecal.Sync.Races

/-- What a further `Initialize` for a component must not meet; `new`: the component is not there yet. -/
def againRival (c : Comp) (new : Bool) : Op → Bool
  | .setUnit | .getUnit | .log | .logAt | .cycle _ | .recvLog | .config | .again _ _ => true
  | .isInit d => new && d == c
  | .setExcl | .setIncl | .setFilter _ | .getMon => new && c == .mon
  | .getLog => new && c == .log
  | .setLevel | .getLevel => c == .log
  | .getHost first => first && (c == .log || (new && c == .mon))
  | .getName first | .getPid first => first && c == .log
  | _ => false

/-- One half of the table of operations that must not run at the same time. -/
def rivalOf : Op → Op → Bool
  | .setState _, .setState _ | .setState _, .cycle _ => true
  | .setUnit, .setUnit | .setUnit, .getUnit | .setUnit, .cycle _ | .setUnit, .log | .setUnit, .logAt => true
  | .getHost true, .getHost _ | .getHost true, .cycle _ => true
  | .getName true, .getName _ | .getName true, .cycle _ => true
  | .getPid true, .getPid _ | .getPid true, .cycle _ => true
  | .getPar true, .getPar _ | .getPar true, .cycle _ => true
  | .cycle true, .getPar _ | .cycle true, .cycle _ => true
  | .setExcl, .setExcl | .setExcl, .setFilter true => true
  | .setIncl, .setIncl | .setIncl, .setFilter true => true
  | .log, .setLevel => true
  | .again c new, b => againRival c new b
  | _, _ => false

/-- The table. -/
def rival (a b : Op) : Bool := rivalOf a b || rivalOf b a

def allOps : List Op :=
  [.setState false, .setState true, .setUnit, .getUnit, .getHost false, .getHost true, .getName false, .getName true, .getPar false,
   .getPar true, .getPid false, .getPid true, .config, .isInit .log, .isInit .mon, .isInit .time, .isInit .gates, .cycle false, .cycle true,
   .again .log false, .again .log true, .again .mon false, .again .mon true, .again .time false, .again .time true, .again .gates false,
   .again .gates true, .setExcl, .setIncl, .setFilter false, .setFilter true, .monTopic false false, .monTopic false true,
   .monTopic true false, .monTopic true true, .monProc, .monServer, .monClient, .getMon, .setLevel, .getLevel, .log, .logAt, .getLog, .recvLog]

theorem mem_allOps (o : Op) : o ∈ allOps := by
  cases o with
  | setState b | getHost b | getName b | getPar b | getPid b | cycle b | setFilter b => cases b <;> decide
  | isInit c => cases c <;> decide
  | again c b => cases c <;> cases b <;> decide
  | monTopic a b => cases a <;> cases b <;> decide
  | _ => decide

theorem clash_table : ∀ a ∈ allOps, ∀ b ∈ allOps, clash a.acts b.acts = rival a b := by decide +kernel

theorem clash_eq (a b : Op) : clash a.acts b.acts = rival a b := clash_table a (mem_allOps a) b (mem_allOps b)

theorem races_table : ∀ a ∈ allOps, ∀ b ∈ allOps, rival a b = true → racesB a.acts b.acts = true := by decide +kernel

theorem startAll_two (a b : Op) : startAll [[a], [b]] = start [a.acts, b.acts] := by simp [startAll]

/-- The variables whose lock is taken for every access. -/
def guarded : List (Var × Lk) :=
  [(.exclSet, .exclL), (.inclSet, .inclL), (.procMap, .procL), (.pubMap, .pubL), (.subMap, .subL), (.srvMap, .srvL), (.cliMap, .cliL),
   (.logList, .logL), (.logBuf, .logL)]

/-- **C121**, the locks that do their work: on the filters in force, the five tables of the monitoring, the list of received log messages and
the buffer for outgoing ones there is never a race, whatever any number of threads do. -/
theorem C121_locked (ts : List (List Op)) (tr : List Nat) (s : Sys Lk Var) (h : run (startAll ts) tr = some s) (v : Var)
    (hv : v ∈ [Var.exclSet, .inclSet, .procMap, .pubMap, .subMap, .srvMap, .cliMap, .logList, .logBuf]) : ¬ RaceOn s v := by
  have table : ∀ x ∈ guarded, ∀ o ∈ allOps, ∀ a ∈ accs [] o.acts, a.var = x.1 → (x.2, Mode.excl) ∈ a.held := by decide +kernel
  have key : ∀ v ∈ [Var.exclSet, .inclSet, .procMap, .pubMap, .subMap, .srvMap, .cliMap, .logList, .logBuf],
      ∃ x ∈ guarded, x.1 = v := by decide
  obtain ⟨⟨w, l⟩, hx, rfl⟩ := key v hv
  exact no_race_on Op.acts w l (fun o a ha e => table (w, l) hx o (mem_allOps o) a ha e) ts tr h

example : ∃ tr s, run (startAll [[.monTopic true false], [.setFilter true, .setExcl], [.again .log false]]) tr = some s ∧
    (∃ t, s[0]? = some t ∧ t.touches .exclSet) :=
  ⟨[0], _, rfl, _, rfl, .inl rfl⟩

/-- **C121**, the part that holds: threads none of whose operations are rivals of those of another thread never race. -/
theorem C121_race_free_partial (ts : List (List Op))
    (hc : ∀ (i j : Nat) (os qs : List Op), i ≠ j → ts[i]? = some os → ts[j]? = some qs → ∀ o ∈ os, ∀ q ∈ qs, rival o q = false)
    (tr : List Nat) (s : Sys Lk Var) (h : run (startAll ts) tr = some s) : ¬ Race s :=
  no_race Op.acts ts (fun i j os qs hij hi hj o ho q hq => by rw [clash_eq]; exact hc i j os qs hij hi hj o ho q hq) tr h

example : ∀ (i j : Nat) (os qs : List Op), i ≠ j → [[Op.setState true, .setExcl, .log], [.getMon, .recvLog, .monProc]][i]? = some os →
    [[Op.setState true, .setExcl, .log], [.getMon, .recvLog, .monProc]][j]? = some qs → ∀ o ∈ os, ∀ q ∈ qs, rival o q = false := by
  intro i j os qs hij hi hj
  match i, j with
  | 0, 0 => exact absurd rfl hij
  | 1, 1 => exact absurd rfl hij
  | 0, 1 => obtain rfl := Option.some.inj hi; obtain rfl := Option.some.inj hj; decide
  | 1, 0 => obtain rfl := Option.some.inj hi; obtain rfl := Option.some.inj hj; decide
  | i + 2, _ => cases hi
  | _, j + 2 => cases hj

/-- Operations that may be made by any number of threads at the same time. -/
def quiet : Op → Bool
  | .getUnit | .getHost false | .getName false | .getPar false | .getPid false | .config | .isInit _ | .cycle false | .setFilter _
  | .monTopic _ _ | .monProc | .monServer | .monClient | .getMon | .setLevel | .getLevel | .logAt | .getLog | .recvLog => true
  | _ => false

/-- **C121**, the ordinary use: once the values that are looked up only once are known, any number of threads may ask for the names, switch the
filters on and off, take snapshots of the monitoring, set and ask for the log level, log with a level, fetch log messages and read the
configuration at the same time while registrations are sent and received and log messages arrive. -/
theorem C121_quiet (ts : List (List Op)) (hq : ∀ os ∈ ts, ∀ o ∈ os, quiet o = true) (tr : List Nat) (s : Sys Lk Var)
    (h : run (startAll ts) tr = some s) : ¬ Race s := by
  refine C121_race_free_partial ts ?_ tr s h
  intro i j os qs _ hi hj o ho q hq'
  have table : ∀ a ∈ allOps, ∀ b ∈ allOps, quiet a = true → quiet b = true → rival a b = false := by decide +kernel
  exact table o (mem_allOps o) q (mem_allOps q) (hq os (List.mem_of_getElem? hi) o ho) (hq qs (List.mem_of_getElem? hj) q hq')

example : ∀ os ∈ [[Op.getUnit, .getMon], [.cycle false, .cycle false], [.monTopic true false, .recvLog, .monProc], [.setFilter true, .setLevel],
    [.logAt, .getLog]], ∀ o ∈ os, quiet o = true := by
  decide

/-- **C121**, exactly: two operations can race iff they are rivals in the table. -/
theorem C121_race_iff (a b : Op) : (∃ tr s, run (startAll [[a], [b]]) tr = some s ∧ Race s) ↔ rival a b = true := by
  constructor
  · rintro ⟨tr, s, h, hr⟩
    false_or_by_contra
    rename_i hx
    rw [Bool.not_eq_true] at hx
    have hx' : rival b a = false := by
      unfold rival at hx ⊢
      rw [Bool.or_comm]
      exact hx
    refine C121_race_free_partial [[a], [b]] ?_ tr s h hr
    intro i j os qs hij hi hj
    match i, j with
    | 0, 0 => exact absurd rfl hij
    | 1, 1 => exact absurd rfl hij
    | 0, 1 =>
      obtain rfl := Option.some.inj hi
      obtain rfl := Option.some.inj hj
      intro o ho q hq
      rw [List.mem_singleton.1 ho, List.mem_singleton.1 hq]
      exact hx
    | 1, 0 =>
      obtain rfl := Option.some.inj hi
      obtain rfl := Option.some.inj hj
      intro o ho q hq
      rw [List.mem_singleton.1 ho, List.mem_singleton.1 hq]
      exact hx'
    | i + 2, _ => cases hi
    | _, j + 2 => cases hj
  · intro h
    rw [startAll_two]
    exact racesB_sound (races_table a (mem_allOps a) b (mem_allOps b) h)

example : rival (.setState true) (.cycle false) = true ∧ rival .setLevel .getLevel = false := by decide

/-- **C121 is violated** by the state of the process: `SetState` writes the severity, the level and the text without a lock, while the
registration cycle copies them and other threads may set them too. -/
theorem C121_violated_set_state :
    (∃ tr s, run (startAll [[.setState true], [.cycle false]]) tr = some s ∧ RaceOn s .info) ∧
    (∃ tr s, run (startAll [[.setState true], [.cycle false]]) tr = some s ∧ RaceOn s .severity) ∧
    (∃ tr s, run (startAll [[.setState true], [.setState true]]) tr = some s ∧ RaceOn s .info) := by
  rw [startAll_two, startAll_two]
  exact ⟨racesOnB_sound (by decide +kernel), racesOnB_sound (by decide +kernel), racesOnB_sound (by decide +kernel)⟩

/-- **C121 is violated** by the unit name: `SetUnitName` assigns a string which the registration cycle and every log message copy. -/
theorem C121_violated_unit_name :
    (∃ tr s, run (startAll [[.setUnit], [.cycle false]]) tr = some s ∧ RaceOn s .unit) ∧
    (∃ tr s, run (startAll [[.setUnit], [.logAt]]) tr = some s ∧ RaceOn s .unit) := by
  rw [startAll_two, startAll_two]
  exact ⟨racesOnB_sound (by decide +kernel), racesOnB_sound (by decide +kernel)⟩

/-- **C121 is violated** by the filters of the monitoring: they are assigned without the lock under which `SetFilterState` reads them. -/
theorem C121_violated_filter :
    (∃ tr s, run (startAll [[.setExcl], [.setFilter true]]) tr = some s ∧ RaceOn s .exclStr) ∧
    (∃ tr s, run (startAll [[.setIncl], [.setFilter true]]) tr = some s ∧ RaceOn s .inclStr) := by
  rw [startAll_two, startAll_two]
  exact ⟨racesOnB_sound (by decide +kernel), racesOnB_sound (by decide +kernel)⟩

/-- **C121 is violated** by the log level: `Log` without a level reads it before it takes the lock under which `SetLogLevel` writes it. -/
theorem C121_violated_log_level : ∃ tr s, run (startAll [[.log], [.setLevel]]) tr = some s ∧ RaceOn s .logLevel := by
  rw [startAll_two]
  exact racesOnB_sound (by decide +kernel)

/-- **C121 is violated** by values that are looked up once: the first registration cycle stores the parameters of the process in a string
without a lock while a call of the user does the same. -/
theorem C121_violated_first_call : ∃ tr s, run (startAll [[.getPar true], [.cycle true]]) tr = some s ∧ RaceOn s .par := by
  rw [startAll_two]
  exact racesOnB_sound (by decide +kernel)

/-- **C121 is violated** by a further `Initialize`: it replaces the configuration while other threads read it, sets the pointers to new
components while the registration cycle reads them, and starts the log once more without its lock. -/
theorem C121_violated_initialize :
    (∀ c, ∃ tr s, run (startAll [[.again c false], [.cycle false]]) tr = some s ∧ RaceOn s .config) ∧
    (∃ tr s, run (startAll [[.again .time true], [.cycle false]]) tr = some s ∧ RaceOn s (.inst .time)) ∧
    (∃ tr s, run (startAll [[.again .log false], [.recvLog]]) tr = some s ∧ RaceOn s .logAttr) ∧
    (∃ tr s, run (startAll [[.again .log false], [.logAt]]) tr = some s ∧ RaceOn s .logOut) := by
  refine ⟨fun c => ?_, ?_, ?_, ?_⟩
  · rw [startAll_two]
    exact racesOnB_sound (by cases c <;> decide +kernel)
  · rw [startAll_two]
    exact racesOnB_sound (by decide +kernel)
  · rw [startAll_two]
    exact racesOnB_sound (by decide +kernel)
  · rw [startAll_two]
    exact racesOnB_sound (by decide +kernel)

end Ecal.Sync.ProcessRaces
