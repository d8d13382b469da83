import Verif.Sync.RegCbRaces
import Verif.Sync.RacesLemmas
import Verif.Sync.ApiLocksProps

/-! # C114: registration callbacks and threads -/

namespace Ecal.Sync.RegCbRaces
open Ecal.Sync.Races
open Ecal.Registration.UserCb (Event)

/-- The event whose callback an operation changes. -/
def changes : Op → Option Event
  | .add e | .rem e => if e = .none then none else some e
  | _ => none

/-- One half of the table of operations that must not run at the same time. -/
def rivalOf (a b : Op) : Bool :=
  match changes a with
  | some e => changes b == some e || (match b with | .sample _ e' => e' == e | _ => false)
  | none =>
    match a, b with
    | .loopback, .loopback => true
    | .loopback, .sample own _ => own
    | _, _ => false

def rival (a b : Op) : Bool := rivalOf a b || rivalOf b a

def events : List Event := [.none, .publisher, .subscriber, .service, .client, .process]

def allOps : List Op :=
  events.map .add ++ events.map .rem ++ [.loopback, .customer] ++ events.map (.sample true) ++ events.map (.sample false)

theorem mem_allOps (o : Op) : o ∈ allOps := by
  cases o with
  | add e => cases e <;> decide
  | rem e => cases e <;> decide
  | sample o e => cases o <;> cases e <;> decide
  | _ => decide

theorem clash_table : ∀ a ∈ allOps, ∀ b ∈ allOps, clash a.acts b.acts = rival a b := by decide +kernel

theorem clash_eq (a b : Op) : clash a.acts b.acts = rival a b := clash_table a (mem_allOps a) b (mem_allOps b)

theorem races_table : ∀ a ∈ allOps, ∀ b ∈ allOps, rival a b = true → racesB a.acts b.acts = true := by decide +kernel

theorem startAll_two (a b : Op) : startAll [[a], [b]] = start [a.acts, b.acts] := by simp [startAll]

/-- **C114 (threads).** Threads none of whose operations are rivals of those of another thread never race: callbacks of different kinds,
and callbacks and registrations of different kinds, do not disturb each other; neither do changes of a callback before the first
registration of this kind can arrive.  Missing: see `C114_violated_race`. -/
theorem C114_race_free_partial (ts : List (List Op))
    (hc : ∀ (i j : Nat) (os qs : List Op), i ≠ j → ts[i]? = some os → ts[j]? = some qs → ∀ o ∈ os, ∀ q ∈ qs, rival o q = false)
    (tr : List Nat) (s : Sys Lk Var) (h : run (startAll ts) tr = some s) : ¬ Race s :=
  no_race Op.acts ts (fun i j os qs hij hi hj o ho q hq => by rw [clash_eq]; exact hc i j os qs hij hi hj o ho q hq) tr h

example : rival (.add .publisher) (.sample true .subscriber) = false ∧ rival (.add .publisher) (.rem .service) = false ∧
    rival .customer (.sample true .publisher) = false ∧ rival (.sample true .publisher) (.sample true .publisher) = false := by decide

/-- **C114 (threads, exactly).** Two operations can race iff they are rivals in the table. -/
theorem C114_race_iff (a b : Op) : (∃ tr s, run (startAll [[a], [b]]) tr = some s ∧ Race s) ↔ rival a b = true := by
  constructor
  · rintro ⟨tr, s, h, hr⟩
    false_or_by_contra
    rename_i hx
    rw [Bool.not_eq_true] at hx
    have hx' : rival b a = false := by
      unfold rival at hx ⊢
      rw [Bool.or_comm]
      exact hx
    refine C114_race_free_partial [[a], [b]] ?_ tr s h hr
    intro i j os qs hij hi hj
    match i, j with
    | 0, 0 => exact absurd rfl hij
    | 1, 1 => exact absurd rfl hij
    | 0, 1 =>
      obtain rfl := Option.some.inj hi
      obtain rfl := Option.some.inj hj
      intro o ho q hq
      rw [List.mem_singleton.1 ho, List.mem_singleton.1 hq]
      exact hx
    | 1, 0 =>
      obtain rfl := Option.some.inj hi
      obtain rfl := Option.some.inj hj
      intro o ho q hq
      rw [List.mem_singleton.1 ho, List.mem_singleton.1 hq]
      exact hx'
    | i + 2, _ => cases hi
    | _, j + 2 => cases hj
  · intro h
    rw [startAll_two]
    exact racesB_sound (races_table a (mem_allOps a) b (mem_allOps b) h)

/-- Violated: **setting or removing a callback while a registration of its kind arrives is a data race** (nothing protects the function
that is copied), and so is switching the loopback mode while the own registrations arrive. -/
theorem C114_violated_race (e : Event) (he : e ≠ .none) (own : Bool) :
    (∃ tr s, run (startAll [[.add e], [.sample own e]]) tr = some s ∧ RaceOn s (.cb e)) ∧
    (∃ tr s, run (startAll [[.rem e], [.sample own e]]) tr = some s ∧ RaceOn s (.cb e)) ∧
    (∃ tr s, run (startAll [[.loopback], [.sample true e]]) tr = some s ∧ RaceOn s .loopback) := by
  rw [startAll_two, startAll_two, startAll_two]
  refine ⟨racesOnB_sound ?_, racesOnB_sound ?_, racesOnB_sound ?_⟩ <;>
    cases e <;> first | exact absurd rfl he | (cases own <;> decide +kernel)

/-! ## Deadlocks -/

open Ecal.Sync.ApiLocks (rank Safe Below safe_sect safe_append safe_flatMap safe_touch safe_nil below_cons below_nil below_mono
  safe_if good_rank writerStop_safe writerRegister_safe readerStop_safe seePub_safe seeSub_safe okEv allowed keeps)

/-- What a registration callback may call: everything but `Finalize`. -/
def mayCall : ApiLocks.Op → Bool
  | .finalize _ _ => false
  | _ => true

/-- The event callbacks that run for this registration keep to their table (C81). -/
def Rest.keeps : Rest → Bool
  | .regPub ps => ps.all (fun p => okEv allowed .subConnected p.connected && okEv allowed .subConnected p.update)
  | .regSub ps => ps.all (fun p => okEv allowed .pubConnected p.connected && okEv allowed .pubConnected p.update)
  | _ => true

theorem mayCall_safe (o : ApiLocks.Op) (ho : mayCall o = true) : Safe rank [((.applier : ApiLocks.Lk), Locks.Mode.excl)] o.acts := by
  have hb : Below rank [((.applier : ApiLocks.Lk), Locks.Mode.excl)] 1 := below_cons below_nil (by decide)
  have ht : ∀ l, 1 ≤ rank l → Safe rank [((.applier : ApiLocks.Lk), Locks.Mode.excl)] (ApiLocks.touch l) :=
    fun l hl => safe_touch (below_mono hb hl)
  cases o with
  | subCreate => exact safe_append (ht _ (by simp [rank])) (ht _ (by simp [rank]))
  | subDestroy i =>
    exact safe_append (safe_append (ht _ (by simp [rank])) (ht _ (by simp [rank]))) (readerStop_safe i (below_mono hb (by decide)))
  | pubDestroy j => exact safe_append (ht _ (by simp [rank])) (writerStop_safe good_rank j (below_mono hb (by decide)))
  | send j b =>
    exact safe_append (safe_append (ht _ (by simp [rank])) (ht _ (by simp [rank])))
      (safe_if b (writerRegister_safe good_rank j (below_mono hb (by decide))))
  | finalize js is => cases ho
  | _ => exact ht _ (by simp [rank])

theorem rest_safe (r : Rest) (hk : r.keeps = true) : Safe rank [((.applier : ApiLocks.Lk), Locks.Mode.excl)] r.acts := by
  have hg2a : ∀ m, Below rank [((.subGate : ApiLocks.Lk), m), (.applier, .excl)] 3 :=
    fun m => below_cons (below_cons below_nil (by decide)) (by decide)
  have hp2a : ∀ m, Below rank [((.pubGate : ApiLocks.Lk), m), (.applier, .excl)] 6 :=
    fun m => below_cons (below_cons below_nil (by decide)) (by decide)
  have hsg : Below rank [((.applier : ApiLocks.Lk), Locks.Mode.excl)] (rank .subGate) := below_cons below_nil (by decide)
  have hpg : Below rank [((.applier : ApiLocks.Lk), Locks.Mode.excl)] (rank .pubGate) := below_cons below_nil (by decide)
  cases r with
  | nothing => exact safe_nil _ _
  | regPub ps =>
    refine safe_sect hsg (safe_flatMap _ _ ?_)
    intro p hp
    exact seePub_safe good_rank p (hg2a _) (List.all_eq_true.1 hk p hp)
  | unregPub rs =>
    refine safe_sect hsg (safe_flatMap _ _ ?_)
    intro p _
    exact safe_touch (below_mono (hg2a _) (by simp [rank]))
  | regSub ps =>
    refine safe_sect hpg (safe_flatMap _ _ ?_)
    intro p hp
    exact seeSub_safe good_rank p (hp2a _) (List.all_eq_true.1 hk p hp)
  | unregSub ws =>
    refine safe_sect hpg (safe_flatMap _ _ ?_)
    intro p _
    exact safe_touch (below_mono (hp2a _) (by simp [rank]))

theorem told_safe (t : Told) (ho : t.ops.all mayCall = true) (hk : t.rest.keeps = true) : Safe rank [] t.acts := by
  refine safe_sect below_nil (safe_append (safe_flatMap _ _ ?_) (rest_safe _ hk))
  intro o hm
  exact mayCall_safe o (List.all_eq_true.1 ho o hm)

theorem startBoth_ordered (ws : List ApiLocks.Work) (ts : List Told) (hw : ∀ w ∈ ws, keeps allowed w = true)
    (ho : ∀ t ∈ ts, t.ops.all mayCall = true) (hk : ∀ t ∈ ts, t.rest.keeps = true) : Locks.AllOrdered rank (startBoth ws ts) := by
  intro t ht
  simp only [startBoth, Locks.start, List.map_append, List.map_map, List.mem_append, List.mem_map] at ht
  rcases ht with ⟨w, hm, rfl⟩ | ⟨x, hm, rfl⟩
  · have := ApiLocks.work_ordered w (hw w hm) [] rfl
    rwa [List.append_nil] at this
  · have := told_safe x (ho x hm) (hk x hm) [] rfl
    rwa [List.append_nil] at this

/-- **C114 (calls from the callback).** Registration callbacks that call anything but `Finalize` never deadlock: not with each other, not
with the other callbacks as long as these keep to the table of C81, and not with threads of the user, which may also finalise; every
execution can be continued until all calls and callbacks have returned. -/
theorem C114_no_deadlock_partial (pref : Bool) (ws : List ApiLocks.Work) (ts : List Told) (hw : ∀ w ∈ ws, keeps allowed w = true)
    (ho : ∀ t ∈ ts, t.ops.all mayCall = true) (hk : ∀ t ∈ ts, t.rest.keeps = true) (is : List Nat) (s : Locks.Sys ApiLocks.Lk)
    (hr : Locks.run pref (startBoth ws ts) is = some s) :
    ¬ Locks.Deadlocked pref s ∧ ∃ is' s', Locks.run pref s is' = some s' ∧ ∀ t ∈ s', t.rest = [] := by
  have h := Locks.run_ordered rank pref _ s is (startBoth_ordered ws ts hw ho hk) hr
  exact ⟨Locks.ordered_not_deadlocked rank pref s h, Locks.ordered_completes rank pref s h⟩

example : (∀ w ∈ ([.sample [⟨0, none, some [.send 1 false]⟩], .user [.subDestroy 0, .finalize [1] [0]]] : List ApiLocks.Work),
      keeps allowed w = true) ∧
    (∀ t ∈ ([⟨[.subCreate, .subDestroy 0, .setRecv 0, .send 1 true, .pubDestroy 1], .regPub [⟨0, true, true, some [.send 1 false], none⟩]⟩] : List Told),
      t.ops.all mayCall = true ∧ t.rest.keeps = true) := by decide

/-- Violated: **a registration callback that calls `Finalize` never returns**; it waits for the lock its own thread holds. -/
theorem C114_violated_finalize (pref : Bool) :
    ∃ tr s, Locks.run pref (startBoth [] [⟨[.finalize [0] [0]], .nothing⟩]) tr = some s ∧ Locks.Deadlocked pref s := by
  have h : (Locks.run pref (startBoth [] [⟨[.finalize [0] [0]], .nothing⟩]) (List.replicate 19 0)).any (ApiLocks.deadlockedB pref) = true := by
    cases pref <;> decide +kernel
  rw [Option.any_eq_true] at h
  obtain ⟨s, h1, h2⟩ := h
  exact ⟨_, s, h1, ApiLocks.deadlockedB_sound pref s h2⟩

end Ecal.Sync.RegCbRaces
