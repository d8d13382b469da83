import Verif.Time.Gate

/-! # Properties of the time gate (C74) -/

namespace Ecal.Time.Gate

/-! ### No null pointer is called -/

/-- A library that exports everything. -/
def Full (l : Lib) : Prop := ∀ s, l.has s = true

theorem complete_full (l : Lib) : l.complete = true ↔ Full l := by
  unfold Lib.complete Full
  constructor
  · intro h s
    simp only [Bool.and_eq_true] at h
    obtain ⟨⟨⟨⟨⟨⟨⟨h1, h2⟩, h3⟩, h4⟩, h5⟩, h6⟩, h7⟩, h8⟩ := h
    cases s <;> assumption
  · intro h; simp [h]

/-- The libraries found in a run. -/
def founds (ops : List Op) : List Lib :=
  ops.filterMap (fun o => match o with | .start _ _ f _ _ => f | .stop => none)

/-- Everything loaded is complete; flags are only set for loaded libraries. -/
structure Safe (g : Gate) : Prop where
  rt : ∀ l, g.rt = some l → Full l
  rp : ∀ l, g.rp = some l → Full l
  irt : g.initRt = true → g.rt.isSome
  irp : g.initRp = true → g.rp.isSome
  lrt : g.loadedRt = true → g.rt.isSome
  lrp : g.loadedRp = true → g.rp.isSome

theorem load_safe (name : String) (found i : Option Lib) (hf : ∀ l, found = some l → Full l)
    (hi : ∀ l, i = some l → Full l) :
    (∀ l, (load name found i).2 = some l → Full l) ∧
      ((load name found i).1 = true → ((load name found i).2).isSome) := by
  unfold load
  by_cases h : name = ""
  · rw [if_pos h]; exact ⟨hi, by simp⟩
  · rw [if_neg h]
    cases i with
    | some l => exact ⟨hi, by simp⟩
    | none =>
      cases found with
      | none => exact ⟨by simp, by simp⟩
      | some l => exact ⟨hf, by simp⟩

theorem initSide_some (s : Side) (i : Option Lib) (a : Bool) (h : (initSide s i a).1 = true) : i.isSome := by
  cases i with
  | none => simp [initSide] at h
  | some l => rfl

theorem start_safe (g : Gate) (m : Mode) (name : String) (found : Option Lib) (aRt aRp : Bool) (h : Safe g)
    (hf : ∀ l, found = some l → Full l) : Safe (start g m name found aRt aRp) := by
  unfold start
  by_cases hc : g.created = true
  · rw [if_pos hc]; exact h
  · rw [if_neg hc]
    have hl : Safe (loadMode g m name found) := by
      cases m with
      | none => exact ⟨h.rt, h.rp, by simp [loadMode], by simp [loadMode], h.lrt, h.lrp⟩
      | realtime =>
        obtain ⟨h1, h2⟩ := load_safe name found g.rt hf h.rt
        exact ⟨h1, h.rp, by simp [loadMode], by simp [loadMode], h2, h.lrp⟩
      | replay =>
        obtain ⟨h1, h2⟩ := load_safe name found g.rp hf h.rp
        exact ⟨h.rt, h1, by simp [loadMode], by simp [loadMode], h.lrt, h2⟩
    exact ⟨hl.rt, hl.rp, initSide_some _ _ _, initSide_some _ _ _, hl.lrt, hl.lrp⟩

theorem active_call {α : Type} (g : Gate) (h : Safe g) (s : Side) (i : Option Lib) (ha : active g = some (s, i))
    (y : Sym) (a : α) : call i y a = some a := by
  unfold active at ha
  cases hm : g.mode with
  | none => rw [hm] at ha; simp at ha
  | realtime =>
    rw [hm] at ha
    by_cases hi : g.initRt = true
    · simp [hi] at ha
      obtain ⟨l, hl⟩ := Option.isSome_iff_exists.1 (h.irt hi)
      rw [← ha.2, hl]
      simp [call, h.rt l hl y]
    · simp [hi] at ha
  | replay =>
    rw [hm] at ha
    by_cases hi : g.initRp = true
    · simp [hi] at ha
      obtain ⟨l, hl⟩ := Option.isSome_iff_exists.1 (h.irp hi)
      rw [← ha.2, hl]
      simp [call, h.rp l hl y]
    · simp [hi] at ha

theorem stop_safe (g : Gate) (h : Safe g) : ∃ g', stop g = some g' ∧ Safe g' := by
  unfold stop
  cases hc : g.created with
  | false => exact ⟨g, by simp, h⟩
  | true =>
    simp only [Bool.not_true, Bool.false_eq_true, if_false]
    cases ha : active g with
    | none => exact ⟨_, rfl, ⟨h.rt, h.rp, by simp, by simp, h.lrt, h.lrp⟩⟩
    | some p =>
      obtain ⟨s, i⟩ := p
      simp only [active_call g h s i ha, Option.map_some]
      exact ⟨_, rfl, ⟨h.rt, h.rp, by simp, by simp, h.lrt, h.lrp⟩⟩

theorem run_safe (ops : List Op) (g : Gate) (h : Safe g) (hf : ∀ l ∈ founds ops, Full l) :
    ∃ g', run g ops = some g' ∧ Safe g' := by
  induction ops generalizing g with
  | nil => exact ⟨g, rfl, h⟩
  | cons o r ih =>
    have hf' : ∀ l ∈ founds r, Full l := by
      intro l hl
      apply hf
      unfold founds at hl ⊢
      rw [List.filterMap_cons]
      split
      · exact hl
      · exact List.mem_cons_of_mem _ hl
    cases o with
    | start m name found aRt aRp =>
      refine ih _ (start_safe g m name found aRt aRp h ?_) hf'
      intro l hl
      apply hf
      simp [founds, hl]
    | stop =>
      obtain ⟨g1, e, h1⟩ := stop_safe g h
      obtain ⟨g2, e2, h2⟩ := ih g1 h1 hf'
      exact ⟨g2, by simp [run, step, e, e2], h2⟩

theorem safe_init : Safe {} := ⟨by simp, by simp, by simp, by simp, by simp, by simp⟩

/-- C74 (partial: every library found exports all functions): no sequence of starts and stops, in whatever
modes, and no request afterwards calls a null pointer. -/
theorem C74_no_null_call_partial (ops : List Op) (hf : ∀ l ∈ founds ops, Full l) :
    ∃ g, run {} ops = some g ∧ (∀ a, (getNs g a).isSome) ∧ (∀ a, (setNs g a).isSome) ∧
      (∀ a, (isSync g a).isSome) ∧ (∀ a, (isMaster g a).isSome) ∧ (∀ d a, (sleepFor g d a).isSome) ∧
      (∀ a, (status g a).isSome) := by
  obtain ⟨g, e, h⟩ := run_safe ops {} safe_init hf
  have hask : ∀ {α : Type} (s : Sym) (a d : α), (ask g s a d).isSome := by
    intro α s a d
    unfold ask
    cases g.created with
    | false => simp
    | true =>
      simp only [Bool.not_true, Bool.false_eq_true, if_false]
      cases ha : active g with
      | none => rfl
      | some p => simp only [active_call g h p.1 p.2 ha]; rfl
  refine ⟨g, e, fun a => hask _ _ _, fun a => hask _ _ _, fun a => hask _ _ _, fun a => hask _ _ _, ?_, ?_⟩
  · intro d a
    unfold sleepFor
    cases g.created with
    | false => simp
    | true =>
      simp only [Bool.not_true, Bool.false_eq_true, if_false]
      cases ha : active g with
      | none => rfl
      | some p => simp only [active_call g h p.1 p.2 ha]; rfl
  · intro a
    unfold status
    cases g.created with
    | false => simp
    | true =>
      simp only [Bool.not_true, Bool.false_eq_true, if_false]
      cases g.mode with
      | none => rfl
      | realtime =>
        by_cases hl : g.loadedRt = true
        · obtain ⟨l, hl2⟩ := Option.isSome_iff_exists.1 (h.lrt hl)
          simp [hl, hl2, call, h.rt l hl2 .status]
        · simp [hl]
      | replay =>
        by_cases hl : g.loadedRp = true
        · obtain ⟨l, hl2⟩ := Option.isSome_iff_exists.1 (h.lrp hl)
          simp [hl, hl2, call, h.rp l hl2 .status]
        · simp [hl]

/-- A library with all functions, and one without the given function. -/
def full : Lib := ⟨fun _ => true⟩
def without (s : Sym) : Lib := ⟨fun x => x != s⟩

example : ∀ l ∈ founds [.start .realtime "t" (some full) true true, .stop, .start .replay "r" (some full) true false],
    Full l := by
  intro l hl
  simp [founds] at hl
  rw [hl]; exact fun _ => rfl

/-- C74 is violated by a library that lacks a function: it is reported as not loaded but initialised and used
all the same (the registration asks it whether the clock is synchronised). -/
theorem C74_violated_incomplete :
    (run {} [.start .realtime "t" (some (without .isSync)) true true]).bind (isSync · true) = none ∧
    (run {} [.start .realtime "t" (some (without .isSync)) true true]).bind (status · 0) = some (-1) ∧
    ((run {} [.start .realtime "t" (some (without .finalize)) true true]).bind stop).isNone := by
  refine ⟨rfl, rfl, rfl⟩

/-- C74 is violated: on the second start the library that was rejected counts as loaded. -/
theorem C74_violated_second_start :
    (run {} [.start .realtime "t" (some (without .status)) false false, .stop,
      .start .realtime "t" (some (without .status)) false false]).bind (status · 0) = none := rfl

/-! ### Every initialised library is finalised -/

def opens (s : Side) (evs : List Ev) : Nat := evs.countP (· == .opened s)
def closes (s : Side) (evs : List Ev) : Nat := evs.countP (· == .closed s)

/-- A run of the application: one kind of plug-in only. -/
def Only (m : Mode) (ops : List Op) : Prop :=
  ∀ o ∈ ops, match o with | .start m' _ _ _ _ => m' = m | .stop => True

structure Balanced (g : Gate) : Prop where
  mode : g.created = true → g.mode = .realtime
  idle : g.created = false → g.initRt = false
  rp : g.rp = none
  irp : g.initRp = false
  bal : opens .rt g.evs = closes .rt g.evs + (if g.initRt = true then 1 else 0)

theorem opens_append (s : Side) (a b : List Ev) : opens s (a ++ b) = opens s a + opens s b := by
  simp [opens, List.countP_append]
theorem closes_append (s : Side) (a b : List Ev) : closes s (a ++ b) = closes s a + closes s b := by
  simp [closes, List.countP_append]

theorem initSide_counts (i : Option Lib) (a : Bool) :
    opens .rt (initSide .rt i a).2 = (if (initSide .rt i a).1 = true then 1 else 0) ∧
      closes .rt (initSide .rt i a).2 = 0 := by
  unfold initSide
  cases i with
  | none => simp [opens, closes]
  | some l =>
    by_cases h : l.has .initialize = true
    · cases a <;> simp [h, opens, closes]
    · simp [h, opens, closes]

theorem balanced_start (g : Gate) (name : String) (found : Option Lib) (a b : Bool) (h : Balanced g) :
    Balanced (start g .realtime name found a b) := by
  unfold start
  by_cases hc : g.created = true
  · rw [if_pos hc]; exact h
  · rw [if_neg hc]
    have hi : g.initRt = false := h.idle (by simpa using hc)
    have hb := h.bal
    rw [hi] at hb
    simp only [Bool.false_eq_true, if_false, Nat.add_zero] at hb
    obtain ⟨h1, h2⟩ := initSide_counts (load name found g.rt).2 a
    have e2 : initSide .rp g.rp b = (false, []) := by rw [h.rp]; rfl
    refine ⟨fun _ => rfl, by simp, h.rp, ?_, ?_⟩
    · simp only [loadMode, e2]
    · simp only [loadMode, e2, List.append_nil, opens_append, closes_append]
      rw [h1, h2, hb, Nat.add_zero]
      by_cases hx : (initSide .rt (load name found g.rt).2 a).1 = true
      · rw [if_pos hx]; simp only [hx, if_true]
      · rw [if_neg hx]; simp only [hx, Bool.false_eq_true, if_false]

theorem balanced_stop (g g' : Gate) (h : Balanced g) (hs : stop g = some g') : Balanced g' := by
  unfold stop at hs
  cases hc : g.created with
  | false =>
    simp [hc] at hs
    exact hs ▸ h
  | true =>
    simp only [hc, Bool.not_true, Bool.false_eq_true, if_false] at hs
    have hm := h.mode hc
    have hb := h.bal
    cases hi : g.initRt with
    | false =>
      have ha : active g = none := by simp [active, hm, hi]
      rw [ha] at hs
      simp only [Option.some.injEq] at hs
      subst hs
      refine ⟨by simp, fun _ => rfl, h.rp, rfl, ?_⟩
      rw [hi] at hb
      exact hb
    | true =>
      have ha : active g = some (.rt, g.rt) := by simp [active, hm, hi]
      rw [ha] at hs
      simp only [Option.map_eq_some_iff] at hs
      obtain ⟨_, _, rfl⟩ := hs
      refine ⟨by simp, fun _ => rfl, h.rp, rfl, ?_⟩
      rw [hi] at hb
      simp only [opens_append, closes_append]
      simp [opens, closes] at hb ⊢
      omega

theorem balanced_run (ops : List Op) (ho : Only .realtime ops) (g g' : Gate) (h : Balanced g)
    (hr : run g ops = some g') : Balanced g' := by
  induction ops generalizing g with
  | nil => simp only [run, Option.some.injEq] at hr; exact hr ▸ h
  | cons o r ih =>
    have ho' : Only .realtime r := fun x hx => ho x (List.mem_cons_of_mem _ hx)
    simp only [run, Option.bind_eq_some_iff] at hr
    obtain ⟨g1, h1, h2⟩ := hr
    cases o with
    | start m name found a b =>
      have hm := ho _ List.mem_cons_self
      simp only at hm
      subst hm
      simp only [step, Option.some.injEq] at h1
      subst h1
      exact ih ho' _ (balanced_start g name found a b h) h2
    | stop => exact ih ho' _ (balanced_stop g g1 h h1) h2

/-- C74 (partial: the mode is always the real-time one, the only one the library itself uses): after a stop
the plug-in has been finalised as often as it was initialised, and in between at most one
initialisation is open. -/
theorem C74_finalised_partial (ops : List Op) (ho : Only .realtime ops) (g : Gate) (h : run {} ops = some g) :
    closes .rt g.evs ≤ opens .rt g.evs ∧ opens .rt g.evs ≤ closes .rt g.evs + 1 ∧
      (g.created = false → opens .rt g.evs = closes .rt g.evs) := by
  have hb := balanced_run ops ho {} g ⟨by simp, fun _ => rfl, rfl, rfl, rfl⟩ h
  have h1 := hb.bal
  refine ⟨by omega, ?_, ?_⟩
  · split at h1 <;> omega
  · intro hc
    rw [hb.idle hc] at h1
    simpa using h1

example : Only .realtime [.start .realtime "t" (some full) true true, .stop, .start .realtime "t" none true true] := by
  intro o ho
  simp at ho
  rcases ho with rfl | rfl | rfl <;> trivial

/-- C74 is violated by changing the mode: starting for replay initialises the real-time plug-in again, and
the stop does not finalise it. -/
theorem C74_violated_mode_change :
    ∃ g, run {} [.start .realtime "t" (some full) true true, .stop, .start .replay "r" (some full) true true, .stop] =
      some g ∧ g.created = false ∧ opens .rt g.evs = 2 ∧ closes .rt g.evs = 1 := ⟨_, rfl, rfl, rfl, rfl⟩

/-! ### The clock -/

/-- C74 (partial: a build in which the time gate is enabled): once started with a complete plug-in that
initialised, the time is the plug-in's time as long as its status is not an error, and otherwise the
system time. -/
theorem C74_clock_partial (g : Gate) (name : String) (l : Lib) (aRp : Bool) (hc : g.created = false) (hn : name ≠ "")
    (hr : g.rt = none) (hl : Full l) (st t now : Int) :
    timeNs true (start g .realtime name (some l) true aRp) st t now = some (if 0 ≤ st then t else now) := by
  have hco := (complete_full l).2 hl
  have h1 : load name (some l) g.rt = (true, some l) := by
    unfold load
    rw [if_neg hn, hr, ← hco]
  have h2 : initSide .rt (some l) true = (true, [.opened .rt]) := by
    simp [initSide, hl .initialize]
  by_cases hst : 0 ≤ st <;>
    simp [timeNs, isValid, status, start, hc, loadMode, h1, h2, call, hl .status, hst, getNs, ask, active, hl .getNs]

/-- C74: without a plug-in (not started, no name configured, library not found) the time is the system
time. -/
theorem C74_clock_without_plugin (g : Gate) (b : Build) (name : String) (a a' : Bool) (st t now : Int)
    (hc : g.created = false) (hr : g.rt = none) :
    timeNs b g st t now = some now ∧
      timeNs b (start g .realtime "" none a a') st t now = some now ∧
      timeNs b (start g .realtime name none a a') st t now = some now := by
  have h1 : load name none g.rt = (false, none) := by
    unfold load
    by_cases h : name = ""
    · rw [if_pos h, hr]
    · rw [if_neg h, hr]
  have h2 : load "" none g.rt = (false, none) := by simp [load, hr]
  cases b
  · simp [timeNs]
  · refine ⟨?_, ?_, ?_⟩
    · simp [timeNs, isValid, status, hc]
    · simp [timeNs, isValid, status, start, hc, loadMode, h2]
    · simp [timeNs, isValid, status, start, hc, loadMode, h1]

/-- C74 is violated in the shipped build: the functions of `eCAL::Time` never ask the plug-in. -/
theorem C74_violated_shipped (g : Gate) (st t now : Int) (d s : Nat) :
    timeNs shipped g st t now = some now ∧ timeSync shipped g st true = some false ∧
      timeSet shipped g st true = some false ∧ timeSleep shipped g st d s = some d := by
  simp [timeNs, timeSync, timeSet, timeSleep, shipped]

/-- … although there is a state in which the plug-in is loaded, healthy and synchronised. -/
example : (run {} [.start .realtime "t" (some full) true true]).bind (fun g => isSync g true) = some true ∧
    (run {} [.start .realtime "t" (some full) true true]).bind (fun g => timeNs true g 0 7 9) = some 7 ∧
    (run {} [.start .realtime "t" (some full) true true]).bind (fun g => timeNs shipped g 0 7 9) = some 9 :=
  ⟨rfl, rfl, rfl⟩

/-- C74 is violated when the plug-in is loaded but its initialisation failed: the time is 0. -/
theorem C74_violated_failed_initialisation (t now : Int) :
    (run {} [.start .realtime "t" (some full) false true]).bind (fun g => timeNs true g 0 t now) = some 0 := rfl

/-- C74: a wait without a valid time gate lasts as long as asked for. -/
theorem C74_sleep_partial (g : Gate) (b : Build) (st : Int) (d s : Nat) (h : isValid g st = some false) :
    timeSleep b g st d s = some d := by
  cases b <;> simp [timeSleep, h]

/-- C74 is violated: with a valid time gate every wait is done twice, first by the plug-in and then by the
system. -/
theorem C74_violated_sleep_twice (g : Gate) (st : Int) (d s : Nat) (h : isValid g st = some true)
    (hs : sleepFor g d s = some s) : timeSleep true g st d s = some (s + d) := by
  simp [timeSleep, h, hs]

example : ∃ g, run {} [.start .realtime "t" (some full) true true] = some g ∧ isValid g 0 = some true ∧
    sleepFor g 5 5 = some 5 ∧ timeSleep true g 0 5 5 = some 10 := ⟨_, rfl, rfl, rfl, rfl⟩
example : isValid {} 0 = some false := rfl

/-- C74 is violated: dumping the configuration when the time component was not initialised dereferences a
null pointer. -/
theorem C74_violated_dump (a b : Bool) (st : Int) : dump none a b st = none ∧ dump (some {}) a b st = some (false, false, -1) := by
  simp [dump, isSync, isMaster, status, ask]

end Ecal.Time.Gate
