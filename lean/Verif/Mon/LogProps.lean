import Verif.Mon.Log

/-! # C53: log routing -/

namespace Ecal.Mon.Log

open Ecal

/-- The messages logged in a history. -/
def logged : List Op → List Msg
  | [] => []
  | .log m :: l => m :: logged l
  | _ :: l => logged l

/-- The messages received in a history. -/
def received : List Op → List Rcv
  | [] => []
  | .apply r :: l => r :: received l
  | _ :: l => received l

/-- The level of `m` is in the mask (some bit is in both), and the text is not empty. -/
def Passes (mask : Nat) (m : Msg) : Prop := m.text ≠ "" ∧ ∃ i, m.level.testBit i = true ∧ mask.testBit i = true

/-- A list is the sublist of the elements with property `P`, in order. -/
def IsFilter {α : Type} (P : α → Prop) : List α → List α → Prop
  | [], out => out = []
  | a :: l, out => (P a ∧ ∃ rest, out = a :: rest ∧ IsFilter P l rest) ∨ (¬ P a ∧ IsFilter P l out)

theorem and_ne_zero_iff (a b : Nat) : a &&& b ≠ 0 ↔ ∃ i, a.testBit i = true ∧ b.testBit i = true := by
  constructor
  · intro h
    obtain ⟨i, hi⟩ := Nat.exists_testBit_of_ne_zero h
    rw [Nat.testBit_and, Bool.and_eq_true] at hi
    exact ⟨i, hi⟩
  · rintro ⟨i, h1, h2⟩ h0
    have : (a &&& b).testBit i = true := by rw [Nat.testBit_and, h1, h2]; rfl
    rw [h0] at this
    simp at this

/-- `toFile` touches only the files. -/
theorem toFile_frame (st : State) (m : Msg) :
    (toFile st m).created = st.created ∧ (toFile st m).con = st.con ∧ (toFile st m).file = st.file ∧
    (toFile st m).udp = st.udp ∧ (toFile st m).logfile = st.logfile ∧ (toFile st m).sender = st.sender ∧
    (toFile st m).console = st.console ∧ (toFile st m).sent = st.sent ∧ (toFile st m).msglist = st.msglist := by
  unfold toFile
  split <;> exact ⟨rfl, rfl, rfl, rfl, rfl, rfl, rfl, rfl, rfl⟩

/-- **C53** One message, all sinks: in a started logger a message is appended to the console output exactly
if its level is in the console mask, and to the network output exactly if its level is in the udp mask;
everything else about the logger stays. -/
theorem C53_log_console_udp (st : State) (m : Msg) (hc : st.created = true) :
    (Passes st.con m → (log st m).console = st.console ++ [m]) ∧
    (¬ Passes st.con m → (log st m).console = st.console) ∧
    (Passes st.udp m → st.sender = true → (log st m).sent = st.sent ++ [m]) ∧
    (¬ Passes st.udp m ∨ st.sender = false → (log st m).sent = st.sent) := by
  by_cases ht : m.text = ""
  · have e : log st m = st := by simp [log, ht]
    have hp : ∀ k, ¬ Passes k m := fun k h => h.1 ht
    rw [e]
    exact ⟨fun h => absurd h (hp _), fun _ => rfl, fun h => absurd h (hp _), fun _ => rfl⟩
  · have hg : ¬ (st.created = false ∨ m.text = "") := by simp [hc, ht]
    have hpc : ∀ k, Passes k m ↔ m.level &&& k ≠ 0 := by
      intro k; rw [and_ne_zero_iff]; exact ⟨fun h => h.2, fun h => ⟨ht, h⟩⟩
    have hcon : ∀ s : State, ((if m.level &&& st.file ≠ 0 then toFile s m else s).console = s.console) ∧
        ((if m.level &&& st.file ≠ 0 then toFile s m else s).sent = s.sent) := by
      intro s
      obtain ⟨_, _, _, _, _, _, h1, h2, _⟩ := toFile_frame s m
      split <;> simp [h1, h2]
    simp only [hpc]
    simp only [log, if_neg hg]
    by_cases h1 : m.level &&& st.con ≠ 0 <;> by_cases h2 : m.level &&& st.udp ≠ 0 ∧ st.sender = true
    · simp only [if_pos h1, if_pos h2]
      refine ⟨fun _ => (hcon _).1, fun h => absurd h1 h, fun _ _ => by rw [(hcon _).2], ?_⟩
      rintro (h | h)
      · exact absurd h2.1 h
      · rw [h2.2] at h; cases h
    · simp only [if_pos h1, if_neg h2]
      exact ⟨fun _ => (hcon _).1, fun h => absurd h1 h, fun h h' => absurd ⟨h, h'⟩ h2, fun _ => (hcon _).2⟩
    · simp only [if_neg h1, if_pos h2]
      refine ⟨fun h => absurd h h1, fun _ => (hcon _).1, fun _ _ => by rw [(hcon _).2], ?_⟩
      rintro (h | h)
      · exact absurd h2.1 h
      · rw [h2.2] at h; cases h
    · simp only [if_neg h1, if_neg h2]
      exact ⟨fun h => absurd h h1, fun _ => (hcon _).1, fun h h' => absurd ⟨h, h'⟩ h2, fun _ => (hcon _).2⟩

/-- **C53** … and to the log file exactly if its level is in the file mask and a file is open. -/
theorem C53_log_file (st : State) (m : Msg) (hc : st.created = true) (f : Nat) (hf : st.logfile = some f)
    (old : List Msg) (ho : st.files.find f = some old) :
    (Passes st.file m → (log st m).files.find f = some (old ++ [m])) ∧
    (¬ Passes st.file m → (log st m).files = st.files) := by
  by_cases ht : m.text = ""
  · have e : log st m = st := by simp [log, ht]
    rw [e]
    exact ⟨fun h => absurd ht h.1, fun _ => rfl⟩
  · have hg : ¬ (st.created = false ∨ m.text = "") := by simp [hc, ht]
    have hpc : Passes st.file m ↔ m.level &&& st.file ≠ 0 := by
      rw [and_ne_zero_iff]; exact ⟨fun h => h.2, fun h => ⟨ht, h⟩⟩
    have key : (log st m).files = if m.level &&& st.file ≠ 0 then st.files.set f (old ++ [m]) else st.files := by
      simp only [log, if_neg hg]
      have hff : ∀ s : State, s.files = st.files → s.logfile = st.logfile →
          (toFile s m).files = st.files.set f (old ++ [m]) := by
        intro s e1 e2
        unfold toFile
        rw [e2, hf]
        simp only [e1, ho, Option.getD_some]
      by_cases h1 : m.level &&& st.con ≠ 0 <;> by_cases h2 : m.level &&& st.udp ≠ 0 ∧ st.sender = true <;>
        by_cases h3 : m.level &&& st.file ≠ 0 <;>
        simp only [if_pos, if_neg, h1, h2, h3, not_false_eq_true, not_true_eq_false, ne_eq] <;>
        first | rfl | exact hff _ rfl rfl
    rw [hpc, key]
    constructor
    · intro h; rw [if_pos h, AMap.find_set_self]
    · intro h; rw [if_neg h]

/-- What `log` leaves alone. -/
theorem log_frame (st : State) (m : Msg) :
    (log st m).created = st.created ∧ (log st m).con = st.con ∧ (log st m).file = st.file ∧
    (log st m).udp = st.udp ∧ (log st m).logfile = st.logfile ∧ (log st m).sender = st.sender ∧
    (log st m).msglist = st.msglist := by
  unfold log
  by_cases hg : st.created = false ∨ m.text = ""
  · rw [if_pos hg]; exact ⟨rfl, rfl, rfl, rfl, rfl, rfl, rfl⟩
  · rw [if_neg hg]
    have hf : ∀ s : State, s.created = st.created ∧ s.con = st.con ∧ s.file = st.file ∧ s.udp = st.udp ∧
        s.logfile = st.logfile ∧ s.sender = st.sender ∧ s.msglist = st.msglist →
        ∀ m, (toFile s m).created = st.created ∧ (toFile s m).con = st.con ∧ (toFile s m).file = st.file ∧
          (toFile s m).udp = st.udp ∧ (toFile s m).logfile = st.logfile ∧ (toFile s m).sender = st.sender ∧
          (toFile s m).msglist = st.msglist := by
      intro s hs m
      obtain ⟨a, b, c, d, e, f, _, _, g⟩ := toFile_frame s m
      rw [a, b, c, d, e, f, g]; exact hs
    have h1 : ∀ s : State, s = (if m.level &&& st.con ≠ 0 then { st with console := st.console ++ [m] } else st) →
        s.created = st.created ∧ s.con = st.con ∧ s.file = st.file ∧ s.udp = st.udp ∧
        s.logfile = st.logfile ∧ s.sender = st.sender ∧ s.msglist = st.msglist := by
      intro s hs; subst hs; split <;> exact ⟨rfl, rfl, rfl, rfl, rfl, rfl, rfl⟩
    have h2 := h1 _ rfl
    simp only
    by_cases h3 : m.level &&& st.file ≠ 0 <;> by_cases h4 : m.level &&& st.udp ≠ 0 ∧ st.sender = true
    · rw [if_pos h3, if_pos h4]; exact hf _ h2 m
    · rw [if_pos h3, if_neg h4]; exact hf _ h2 m
    · rw [if_neg h3, if_pos h4]; exact h2
    · rw [if_neg h3, if_neg h4]; exact h2

/-- What the other operations leave alone. -/
theorem other_frame (env : Env) (st : State) (a : Op) (ha : ∀ m, a ≠ .log m) :
    (step env st a).1.created = st.created ∧ (step env st a).1.con = st.con ∧ (step env st a).1.file = st.file ∧
    (step env st a).1.udp = st.udp ∧ (step env st a).1.logfile = st.logfile ∧
    (step env st a).1.sender = st.sender ∧ (step env st a).1.console = st.console ∧
    (step env st a).1.files = st.files ∧ (step env st a).1.sent = st.sent := by
  cases a with
  | log m => exact absurd rfl (ha m)
  | apply r => simp only [step, applySample]; split <;> exact ⟨rfl, rfl, rfl, rfl, rfl, rfl, rfl, rfl, rfl⟩
  | fetch => exact ⟨rfl, rfl, rfl, rfl, rfl, rfl, rfl, rfl, rfl⟩

theorem routing_run (env : Env) (ops : List Op) : ∀ (st : State) (f : Nat) (old : List Msg),
    st.created = true → st.sender = true → st.logfile = some f → st.files.find f = some old →
    ∃ c u fl, IsFilter (Passes st.con) (logged ops) c ∧ IsFilter (Passes st.udp) (logged ops) u ∧
      IsFilter (Passes st.file) (logged ops) fl ∧
      (run env st ops).1.console = st.console ++ c ∧ (run env st ops).1.sent = st.sent ++ u ∧
      (run env st ops).1.files.find f = some (old ++ fl) := by
  induction ops with
  | nil =>
    intro st f old _ _ _ ho
    exact ⟨[], [], [], rfl, rfl, rfl, by simp [run], by simp [run], by simp [run, ho]⟩
  | cons a l ih =>
    intro st f old hc hs hf ho
    have hr : (run env st (a :: l)).1 = (run env (step env st a).1 l).1 := rfl
    rw [hr]
    by_cases ha : ∀ m, a ≠ .log m
    · obtain ⟨e1, e2, e3, e4, e5, e6, e7, e8, e9⟩ := other_frame env st a ha
      have hl : logged (a :: l) = logged l := by
        cases a with
        | log m => exact absurd rfl (ha m)
        | apply r => rfl
        | fetch => rfl
      obtain ⟨c, u, fl, h1, h2, h3, h4, h5, h6⟩ :=
        ih (step env st a).1 f old (by rw [e1]; exact hc) (by rw [e6]; exact hs) (by rw [e5]; exact hf)
          (by rw [e8]; exact ho)
      rw [e2] at h1; rw [e4] at h2; rw [e3] at h3; rw [e7] at h4; rw [e9] at h5
      rw [hl]
      exact ⟨c, u, fl, h1, h2, h3, h4, h5, h6⟩
    · have ha : ∃ m, a = .log m := Classical.byContradiction fun hn =>
        ha (fun m hm => hn ⟨m, hm⟩)
      obtain ⟨m, rfl⟩ := ha
      obtain ⟨e1, e2, e3, e4, e5, e6, _⟩ := log_frame st m
      obtain ⟨p1, p2, p3, p4⟩ := C53_log_console_udp st m hc
      obtain ⟨q1, q2⟩ := C53_log_file st m hc f hf old ho
      have hstep : (step env st (.log m)).1 = log st m := rfl
      rw [hstep]
      have hfile : ∃ old', (log st m).files.find f = some old' ∧
          ((Passes st.file m ∧ old' = old ++ [m]) ∨ (¬ Passes st.file m ∧ old' = old)) := by
        by_cases hp : Passes st.file m
        · exact ⟨_, q1 hp, Or.inl ⟨hp, rfl⟩⟩
        · exact ⟨old, by rw [q2 hp]; exact ho, Or.inr ⟨hp, rfl⟩⟩
      obtain ⟨old', ho', hof⟩ := hfile
      obtain ⟨c, u, fl, h1, h2, h3, h4, h5, h6⟩ :=
        ih (log st m) f old' (by rw [e1]; exact hc) (by rw [e6]; exact hs) (by rw [e5]; exact hf) ho'
      rw [e2] at h1; rw [e4] at h2; rw [e3] at h3
      have hl : logged (.log m :: l) = m :: logged l := rfl
      rw [hl, h4, h5, h6]
      have hcon : ∃ c', IsFilter (Passes st.con) (m :: logged l) c' ∧ (log st m).console ++ c = st.console ++ c' := by
        by_cases hp : Passes st.con m
        · exact ⟨m :: c, Or.inl ⟨hp, c, rfl, h1⟩, by rw [p1 hp]; simp⟩
        · exact ⟨c, Or.inr ⟨hp, h1⟩, by rw [p2 hp]⟩
      have hudp : ∃ u', IsFilter (Passes st.udp) (m :: logged l) u' ∧ (log st m).sent ++ u = st.sent ++ u' := by
        by_cases hp : Passes st.udp m
        · exact ⟨m :: u, Or.inl ⟨hp, u, rfl, h2⟩, by rw [p3 hp hs]; simp⟩
        · exact ⟨u, Or.inr ⟨hp, h2⟩, by rw [p4 (Or.inl hp)]⟩
      obtain ⟨c', hc1, hc2⟩ := hcon
      obtain ⟨u', hu1, hu2⟩ := hudp
      rcases hof with ⟨hp, rfl⟩ | ⟨hp, rfl⟩
      · exact ⟨c', u', m :: fl, hc1, hu1, Or.inl ⟨hp, fl, rfl, h3⟩, hc2, hu2, by simp⟩
      · exact ⟨c', u', fl, hc1, hu1, Or.inr ⟨hp, h3⟩, hc2, hu2, rfl⟩

/-- **C53** Routing over a whole history: after one successful start (log directory present, all masks
non-empty), the console, the network and the log file get exactly the non-empty messages whose level is in
the respective mask, each once and in order, however logging is interleaved with collecting and fetching. -/
theorem C53_routing_partial (env : Env) (now : Nat) (ops : List Op) (hd : env.dirOk = true)
    (ho : env.openOk = true) (hfm : env.file ≠ 0) (hum : env.udp ≠ 0) :
    ∃ c u fl, IsFilter (Passes env.con) (logged ops) c ∧ IsFilter (Passes env.udp) (logged ops) u ∧
      IsFilter (Passes env.file) (logged ops) fl ∧
      (run env (start env now {}) ops).1.console = c ∧ (run env (start env now {}) ops).1.sent = u ∧
      (run env (start env now {}) ops).1.files.find now = some fl := by
  have hs : start env now {} =
      { created := true, con := env.con, file := env.file, udp := env.udp, logfile := some now,
        sender := true, files := AMap.set [] now [] } := by
    simp [start, hd, ho, hfm, hum]
  obtain ⟨c, u, fl, h1, h2, h3, h4, h5, h6⟩ := routing_run env ops (start env now {}) now []
    (by rw [hs]) (by rw [hs]) (by rw [hs]) (by rw [hs]; exact AMap.find_set_self _ _ _)
  rw [hs] at h1 h2 h3
  refine ⟨c, u, fl, h1, h2, h3, ?_, ?_, ?_⟩
  · rw [h4, hs]; rfl
  · rw [h5, hs]; rfl
  · rw [h6]; rfl

/-- A filter is unique, so the theorem determines the outputs. -/
theorem isFilter_unique {α : Type} {P : α → Prop} : ∀ (l a b : List α), IsFilter P l a → IsFilter P l b → a = b := by
  intro l
  induction l with
  | nil => intro a b ha hb; rw [show a = [] from ha, show b = [] from hb]
  | cons x l ih =>
    intro a b ha hb
    rcases ha with ⟨hp, ra, rfl, ha⟩ | ⟨hp, ha⟩ <;> rcases hb with ⟨hq, rb, rfl, hb⟩ | ⟨hq, hb⟩
    · rw [ih ra rb ha hb]
    · exact absurd hp hq
    · exact absurd hq hp
    · exact ih a b ha hb

/-- A concrete history: an info and a debug message, console mask info only. -/
example :
    let env : Env := { con := 1, file := 0x11, udp := 1, dirOk := true, openOk := true, network := false, host := "h" }
    let st := (run env (start env 5 {}) [.log ⟨1, "a"⟩, .log ⟨16, "b"⟩, .log ⟨1, ""⟩]).1
    st.console = [⟨1, "a"⟩] ∧ st.sent = [⟨1, "a"⟩] ∧ st.files.find 5 = some [⟨1, "a"⟩, ⟨16, "b"⟩] := by
  decide +kernel

/-! ### Collecting -/

/-- **C53** Each collected message is handed out exactly once and in order: over every interleaving of
logging, receiving and fetching, the concatenation of all fetched lists and what is still stored is the list
of accepted messages. -/
theorem C53_collected_exactly_once (env : Env) (ops : List Op) : ∀ st : State,
    ∃ acc, IsFilter (fun r : Rcv => env.host = r.host ∨ env.network = true) (received ops) acc ∧
      (run env st ops).2 ++ (run env st ops).1.msglist = st.msglist ++ acc := by
  induction ops with
  | nil => intro st; exact ⟨[], rfl, by simp [run]⟩
  | cons a l ih =>
    intro st
    have h3 : (run env st (a :: l)).2 = (step env st a).2 ++ (run env (step env st a).1 l).2 := rfl
    have h4 : (run env st (a :: l)).1 = (run env (step env st a).1 l).1 := rfl
    rw [h3, h4]
    obtain ⟨acc, h1, h2⟩ := ih (step env st a).1
    rw [List.append_assoc, h2]
    cases a with
    | log m =>
      refine ⟨acc, h1, ?_⟩
      simp only [step, (log_frame st m).2.2.2.2.2.2, List.nil_append]
    | apply r =>
      simp only [step, applySample, List.nil_append]
      by_cases ha : env.host = r.host ∨ env.network = true
      · exact ⟨r :: acc, Or.inl ⟨ha, acc, rfl, h1⟩, by rw [if_pos ha]; simp⟩
      · exact ⟨acc, Or.inr ⟨ha, h1⟩, by rw [if_neg ha]⟩
    | fetch =>
      refine ⟨acc, h1, ?_⟩
      simp [step, fetch]

example :
    let env : Env := { con := 1, file := 0, udp := 1, dirOk := true, openOk := true, network := false, host := "h" }
    (run env {} [.apply ⟨"h", ⟨1, "a"⟩⟩, .fetch, .apply ⟨"x", ⟨1, "b"⟩⟩, .apply ⟨"h", ⟨2, "c"⟩⟩, .fetch]).2 =
      [⟨"h", ⟨1, "a"⟩⟩, ⟨"h", ⟨2, "c"⟩⟩] := by decide +kernel

/-! ### Violations -/

theorem log_not_created (st : State) (m : Msg) (h : st.created = false) : log st m = st := by
  simp [log, h]

/-- **C53, violation**: if the log directory is missing (and the file mask is not empty) nothing is logged
anywhere, not even to the console or the network. -/
theorem C53_violated_missing_directory (env : Env) (now : Nat) (m : Msg) (hd : env.dirOk = false)
    (hf : env.file ≠ 0) :
    (log (start env now {}) m).console = [] ∧ (log (start env now {}) m).sent = [] := by
  have hs : start env now {} = { con := env.con, file := env.file, udp := env.udp } := by
    simp [start, hd, hf]
  rw [hs, log_not_created _ _ rfl]
  exact ⟨rfl, rfl⟩

example : Passes 1 ⟨1, "a"⟩ := ⟨by decide, 0, by decide, by decide⟩

/-- **C53, violation**: initialising a second time within the same second erases the messages logged so
far; in a later second they are split over two files. -/
theorem C53_violated_second_start :
    let env : Env := { con := 1, file := 1, udp := 1, dirOk := true, openOk := true, network := false, host := "h" }
    (start env 5 (log (start env 5 {}) ⟨1, "a"⟩)).files.find 5 = some [] ∧
    (start env 6 (log (start env 5 {}) ⟨1, "a"⟩)).files.find 5 = some [⟨1, "a"⟩] := by
  decide +kernel

end Ecal.Mon.Log
