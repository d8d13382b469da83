import Verif.Shm.Observer

/-! # C20: the observer forwards each sample at most once, in order -/

namespace Ecal.Shm.Observer

open Ecal.Shm

/-! ## Specification -/

/-- Strictly increasing. -/
def Increasing : List Nat → Prop
  | [] => True
  | [_] => True
  | a :: b :: l => a < b ∧ Increasing (b :: l)

def clocks (l : List Forwarded) : List Nat := l.map Forwarded.clock

/-- The segment holds everything its header announces. -/
def View.Complete (v : View) : Prop :=
  ∀ h, v.hdr = some h → h.len + h.dataSize ≤ v.f.cur ∧ v.f.cur ≤ v.f.data.length

/-- The sample a complete segment holds. -/
def View.sample (v : View) (h : Hdr) : Forwarded :=
  ⟨h.clock, (v.f.data.drop h.len).take h.dataSize⟩

/-! ## Proofs -/

theorem increasing_snoc {l : List Nat} {a : Nat} (h : Increasing l) (hall : ∀ x ∈ l, x < a) :
    Increasing (l ++ [a]) := by
  induction l with
  | nil => trivial
  | cons x l ih =>
    cases l with
    | nil => exact ⟨hall x (by simp), trivial⟩
    | cons y l =>
      exact ⟨h.1, ih h.2 (fun z hz => hall z (by simp [hz]))⟩

/-- Either nothing is forwarded or one sample with the clock of the header; the clock is taken over. -/
theorem process_out (st : State) (h : Hdr) (f : File) :
    (process st h f).last = h.clock ∧
      ((process st h f).out = st.out ∨ ∃ d, (process st h f).out = st.out ++ [⟨h.clock, d⟩]) := by
  unfold process
  by_cases h1 : h.zeroCopy = true
  · by_cases h2 : h.dataSize > 0
    · by_cases h3 : canRead (reader f) h.dataSize = true
      · simp only [h1, h2, h3, if_true]
        exact ⟨trivial, Or.inr ⟨_, rfl⟩⟩
      · simp only [h1, h2, h3, if_true]
        exact ⟨trivial, Or.inl rfl⟩
    · simp only [h1, h2, if_true, if_false]
      exact ⟨trivial, Or.inr ⟨_, rfl⟩⟩
  · simp only [h1]
    exact ⟨trivial, Or.inr ⟨_, rfl⟩⟩

structure Inv (st : State) : Prop where
  inc  : Increasing (clocks st.out)
  le   : ∀ c ∈ clocks st.out, c ≤ st.last ∧ 0 < c

theorem inv_cycle {st : State} (h : Inv st) (s : Bool) (a : Option View) : Inv (cycle st s a) := by
  have hkeep : ∀ p, Inv { st with pending := p } := fun p => ⟨h.inc, h.le⟩
  have hproc : ∀ p hd f, ¬ hd.clock ≤ st.last → Inv (process { st with pending := p } hd f) := by
    intro p hd f hn
    obtain ⟨h1, h2⟩ := process_out { st with pending := p } hd f
    rcases h2 with h2 | ⟨d, h2⟩
    · refine ⟨by rw [h2]; exact h.inc, ?_⟩
      rw [h1, h2]
      intro c hc
      have := h.le c hc
      omega
    · refine ⟨?_, ?_⟩
      · rw [h2, clocks, List.map_append]
        exact increasing_snoc h.inc (fun c hc => by have := h.le c hc; show c < hd.clock; omega)
      · rw [h1, h2, clocks, List.map_append]
        intro c hc
        rw [List.mem_append] at hc
        rcases hc with hc | hc
        · have := h.le c hc; omega
        · simp only [List.map_cons, List.map_nil, List.mem_singleton] at hc
          subst hc; omega
  have key : cycle st s a = { st with pending := s || st.pending } ∨
      cycle st s a = { st with pending := false } ∨
      ∃ v hd, a = some v ∧ ¬ hd.clock ≤ st.last ∧
        cycle st s a = process { st with pending := false } hd v.f := by
    unfold cycle
    by_cases hp : st.pending = true
    · simp only [hp, if_true]
      cases a with
      | none => left; cases st; simp_all
      | some v =>
        simp only
        cases v.hdr with
        | none => exact Or.inr (Or.inl rfl)
        | some hd =>
          simp only
          by_cases hn : hd.clock ≤ st.last
          · rw [if_pos hn]; exact Or.inr (Or.inl rfl)
          · rw [if_neg hn]; exact Or.inr (Or.inr ⟨v, hd, rfl, hn, rfl⟩)
    · cases s with
      | false => left; simp [hp]
      | true =>
        simp only [hp, Bool.false_eq_true, if_false, if_true]
        cases a with
        | none => left; rfl
        | some v =>
          simp only
          cases v.hdr with
          | none => exact Or.inr (Or.inl rfl)
          | some hd =>
            simp only
            by_cases hn : hd.clock ≤ st.last
            · rw [if_pos hn]; exact Or.inr (Or.inl rfl)
            · rw [if_neg hn]; exact Or.inr (Or.inr ⟨v, hd, rfl, hn, rfl⟩)
  rcases key with k | k | ⟨v, hd, _, hn, k⟩
  · rw [k]; exact hkeep _
  · rw [k]; exact hkeep _
  · rw [k]; exact hproc _ _ _ hn

/-- **C20.**  Whatever the signals, missed locks and contents: the forwarded samples of one observer
run have strictly increasing counters, so none is forwarded twice and order is kept. -/
theorem C20_increasing (cycles : List (Bool × Option View)) :
    Increasing (clocks (run {} (cycles.map (fun c => Step.cycle c.1 c.2))).out) := by
  have hgen : ∀ (cycles : List (Bool × Option View)) (st : State), Inv st →
      Inv (run st (cycles.map (fun c => Step.cycle c.1 c.2))) := by
    intro cycles
    induction cycles with
    | nil => intro st h; exact h
    | cons c l ih => intro st h; exact ih _ (inv_cycle h c.1 c.2)
  exact (hgen cycles {} ⟨trivial, fun c hc => by cases hc⟩).inc

/-- Processing a complete segment forwards exactly its sample. -/
theorem process_complete (st : State) (v : View) (h : Hdr) (hv : v.hdr = some h)
    (hc : v.Complete) : (process st h v.f).out = st.out ++ [v.sample h] := by
  obtain ⟨h1, h2⟩ := hc h hv
  unfold process View.sample
  by_cases hz : h.zeroCopy = true
  · by_cases hs : h.dataSize > 0
    · have hr : canRead (reader v.f) h.dataSize = true := by
        have : h.dataSize ≠ 0 := by omega
        have h4 : h.dataSize ≤ v.f.cur := by omega
        simp only [canRead, reader, Bool.true_and, bne_iff_ne, ne_eq, this, not_false_eq_true,
          Bool.and_eq_true, decide_eq_true_eq, beq_self_eq_true, true_and, h4]
      simp only [hz, hs, hr, if_true]
    · have : h.dataSize = 0 := by omega
      simp only [hz, if_true, this]
      simp
  · by_cases hs : h.dataSize = 0
    · simp only [hz, hs]
      simp [resize]
    · have hr : canRead (reader v.f) (h.dataSize + h.len) = true := by
        have h3 : h.dataSize + h.len ≠ 0 := by omega
        have h4 : h.dataSize + h.len ≤ v.f.cur := by omega
        simp only [canRead, reader, Bool.true_and, bne_iff_ne, ne_eq, h3, not_false_eq_true,
          Bool.and_eq_true, decide_eq_true_eq, beq_self_eq_true, true_and, h4]
      simp only [hz]
      simp [hs, read, hr]

/-- **C20 (content).**  If every segment found is complete (which C18 guarantees), every forwarded
sample is exactly the sample of one of the segments found, with that segment's counter. -/
theorem C20_content (cycles : List (Bool × Option View))
    (hc : ∀ c ∈ cycles, ∀ v, c.2 = some v → v.Complete) :
    ∀ o ∈ (run {} (cycles.map (fun c => Step.cycle c.1 c.2))).out,
      ∃ c ∈ cycles, ∃ v h, c.2 = some v ∧ v.hdr = some h ∧ o = v.sample h := by
  have hgen : ∀ (cycles : List (Bool × Option View)) (st : State),
      (∀ c ∈ cycles, ∀ v, c.2 = some v → v.Complete) →
      ∀ o ∈ (run st (cycles.map (fun c => Step.cycle c.1 c.2))).out, o ∈ st.out ∨
        ∃ c ∈ cycles, ∃ v h, c.2 = some v ∧ v.hdr = some h ∧ o = v.sample h := by
    intro cycles
    induction cycles with
    | nil => intro st _ o ho; exact Or.inl ho
    | cons c l ih =>
      intro st hcc o ho
      rcases ih (cycle st c.1 c.2) (fun d hd => hcc d (by simp [hd])) o ho with h1 | ⟨d, hd, h1⟩
      · -- one cycle
        have hone : o ∈ st.out ∨ ∃ v h, c.2 = some v ∧ v.hdr = some h ∧ o = v.sample h := by
          obtain ⟨s, a⟩ := c
          have hcomp : ∀ v, a = some v → v.Complete := hcc (s, a) (by simp)
          have hproc : ∀ p v h, a = some v → v.hdr = some h →
              o ∈ (process { st with pending := p } h v.f).out → o ∈ st.out ∨
                ∃ v h, a = some v ∧ v.hdr = some h ∧ o = v.sample h := by
            intro p v h ha hh hm
            rw [process_complete _ v h hh (hcomp v ha)] at hm
            rw [List.mem_append, List.mem_singleton] at hm
            rcases hm with hm | hm
            · exact Or.inl hm
            · exact Or.inr ⟨v, h, ha, hh, hm⟩
          simp only [cycle] at h1
          cases a with
          | none =>
            left
            by_cases hp : st.pending = true
            · simpa [hp] using h1
            · cases s <;> simpa [hp] using h1
          | some v =>
            cases hv : v.hdr with
            | none =>
              left
              by_cases hp : st.pending = true
              · simpa [hp, hv] using h1
              · cases s <;> simpa [hp, hv] using h1
            | some h =>
              by_cases hle : h.clock ≤ st.last
              · left
                by_cases hp : st.pending = true
                · simpa [hp, hv, hle] using h1
                · cases s <;> simpa [hp, hv, hle] using h1
              · by_cases hp : st.pending = true
                · exact hproc false v h rfl hv (by simpa [hp, hv, hle] using h1)
                · cases s with
                  | true => exact hproc false v h rfl hv (by simpa [hp, hv, hle] using h1)
                  | false => left; simpa [hp] using h1
        rcases hone with h2 | ⟨v, h, a, b, e⟩
        · exact Or.inl h2
        · exact Or.inr ⟨c, by simp, v, h, a, b, e⟩
      · exact Or.inr ⟨d, by simp [hd], h1⟩
  intro o ho
  rcases hgen cycles {} hc o ho with h | h
  · cases h
  · exact h

/-- **C20 (nothing new is missed).**  Once a signal has been seen, the next successful access forwards
the segment's sample if it is newer than everything forwarded so far – even if the access failed any
number of times in between. -/
theorem C20_pending_survives (st : State) (v : View) (h : Hdr) (hv : v.hdr = some h)
    (hc : v.Complete) (hnew : st.last < h.clock) (signals : List Bool) :
    (run st ([.cycle true none] ++ signals.map (fun s => Step.cycle s none) ++
      [.cycle false (some v)])).out = st.out ++ [v.sample h] := by
  have h1 : ∀ (sg : List Bool) (s : State), s.pending = true →
      run s (sg.map (fun b => Step.cycle b none)) = s := by
    intro sg
    induction sg with
    | nil => intro s _; rfl
    | cons b sg ih =>
      intro s hs
      have : cycle s b none = s := by simp [cycle, hs]
      show run (cycle s b none) _ = s
      rw [this]; exact ih s hs
  have h0 : cycle st true none = { st with pending := true } := by
    unfold cycle
    by_cases hp : st.pending = true
    · simp only [hp, if_true]; cases st; simp_all
    · simp [hp]
  rw [show run st ([.cycle true none] ++ signals.map (fun s => Step.cycle s none) ++
      [.cycle false (some v)]) =
    cycle (run (cycle st true none) (signals.map (fun s => Step.cycle s none))) false (some v) by
      simp [run, step]]
  rw [h0, h1 signals { st with pending := true } rfl]
  have hle : ¬ h.clock ≤ st.last := by omega
  simp only [cycle, if_true, hv, if_neg hle]
  exact process_complete _ v h hv hc

theorem process_acks (st : State) (h : Hdr) (f : File) :
    (process st h f).acks = st.acks + (if h.ack then 1 else 0) := by
  unfold process
  by_cases hz : h.zeroCopy = true
  · simp only [hz, if_true]
    by_cases hd : h.dataSize > 0
    · simp only [hd, if_true]
      split <;> split <;> simp_all
    · simp only [hd, if_false]
      split <;> simp_all
  · simp only [hz]
    split <;> simp_all

open Classical in
/-- **C20 (acknowledgements).**  The writer is acknowledged exactly when a newer sample that asks for it was
processed: never for old content, for a missed lock, or without request. -/
theorem C20_acknowledge (st : State) (signal : Bool) (a : Option View) :
    (cycle st signal a).acks =
      st.acks + (if (st.pending = true ∨ signal = true) ∧
        (∃ v h, a = some v ∧ v.hdr = some h ∧ st.last < h.clock ∧ h.ack = true) then 1 else 0) := by
  have hmain : ∀ s : State, s.pending = true → s.last = st.last → s.acks = st.acks →
      (match a with
        | none => s
        | some v => match v.hdr with
          | none => { s with pending := false }
          | some h => if h.clock ≤ s.last then { s with pending := false }
            else process { s with pending := false } h v.f).acks =
      st.acks + (if (∃ v h, a = some v ∧ v.hdr = some h ∧ st.last < h.clock ∧ h.ack = true) then 1 else 0) := by
    intro s _ hl hk
    cases a with
    | none => simp [hk]
    | some v =>
      cases hv : v.hdr with
      | none => simp [hk, hv]
      | some h =>
        by_cases hc : h.clock ≤ s.last
        · have : ¬ st.last < h.clock := by omega
          simp [hk, hv, hc, this]
        · have : st.last < h.clock := by omega
          simp only [hv, if_neg hc, process_acks, hk]
          by_cases hack : h.ack = true
          · simp [hack, this, hv]
          · simp [hack, hv]
  have hpend : ∀ (s : State) (sig : Bool), s.pending = true → s.last = st.last → s.acks = st.acks →
      (cycle s sig a).acks =
        st.acks + (if (∃ v h, a = some v ∧ v.hdr = some h ∧ st.last < h.clock ∧ h.ack = true) then 1 else 0) := by
    intro s sig hp hl hk
    unfold cycle
    simp only [hp, if_true]
    exact hmain s hp hl hk
  by_cases hp : st.pending = true
  · simp only [hp, true_or, true_and]
    exact hpend st signal hp rfl rfl
  · simp only [hp, false_or]
    cases signal with
    | false => simp [cycle, hp]
    | true =>
      have : cycle st true a = cycle { st with pending := true } true a := by
        unfold cycle
        simp [hp]
      rw [this]
      simpa using hpend { st with pending := true } true rfl rfl rfl

/-- Without a signal nothing is read or forwarded. -/
theorem C20_no_signal (st : State) (hp : st.pending = false) (a : Option View) :
    cycle st false a = st := by
  simp only [cycle, hp]
  cases st; simp_all

/-- Non-vacuity: three writes, one signal missed, one lock missed, one spurious signal. -/
example :
    let v (c : Nat) (b : Byte) : View :=
      ⟨some ⟨2, 1, c, false, true⟩, { max := 4, cur := 3, data := [0, 0, b, 0] }⟩
    (run {} [.cycle true (some (v 1 7)), .cycle true (some (v 1 7)), .cycle true none,
      .cycle false (some (v 3 9))]).out = [⟨1, [7]⟩, ⟨3, [9]⟩] := by decide +kernel

/-! ## Findings -/

/-- **Violated if the segment is incomplete** (possible only after C18/C19 have been violated, e.g. by a
crash): the failed copy is ignored and the bytes of the *previous* sample are forwarded under the
new counter. -/
theorem C20_violated_incomplete_forwards_stale :
    let old : View := ⟨some ⟨2, 2, 1, false, false⟩, { max := 8, cur := 4, data := [0, 0, 7, 7, 0, 0, 0, 0] }⟩
    let torn : View := ⟨some ⟨2, 2, 2, false, false⟩, { max := 8, cur := 2, data := [0, 0, 9, 9, 0, 0, 0, 0] }⟩
    (run {} [.cycle true (some old), .cycle true (some torn)]).out = [⟨1, [7, 7]⟩, ⟨2, [7, 7]⟩] := by
  decide +kernel

/-- The zero-copy path checks the content length without the header: it forwards bytes beyond the
current content. -/
theorem C20_violated_zero_copy_beyond :
    let torn : View := ⟨some ⟨2, 2, 1, true, false⟩, { max := 8, cur := 2, data := [0, 0, 9, 9, 0, 0, 0, 0] }⟩
    (run {} [.cycle true (some torn)]).out = [⟨1, [9, 9]⟩] := by decide +kernel

/-- **C20 is violated across restarts** of the observer thread: it forgets the counter, so the sample
that is still in the segment is forwarded a second time. -/
theorem C20_violated_restart_duplicates :
    let v : View := ⟨some ⟨2, 1, 5, false, false⟩, { max := 4, cur := 3, data := [0, 0, 7, 0] }⟩
    (run {} [.cycle true (some v), .restart, .cycle true (some v)]).out = [⟨5, [7]⟩, ⟨5, [7]⟩] := by
  decide +kernel

/-- **C20 (restart).**  A restarted observer waits for the next signal; what it had seen signalled before is forgotten. -/
theorem C20_restart_needs_signal (st : State) (as : List (Option View)) :
    run st (.restart :: as.map (fun a => Step.cycle false a)) = run st [.restart] := by
  have key : ∀ (as : List (Option View)) (s : State), s.pending = false →
      run s (as.map (fun a => Step.cycle false a)) = s := by
    intro as
    induction as with
    | nil => intro s _; rfl
    | cons a as ih =>
      intro s hp
      show run (step s (.cycle false a)) (as.map (fun a => Step.cycle false a)) = s
      rw [show step s (.cycle false a) = s from C20_no_signal s hp a]
      exact ih s hp
  show run (step st .restart) (as.map (fun a => Step.cycle false a)) = step st .restart
  exact key as _ rfl

/-- **C20 (acknowledgements of a run).**  There are never more acknowledgements than accesses. -/
theorem C20_acks_bounded (steps : List Step) : (run {} steps).acks ≤ steps.length := by
  have key : ∀ (l : List Step) (s : State), (run s l).acks ≤ s.acks + l.length := by
    intro l
    induction l with
    | nil => intro s; exact Nat.le_refl _
    | cons a l ih =>
      intro s
      have h1 := ih (step s a)
      have h2 : (step s a).acks ≤ s.acks + 1 := by
        cases a with
        | cycle sig v => rw [show step s (.cycle sig v) = cycle s sig v from rfl, C20_acknowledge]; split <;> omega
        | restart => exact Nat.le_succ _
      show (run (step s a) l).acks ≤ _
      simp only [List.length_cons]
      omega
  simpa using key steps {}

/-- **C20 (a restarted observer starts afresh).**  What an observer forwards and acknowledges after a restart does not
depend on what it did before. -/
theorem C20_restart_is_fresh (st : State) (steps : List Step) :
    (run st (.restart :: steps)).out = st.out ++ (run {} steps).out ∧
      (run st (.restart :: steps)).acks = st.acks + (run {} steps).acks := by
  have hp : ∀ (a b : State) (o : List Forwarded) (n : Nat) (h : Hdr) (f : File), a.buf = b.buf → a.out = o ++ b.out →
      a.acks = n + b.acks → (process a h f).buf = (process b h f).buf ∧ (process a h f).out = o ++ (process b h f).out ∧
      (process a h f).acks = n + (process b h f).acks ∧ (process a h f).last = (process b h f).last ∧
      (process a h f).pending = a.pending ∧ (process b h f).pending = b.pending := by
    intro a b o n h f h1 h2 h3
    unfold process
    simp only [h1]
    by_cases hz : h.zeroCopy
    · by_cases hd : h.dataSize > 0
      · by_cases hr : canRead (reader f) h.dataSize <;> by_cases hk : h.ack <;>
          simp [hz, hd, hr, hk, h1, h2, h3, Nat.add_assoc]
      · by_cases hk : h.ack <;> simp [hz, hd, hk, h1, h2, h3, Nat.add_assoc]
    · by_cases hk : h.ack <;> simp [hz, hk, h2, h3, Nat.add_assoc]
  have key : ∀ (l : List Step) (a b : State) (o : List Forwarded) (n : Nat), a.buf = b.buf → a.out = o ++ b.out →
      a.acks = n + b.acks → a.last = b.last → a.pending = b.pending →
      (run a l).out = o ++ (run b l).out ∧ (run a l).acks = n + (run b l).acks := by
    intro l
    induction l with
    | nil => intro a b o n _ h2 h3 _ _; exact ⟨h2, h3⟩
    | cons x l ih =>
      intro a b o n h1 h2 h3 h4 h5
      show (run (step a x) l).out = o ++ (run (step b x) l).out ∧ (run (step a x) l).acks = n + (run (step b x) l).acks
      cases x with
      | restart => exact ih _ _ o n rfl h2 h3 rfl rfl
      | cycle sig v =>
        show (run (cycle a sig v) l).out = o ++ (run (cycle b sig v) l).out ∧
          (run (cycle a sig v) l).acks = n + (run (cycle b sig v) l).acks
        have hcyc : (cycle a sig v).buf = (cycle b sig v).buf ∧ (cycle a sig v).out = o ++ (cycle b sig v).out ∧
            (cycle a sig v).acks = n + (cycle b sig v).acks ∧ (cycle a sig v).last = (cycle b sig v).last ∧
            (cycle a sig v).pending = (cycle b sig v).pending := by
          have hbody : ∀ (a b : State), a.buf = b.buf → a.out = o ++ b.out → a.acks = n + b.acks → a.last = b.last →
              ∀ h f, a.pending = b.pending →
              let a' := if h.clock ≤ a.last then a else process a h f
              let b' := if h.clock ≤ b.last then b else process b h f
              a'.buf = b'.buf ∧ a'.out = o ++ b'.out ∧ a'.acks = n + b'.acks ∧ a'.last = b'.last ∧
                a'.pending = b'.pending := by
            intro a b h1 h2 h3 h4 h f h5
            dsimp only
            rw [h4]
            by_cases hc : h.clock ≤ b.last
            · rw [if_pos hc, if_pos hc]; exact ⟨h1, h2, h3, h4, h5⟩
            · rw [if_neg hc, if_neg hc]
              obtain ⟨p1, p2, p3, p4, p5, p6⟩ := hp a b o n h f h1 h2 h3
              exact ⟨p1, p2, p3, p4, by rw [p5, p6, h5]⟩
          unfold cycle
          dsimp only
          rw [h5]
          have hacc : ∀ (p : Bool), p = true →
              let g := fun (s : State) => match v with
                | none => s
                | some v => match v.hdr with
                  | none => { s with pending := false }
                  | some h => if h.clock ≤ s.last then { s with pending := false } else process { s with pending := false } h v.f
              ∀ a b : State, a.buf = b.buf → a.out = o ++ b.out → a.acks = n + b.acks → a.last = b.last → a.pending = b.pending →
              (g a).buf = (g b).buf ∧ (g a).out = o ++ (g b).out ∧ (g a).acks = n + (g b).acks ∧ (g a).last = (g b).last ∧
                (g a).pending = (g b).pending := by
            intro p _ g a b h1 h2 h3 h4 h5
            cases v with
            | none => exact ⟨h1, h2, h3, h4, h5⟩
            | some v =>
              cases hv : v.hdr with
              | none => simp only [g, hv]; exact ⟨h1, h2, h3, h4, trivial⟩
              | some h =>
                simp only [g, hv]
                exact hbody { a with pending := false } { b with pending := false } h1 h2 h3 h4 h v.f rfl
          by_cases hb : b.pending = true
          · simp only [hb, h5, if_true]
            exact hacc true rfl a b h1 h2 h3 h4 h5
          · simp only [hb, Bool.false_eq_true, if_false]
            cases sig with
            | false => exact ⟨h1, h2, h3, h4, rfl⟩
            | true => exact hacc true rfl { a with pending := true } { b with pending := true } h1 h2 h3 h4 rfl
        exact ih _ _ o n hcyc.1 hcyc.2.1 hcyc.2.2.1 hcyc.2.2.2.1 hcyc.2.2.2.2
  exact key steps (step st .restart) {} st.out st.acks rfl (List.append_nil _).symm rfl rfl rfl

end Ecal.Shm.Observer
