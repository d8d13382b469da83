import Verif.Reader.Lemmas

/-!
# Properties C06-C11 of reception
-/

namespace Ecal.Reader

/-- A sample of publisher `t` with counter `k`, arriving over layer `l`. -/
def mk (t : String) (k : Int) (hash : Nat) (l : Layer := .udp) (id : Int := 0) : Sample :=
  { tid := t, payload := [1, 2], id, clock := k, time := 10 * k, hash, layer := l }

/-- All layers on, out-of-order dropping as given. -/
def cfg (drop : Bool) : Config := { udp := true, shm := true, tcp := true, drop }

/-! ## C07 -/

/-- **C07.** With out-of-order dropping on, whatever is received over whatever layers in
whatever interleaving with calls of the application, the send counters delivered from one
publisher strictly increase. -/
theorem C07_counters_increase (c : Config) (hd : c.drop = true) (t : String) (h : List Op) :
    ((fromPub t (delivered (run c init h).2)).map Sample.clock).Pairwise (· < ·) :=
  (run_increasing c hd t h init).1

example : (fromPub "a" (delivered (run (cfg true) init
      [.sample (mk "a" 1 1), .sample (mk "a" 1 1 .shm), .sample (mk "b" 5 2), .sample (mk "a" 4 3),
       .sample (mk "a" 2 4), .sample (mk "a" 5 5)]).2)).map Sample.clock = [1, 4, 5] := by
  decide +kernel

/-- Without out-of-order dropping the order is not guaranteed (as documented: the option
exists for this reason). -/
theorem C07_option_needed :
    (fromPub "a" (delivered (run (cfg false) init
      [.sample (mk "a" 2 2), .sample (mk "a" 1 1)]).2)).map Sample.clock = [2, 1] := by
  decide +kernel

/-! ## C06 -/

/-- **C06 (out-of-order dropping on, the default).** Each (publisher, send counter) pair is
delivered at most once, for every history, also if hashes collide.  Missing for the full
claim: the case of out-of-order dropping switched off, see below. -/
theorem C06_at_most_once_ordered_partial (c : Config) (hd : c.drop = true) (h : List Op) :
    (delivered (run c init h).2).Pairwise (fun a b => ¬ (a.tid = b.tid ∧ a.clock = b.clock)) := by
  rw [List.pairwise_iff_forall_sublist]
  rintro a b hab ⟨ht, hk⟩
  have h1 := (run_increasing c hd a.tid h init).1
  have h2 : [a, b].Sublist (fromPub a.tid (delivered (run c init h).2)) := by
    have := hab.filter (fun s => s.tid == a.tid)
    simpa [fromPub, ht] using this
  have h3 := (List.pairwise_iff_forall_sublist.1 h1) (h2.map Sample.clock)
  omega

/-- **C06 (any configuration).** Each pair is delivered at most once if all arrivals of one
sample lie within 64 arrivals and have the same hash.  Missing: copies arriving later than
that with out-of-order dropping off, see `C06_violated_late_copy`. -/
theorem C06_at_most_once_window_partial (c : Config) (l : List Sample) (hw : Window l)
    (hh : ∀ a ∈ l, ∀ b ∈ l, a.tid = b.tid → a.clock = b.clock → a.hash = b.hash) :
    (delivered (run c init (l.map .sample)).2).Pairwise
      (fun a b => ¬ (a.tid = b.tid ∧ a.clock = b.clock)) :=
  (run_window c l init [] [] ⟨rfl, by simp⟩ (by simpa using hw) (by simpa using hh)).2

/-- 66 samples, then a copy of the first one (over another layer). -/
def lateCopy : List Op :=
  (List.range 66).map (fun i => .sample (mk "a" (i + 1) (i + 1))) ++ [.sample (mk "a" 1 1 .shm)]

/-- **C06 violated.** With out-of-order dropping off a copy of a sample that arrives more
than 64 samples later is delivered a second time. -/
theorem C06_violated_late_copy :
    ¬ (delivered (run (cfg false) init lateCopy).2).Pairwise
      (fun a b => ¬ (a.tid = b.tid ∧ a.clock = b.clock)) := by
  decide +kernel

example : Window [mk "a" 1 1, mk "a" 2 2, mk "a" 1 1 .shm] := by
  intro i j hij a b _ hb _ _
  have : j < 3 := by
    rcases Nat.lt_or_ge j 3 with h | h
    · exact h
    · rw [List.getElem?_eq_none (by simpa using h)] at hb; cases hb
  omega

/-! ## C08 -/

/-- **C08 violated.** One sample is lost (counter 2) but the drop counter says two. -/
theorem C08_violated_off_by_one :
    (run (cfg true) init [.sample (mk "a" 1 1), .sample (mk "a" 3 3)]).1.drops = 2 ∧
    lostCount (delivered (run (cfg true) init [.sample (mk "a" 1 1), .sample (mk "a" 3 3)]).2) = 1 := by
  decide +kernel

/-- **C08 (what holds).** With out-of-order dropping on the counter is the number of skipped
samples plus the number of gaps, for every history.  Missing for the full claim: the gaps
must not be counted. -/
theorem C08_lost_plus_gaps_partial (c : Config) (hd : c.drop = true) (h : List Op) :
    (run c init h).1.drops =
      lostCount (delivered (run c init h).2) + gapCount (delivered (run c init h).2) := by
  have := run_drops c hd h init
  simp only [init, Int.zero_add] at this
  exact this

/-- Hence it is zero exactly if nothing was skipped. -/
theorem C08_zero_iff_nothing_skipped_partial (c : Config) (hd : c.drop = true) (h : List Op) :
    (run c init h).1.drops = 0 ↔ lostCount (delivered (run c init h).2) = 0 := by
  rw [C08_lost_plus_gaps_partial c hd h]
  have key : ∀ (l : List Sample) (f : String → Option Int),
      0 ≤ (lostAndGaps f l).1 ∧ 0 ≤ (lostAndGaps f l).2 ∧
      (lostAndGaps f l).2 ≤ (lostAndGaps f l).1 := by
    intro l
    induction l with
    | nil => intro f; simp [lostAndGaps]
    | cons s l ih =>
      intro f
      have := ih (fun t => if t = s.tid then some s.clock else f t)
      simp only [lostAndGaps]
      cases f s.tid with
      | none => exact this
      | some k => simp only; split <;> omega
  have := key (delivered (run c init h).2) (fun _ => none)
  unfold lostCount gapCount
  omega

/-! ## C09 -/

/-- **C09 (filter).** In a history where the accepted ids are set to `ids` and not changed
afterwards, every sample delivered after that has an accepted id (`[]` accepts all). -/
theorem C09_only_accepted_ids (c : Config) (st : State) (ids : List Int) (h : List Op)
    (hs : ∀ op ∈ h, ∀ i, op ≠ .setId i) :
    ∀ s ∈ delivered (run c (step c st (.setId ids)).1 h).2, ids = [] ∨ s.id ∈ ids := by
  have key : ∀ (h : List Op) (st : State), st.idSet = ids → (∀ op ∈ h, ∀ i, op ≠ .setId i) →
      ∀ s ∈ delivered (run c st h).2, ids = [] ∨ s.id ∈ ids := by
    intro h
    induction h with
    | nil => intro st _ _ s hs; simp [run] at hs
    | cons op h ih =>
      intro st hst hs s hm
      simp only [run, delivered_append, List.mem_append] at hm
      have hst' : (step c st op).1.idSet = ids ∧
          ∀ s ∈ delivered (step c st op).2, ids = [] ∨ s.id ∈ ids := by
        cases op with
        | sample s =>
          simp only [step]
          have hcase := applyCase c st s
          generalize applySample c st s = r at hcase
          cases hcase with
          | ignored h => exact ⟨hst, by simp⟩
          | dup hc hl h act => exact ⟨hst, by simp⟩
          | filtered hc hl h hid act => exact ⟨hst, by simp⟩
          | rejected hc hl h hid last hf hle act => exact ⟨hst, by simp⟩
          | accepted hc hl h hid g evs hcase act b hb =>
            refine ⟨hst, ?_⟩
            intro x hx
            have hev : delivered evs = [] := by
              rcases hcase with ⟨_, _, he⟩ | ⟨_, _, _, ⟨_, _, he⟩ | ⟨_, _, he⟩⟩ <;> rw [he] <;> rfl
            rw [delivered_append, delivered_end, hev] at hx
            simp only [List.nil_append, List.mem_singleton] at hx
            rw [hx, ← hst]; exact hid
          | late hc hl h hid hd last hf hlt act b hb =>
            refine ⟨hst, ?_⟩
            intro x hx
            rw [delivered_end, List.mem_singleton] at hx
            rw [hx, ← hst]; exact hid
        | read =>
          simp only [step, read]
          split
          · exact ⟨hst, by simp [delivered, Ev.sample?]⟩
          · split <;> exact ⟨hst, by simp [delivered, Ev.sample?]⟩
        | addCb => simp only [step]; split <;> exact ⟨hst, by simp⟩
        | remCb => simp only [step]; split <;> exact ⟨hst, by simp⟩
        | setId i => exact absurd rfl (hs _ (by simp) i)
        | stop => simp only [step]; split <;> exact ⟨hst, by simp⟩
      rcases hm with hm | hm
      · exact hst'.2 s hm
      · exact ih _ hst'.1 (fun o ho => hs o (by simp [ho])) s hm
  exact key h _ rfl hs

/-- **C09 (deliveries equal the ideal subscriber).** If different samples have different
hashes and out-of-order dropping is on, a subscriber accepting `ids` delivers exactly what
the ideal subscriber delivers.  Missing for the full "no trace" claim: see the two
witnesses below (drop statistics; hash collisions). -/
theorem C09_equals_ideal_partial (c : Config) (hd : c.drop = true) (ids : List Int) (h : List Op)
    (hs : Steady h) (hh : HashesDistinct (arrivals h)) :
    delivered (run c init (.setId ids :: h)).2 =
      ideal c ids (fun _ => none) (arrivals h) := by
  have hq : QInv ids (step c init (.setId ids)).1 [] := ⟨rfl, rfl, by simp [step, init]⟩
  have := run_ideal c hd ids h hs _ [] (by simpa using hh) hq
  simpa [run, step, init, AMap.find] using this

/-- **C09 (no trace in deliveries).** Removing the filtered samples from the arrivals does
not change what is delivered. -/
theorem C09_no_trace_partial (c : Config) (hd : c.drop = true) (ids : List Int) (l : List Sample)
    (hh : HashesDistinct l) :
    delivered (run c init (.setId ids :: l.map .sample)).2 =
      delivered (run c init (.setId ids ::
        (l.filter (fun s => ids.isEmpty || ids.contains s.id)).map .sample)).2 := by
  have st : ∀ l : List Sample, Steady (l.map .sample) := by
    intro l op hop
    obtain ⟨s, _, rfl⟩ := List.mem_map.1 hop
    constructor
    · intro _ h; cases h
    · intro h; cases h
  have ar : ∀ l : List Sample, arrivals (l.map .sample) = l := by
    intro l; induction l with
    | nil => rfl
    | cons a l ih => exact congrArg (a :: ·) ih
  rw [C09_equals_ideal_partial c hd ids _ (st _) (by rw [ar]; exact hh),
    C09_equals_ideal_partial c hd ids _ (st _) (by
      rw [ar]
      intro a ha b hb
      exact hh a (List.mem_filter.1 ha).1 b (List.mem_filter.1 hb).1), ar, ar, ideal_filter_ids]

example : delivered (run (cfg true) init
    [.setId [7], .sample (mk "a" 1 1 .udp 7), .sample (mk "a" 2 2 .udp 8), .sample (mk "a" 3 3 .udp 7)]).2
    = [mk "a" 1 1 .udp 7, mk "a" 3 3 .udp 7] := by decide +kernel

/-- **C09 violated (statistics).** Nothing was lost, but the sample filtered out by its id
is reported as dropped: the drop counter is two and a `dropped` event is fired. -/
theorem C09_violated_filtered_reported_as_dropped :
    let r := run (cfg true) init
      [.setId [7], .sample (mk "a" 1 1 .udp 7), .sample (mk "a" 2 2 .udp 8),
       .sample (mk "a" 3 3 .udp 7)]
    r.1.drops = 2 ∧ Ev.dropEvent 3 ∈ r.2 := by
  decide +kernel

/-- **C09 violated (hash collision).** If a filtered sample of one publisher happens to have
the hash of a wanted sample of another publisher, the wanted one is lost. -/
theorem C09_violated_hash_collision :
    delivered (run (cfg true) init
      [.setId [7], .sample (mk "a" 1 5 .udp 8), .sample (mk "b" 1 5 .udp 7)]).2 = [] := by
  decide +kernel

/-! ## C10 -/

theorem mailbox_append (c : Config) (op : Op) (st : State) (hc : st.created = true)
    (hop : op ≠ .stop) (rest : List Ev) :
    MailboxOk (step c st op).1.buf rest → MailboxOk st.buf ((step c st op).2 ++ rest) := by
  cases op with
  | sample s =>
    simp only [step]
    have hcase := applyCase c st s
    generalize applySample c st s = r at hcase
    cases hcase with
    | ignored h => exact id
    | dup hc hl h act => exact id
    | filtered hc hl h hid act => exact id
    | rejected hc hl h hid last hf hle act => exact id
    | accepted hc hl h hid g evs hcase act b hb =>
      intro hr
      have he : evs = [] ∨ evs = [.dropEvent s.clock] := by
        rcases hcase with ⟨_, _, he⟩ | ⟨_, _, _, ⟨_, _, he⟩ | ⟨_, _, he⟩⟩ <;> simp [he]
      simp only at hr hb
      by_cases hcb : st.hasCb = true
      · simp only [hcb, if_true] at hb ⊢
        rw [hb] at hr
        rcases he with he | he <;> rw [he] <;> simpa [MailboxOk] using hr
      · simp only [hcb, if_false, Bool.false_eq_true] at hb ⊢
        rw [hb] at hr
        rcases he with he | he <;> rw [he] <;> simpa [MailboxOk] using hr
    | late hc hl h hid hd last hf hlt act b hb =>
      intro hr
      simp only at hr hb
      by_cases hcb : st.hasCb = true
      · simp only [hcb, if_true] at hb ⊢
        rw [hb] at hr
        simpa [MailboxOk] using hr
      · simp only [hcb, if_false, Bool.false_eq_true] at hb ⊢
        rw [hb] at hr
        simpa [MailboxOk] using hr
  | read =>
    simp only [step, read]
    rw [if_neg (by simp [hc])]
    cases hb : st.buf with
    | none => simp [MailboxOk, hb]
    | some pt => simp [MailboxOk]
  | addCb => simp only [step]; split <;> simp
  | remCb => simp only [step]; split <;> simp
  | setId ids => simp [step]
  | stop => exact absurd rfl hop

theorem step_created (c : Config) (op : Op) (st : State) (hc : st.created = true)
    (hop : op ≠ .stop) : (step c st op).1.created = true := by
  cases op with
  | sample s =>
    simp only [step]
    have hcase := applyCase c st s
    generalize applySample c st s = r at hcase
    cases hcase <;> exact hc
  | read =>
    simp only [step, read]
    rw [if_neg (by simp [hc])]
    split <;> exact hc
  | addCb => simp only [step]; split <;> exact hc
  | remCb => simp only [step]; split <;> exact hc
  | setId ids => exact hc
  | stop => exact absurd rfl hop

/-- **C10.** For every interleaving of receptions, receives and callback changes the receive
calls behave like a one-place mailbox: a successful receive returns payload and send time of
the newest sample buffered since the last successful receive; a receive fails only if there
is none. -/
theorem C10_mailbox (c : Config) (h : List Op) (hs : .stop ∉ h) :
    MailboxOk none (run c init h).2 := by
  have key : ∀ (h : List Op) (st : State), st.created = true → .stop ∉ h →
      MailboxOk st.buf (run c st h).2 := by
    intro h
    induction h with
    | nil => intro st _ _; simp [run, MailboxOk]
    | cons op h ih =>
      intro st hc hs
      have hop : op ≠ .stop := fun e => hs (by simp [e])
      exact mailbox_append c op st hc hop _
        (ih _ (step_created c op st hc hop) (fun e => hs (List.mem_cons_of_mem _ e)))
  exact key h init rfl hs

example : (run (cfg true) init
    [.sample (mk "a" 1 1), .sample (mk "a" 2 2), .read, .read]).2
    = [.buffered (mk "a" 1 1), .buffered (mk "a" 2 2), .readOk [1, 2] 20, .readEmpty] := by
  decide +kernel

/-- After `Stop` a receive never returns data. -/
theorem C10_nothing_after_stop (c : Config) (st : State) (h : List Op) (p : List UInt8) (t : Int) :
    .readOk p t ∉ (run c (step c st .stop).1 h).2 := by
  have key : ∀ (h : List Op) (st : State), st.created = false → .readOk p t ∉ (run c st h).2 := by
    intro h
    induction h with
    | nil => intro st _; simp [run]
    | cons op h ih =>
      intro st hc
      simp only [run, List.mem_append, not_or]
      have hc' : (step c st op).1.created = false ∧ .readOk p t ∉ (step c st op).2 := by
        cases op <;> simp [step, applySample, read, hc]
      exact ⟨hc'.2, ih _ hc'.1⟩
  refine key h _ ?_
  simp only [step]
  by_cases hc : st.created = true
  · rw [if_pos hc]
  · rw [if_neg hc]; simpa using hc

/-! ## C11 -/

/-- The operation is the arrival of a sample on a disabled layer. -/
def onDisabled (c : Config) : Op → Bool
  | .sample s => decide (Disabled c s.layer)
  | _ => false

/-- **C11.** Arrivals on disabled layers have no effect at all: state and effects (hence
everything delivered later) are the same as if they had not happened. -/
theorem C11_disabled_layer_no_effect (c : Config) (st : State) (h : List Op) :
    run c st h = run c st (h.filter (fun op => !onDisabled c op)) := by
  induction h generalizing st with
  | nil => rfl
  | cons op h ih =>
    by_cases hd : onDisabled c op = true
    · rw [List.filter_cons_of_neg (by simp [hd])]
      have : step c st op = (st, []) := by
        cases op with
        | sample s =>
          simp only [onDisabled, decide_eq_true_eq] at hd
          have hd' : layerEnabled c s.layer = false := by
            cases h : layerEnabled c s.layer
            · rfl
            · exact absurd hd ((layerEnabled_iff _ _).1 h)
          simp [step, applySample, hd']
        | read => simp [onDisabled] at hd
        | addCb => simp [onDisabled] at hd
        | remCb => simp [onDisabled] at hd
        | setId i => simp [onDisabled] at hd
        | stop => simp [onDisabled] at hd
      simp only [run, this, List.nil_append]
      exact ih st
    · rw [List.filter_cons_of_pos (by simpa using hd)]
      simp only [run]
      rw [ih]

/-- **C11.** No delivered sample arrived on a disabled layer. -/
theorem C11_never_delivered (c : Config) (st : State) (h : List Op) :
    ∀ s ∈ delivered (run c st h).2, ¬ Disabled c s.layer := by
  induction h generalizing st with
  | nil => intro s hs; simp [run] at hs
  | cons op h ih =>
    intro s hm
    simp only [run, delivered_append, List.mem_append] at hm
    rcases hm with hm | hm
    · cases op with
      | sample s =>
        simp only [step] at hm
        have hcase := applyCase c st s
        generalize applySample c st s = r at hcase hm
        cases hcase with
        | ignored h => simp at hm
        | dup hc hl h act => simp at hm
        | filtered hc hl h hid act => simp at hm
        | rejected hc hl h hid last hf hle act => simp at hm
        | accepted hc hl h hid g evs hcase act b hb =>
          have hev : delivered evs = [] := by
            rcases hcase with ⟨_, _, he⟩ | ⟨_, _, _, ⟨_, _, he⟩ | ⟨_, _, he⟩⟩ <;> rw [he] <;> rfl
          simp only [delivered_append, delivered_end, hev, List.nil_append, List.mem_singleton] at hm
          rw [hm]; exact (layerEnabled_iff _ _).1 hl
        | late hc hl h hid hd last hf hlt act b hb =>
          simp only [delivered_end, List.mem_singleton] at hm
          rw [hm]; exact (layerEnabled_iff _ _).1 hl
      | read =>
        simp only [step, read] at hm
        split at hm
        · simp [delivered, Ev.sample?] at hm
        · split at hm <;> simp [delivered, Ev.sample?] at hm
      | addCb => simp [step] at hm
      | remCb => simp [step] at hm
      | setId i => simp [step] at hm
      | stop => simp [step] at hm
    · exact ih _ s hm

example : delivered (run { udp := false, shm := true, tcp := true, drop := true } init
    [.sample (mk "a" 1 1 .udp), .sample (mk "a" 1 1 .shm)]).2 = [mk "a" 1 1 .shm] := by
  decide +kernel

/-- **C10 (a removed callback is not called).**  After the receive callback was removed, and as long as none is set again,
no sample is handed to a callback. -/
theorem C10_no_call_after_removal (c : Config) (st : State) (h : List Op) (hn : Op.addCb ∉ h) (s : Sample) :
    Ev.callback s ∉ (run c (step c st .remCb).1 h).2 := by
  have hst : (step c st .remCb).1.created = false ∨ (step c st .remCb).1.hasCb = false := by
    cases hc : st.created <;> simp [step, hc]
  generalize (step c st .remCb).1 = st' at hst
  induction h generalizing st' with
  | nil => simp [run]
  | cons op h ih =>
    have hn' : Op.addCb ∉ h := fun hm => hn (List.mem_cons_of_mem _ hm)
    have ho : op ≠ .addCb := fun e => hn (e ▸ List.mem_cons_self ..)
    simp only [run, List.mem_append, not_or]
    have key : Ev.callback s ∉ (step c st' op).2 ∧
        ((step c st' op).1.created = false ∨ (step c st' op).1.hasCb = false) := by
      cases op with
      | addCb => exact absurd rfl ho
      | sample x =>
        rcases hst with hc | hc
        · simp [step, applySample, hc]
        · simp only [step, applySample, hc]
          repeat' split
          all_goals simp_all
          all_goals (repeat' split)
          all_goals simp
      | read =>
        simp only [step, read]
        repeat' split
        all_goals simp_all
      | remCb => simp only [step]; split <;> simp_all
      | setId ids => exact ⟨by simp [step], hst⟩
      | stop => simp only [step]; split <;> simp_all
    exact ⟨key.1, ih hn' _ key.2⟩

/-- **C10 (the receive counter).**  A subscriber counts exactly the samples it delivered. -/
theorem C10_clock_counts_deliveries (c : Config) (h : List Op) :
    (run c init h).1.clock = (delivered (run c init h).2).length := by
  have key : ∀ (h : List Op) (st : State), (run c st h).1.clock = st.clock + (delivered (run c st h).2).length := by
    intro h
    induction h with
    | nil => intro st; simp [run]
    | cons op h ih =>
      intro st
      simp only [run, delivered_append, List.length_append]
      rw [ih]
      have hs : (step c st op).1.clock = st.clock + (delivered (step c st op).2).length := by
        cases op with
        | sample x =>
          simp only [step, applySample]
          repeat' split
          all_goals first
            | (simp [delivered, Ev.sample?]; done)
            | (simp only [delivered, List.cons_append, List.nil_append, List.filterMap_cons, List.filterMap_nil, Ev.sample?]; rfl)
        | read => simp only [step, read]; repeat' split
                  all_goals simp [delivered, Ev.sample?]
        | addCb => simp only [step]; split <;> simp [delivered]
        | remCb => simp only [step]; split <;> simp [delivered]
        | setId ids => simp [step, delivered]
        | stop => simp only [step]; split <;> simp [delivered]
      omega
  have := key h init
  simpa [init] using this

end Ecal.Reader
