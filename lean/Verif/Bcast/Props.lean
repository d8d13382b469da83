import Verif.Bcast.Lemmas

/-!
# C04, C05, C55: registration broadcast

`received p s h`: the events process `p` gets over the history `h` (each poll's list in
send order).  `expected`, `InTime`, `StrictClock` are the specification (`Spec.lean`).
-/

namespace Ecal.Bcast

open Ecal.Ring

/-- C04: over every history of sends, polls and flushes by any number of processes
(including crashes that wipe the file), a process gets exactly the events sent since its
previous poll, each once and in order, if the ring does not overflow between its polls, no
event is older than its timeout and send times strictly increase. -/
theorem C04_each_event_exactly_once (cap : Nat) (hcap : 0 < cap) (t0 : Int) (ht0 : 0 ≤ t0)
    (cells : Nat → Event) (p : Nat) (h : List Op)
    (hclock : StrictClock t0 h) (htime : InTime p cap [] h) :
    received p (init cap t0 cells) h = some (expected p [] h) :=
  (Inv.init cap hcap t0 ht0 cells p).received h hclock htime

/-- A history used for the examples: two senders, one own event, one foreign poll, a crash. -/
def demo : List Op :=
  [.send 1 10 100 .created, .send 2 11 200 .created, .poll 3 12 0 true, .send 1 13 100 .updated,
   .poll 2 14 0 false, .crash, .poll 2 15 0 true, .send 1 16 100 .removed, .poll 2 17 0 true]

example (cells : Nat → Event) :
    received 2 (init 4 1 cells) demo =
      some [⟨1, 10, 100, .created⟩, ⟨1, 13, 100, .updated⟩, ⟨1, 16, 100, .removed⟩] := by
  rw [C04_each_event_exactly_once 4 (by decide) 1 (by decide)]
  · decide
  · simp [StrictClock, demo]
  · simp [InTime, demo]

/-- C04, order inside one poll: whatever happened before (overflow included), the events
come newest first. -/
theorem C04_newest_first (cap : Nat) (hcap : 0 < cap) (t0 : Int) (ht0 : 0 ≤ t0)
    (cells : Nat → Event) (p : Nat) (h : List Op) (hclock : StrictClock t0 h)
    (now timeout : Int) (lb : Bool) :
    ∃ s s' out, run (init cap t0 cells) h = some s ∧
      step s (.poll p now timeout lb) = some (s', out) ∧
      out.Pairwise (fun a b => a.ts > b.ts) := by
  obtain ⟨s, clk, b, pd, h1, h2⟩ := (Inv.init cap hcap t0 ht0 cells p).run h hclock
  refine ⟨s, ?_⟩
  cases hi : s.file.inited with
  | false => exact ⟨s, [], h1, by simp [step, receiveEvents, hi], List.Pairwise.nil⟩
  | true =>
    refine ⟨_, _, h1, by simp [step, receiveEvents, hi, h2.ring.iterate]; exact ⟨rfl, rfl⟩, ?_⟩
    apply List.Pairwise.sublist (collect_sublist _ _ _ _ _ _)
    rw [List.pairwise_reverse, h2.cont hi]
    exact h2.sorted.sublist (List.drop_sublist _ _)

example : ((run (init 4 1 (fun _ => ⟨9, 9, 9, .invalid⟩))
    [.send 1 10 100 .created, .send 2 11 200 .created]).bind
      (fun s => step s (.poll 3 12 0 true))).map Prod.snd =
      some [⟨2, 11, 200, .created⟩, ⟨1, 10, 100, .created⟩] := by decide +kernel

/-- C04 without "send times strictly increase" is false: two events in the same clock tick,
the poll between them makes the second one invisible for ever. -/
theorem C04_violated_same_tick :
    let h := [Op.send 1 10 100 .created, .poll 2 10 0 true, .send 1 10 100 .updated,
      .poll 2 11 0 true, .poll 2 12 0 true]
    let s := init 4 1 (fun _ => ⟨9, 9, 9, .invalid⟩)
    received 2 s h = some [⟨1, 10, 100, .created⟩] ∧
    expected 2 [] h = [⟨1, 10, 100, .created⟩, ⟨1, 10, 100, .updated⟩] := by decide +kernel

/-- C05: polling without loopback never returns an event of the polling process itself, in
any state whatsoever. -/
theorem C05_no_own_events (s s' : Sys) (p : Nat) (now timeout : Int) (out : List Event)
    (h : step s (.poll p now timeout false) = some (s', out)) : ∀ e ∈ out, e.pid ≠ p := by
  simp only [step, receiveEvents] at h
  split at h
  · split at h
    · simp at h
    · simp only [Option.map_some, Option.some.injEq, Prod.mk.injEq, Option.getD_some] at h
      rw [← h.2]; exact collect_own _ _ _ _ _
  · simp only [Option.map_some, Option.some.injEq, Prod.mk.injEq, Option.getD_none] at h
    rw [← h.2]; simp

example : ((run (init 4 1 (fun _ => ⟨9, 9, 9, .invalid⟩))
    [.send 1 10 100 .created, .send 2 11 200 .created]).bind
      (fun s => step s (.poll 1 12 0 false))).map Prod.snd =
      some [⟨2, 11, 200, .created⟩] := by decide +kernel

/-- C05: with loopback own events are returned like all others (part of the exactness
theorem: with loopback the filter of `expected` lets everything pass). -/
theorem C05_loopback_returns_own (cap : Nat) (hcap : 0 < cap) (t0 : Int) (ht0 : 0 ≤ t0)
    (cells : Nat → Event) (p : Nat) (sends : List (Nat × Int × Nat × EvType)) (now : Int)
    (hclock : StrictClock t0 (sends.map fun x => Op.send x.1 x.2.1 x.2.2.1 x.2.2.2))
    (hlen : sends.length ≤ cap) :
    received p (init cap t0 cells)
      ((sends.map fun x => Op.send x.1 x.2.1 x.2.2.1 x.2.2.2) ++ [.poll p now 0 true]) =
      some (sends.map fun x => ⟨x.1, x.2.1, x.2.2.1, x.2.2.2⟩) := by
  have hexp : ∀ (l : List (Nat × Int × Nat × EvType)) (pend : List Event),
      expected p pend ((l.map fun x => Op.send x.1 x.2.1 x.2.2.1 x.2.2.2) ++ [.poll p now 0 true])
        = pend ++ l.map fun x => ⟨x.1, x.2.1, x.2.2.1, x.2.2.2⟩ := by
    intro l
    induction l with
    | nil => intro pend; simp [expected]
    | cons x l ih => intro pend; simp [expected, ih]
  have hin : ∀ (l : List (Nat × Int × Nat × EvType)) (pend : List Event),
      pend.length + l.length ≤ cap →
      InTime p cap pend ((l.map fun x => Op.send x.1 x.2.1 x.2.2.1 x.2.2.2) ++ [.poll p now 0 true]) := by
    intro l
    induction l with
    | nil => intro pend h; simpa [InTime] using h
    | cons x l ih =>
      intro pend h
      simp only [List.map_cons, List.cons_append, InTime]
      apply ih; simp at h ⊢; omega
  have hst : ∀ (l : List Op) (c : Int), StrictClock c l →
      StrictClock c (l ++ [.poll p now 0 true]) := by
    intro l
    induction l with
    | nil => intro c _; simp [StrictClock]
    | cons x l ih =>
      intro c h
      cases x <;> simp only [List.cons_append, StrictClock] at h ⊢
      · exact ⟨h.1, ih _ h.2⟩
      · exact ih _ h
      · exact ih _ h
      · exact ⟨h.1, ih _ h.2⟩
      · exact ih _ h
  rw [C04_each_event_exactly_once cap hcap t0 ht0 cells p _ (hst _ _ hclock)
    (hin sends [] (by simpa using hlen)), hexp]
  rfl

example : StrictClock 1 ([(1, 10, 100, .created), (2, 11, 200, .created)].map
    fun (x : Nat × Int × Nat × EvType) => Op.send x.1 x.2.1 x.2.2.1 x.2.2.2) := by
  simp [StrictClock]

/-- C55, the part that holds: if every payload file of the events handed out can be opened,
a poll of the registration receiver delivers, for each announcing process whose newest
event is an update, the current content of its payload file, exactly once (one message per
event id), newest first. -/
theorem C55_poll_delivers_partial (files : Files) (rd : Reader) (evs : List Event)
    (hk : AllOpen rd)
    (ho : ∀ e ∈ firstPerId [] evs, e.type ≠ .removed → (files.find e.id).isSome) :
    (receiverReceive files rd (some evs)).2 =
      (firstPerId [] evs).filterMap
        (fun e => if e.type = .updated then files.find e.id else none) := by
  obtain ⟨rd', seen', h1, h2⟩ := foldl_readEvent files evs { rd with evs := evs } [] [] hk ho
  simp only [receiverReceive, read, Option.getD_some, h1, if_true, List.nil_append,
    List.map_filterMap]
  congr 1
  funext e
  split
  · cases files.find e.id <;> rfl
  · rfl

example : AllOpen { known := [(100, true)], evs := [] } ∧
    (receiverReceive [(100, [1, 2]), (200, [3])] { known := [(100, true)], evs := [] }
      (some [⟨1, 12, 100, .updated⟩, ⟨2, 11, 200, .updated⟩, ⟨1, 10, 100, .updated⟩])).2
      = [[1, 2], [3]] := by
  refine ⟨?_, by decide⟩
  intro id; simp [AMap.find]

/-- C55 at full strength is false: process 2 announces a payload file that is already gone;
the update of process 1 in the same poll is thrown away with it. -/
theorem C55_violated_one_bad_file_drops_all :
    (receiverReceive [(100, [1, 2])] { known := [], evs := [] }
      (some [⟨2, 12, 200, .created⟩, ⟨1, 11, 100, .updated⟩])).2 = [] := by decide

/-- C55 at full strength is false in a second way: when the access to the broadcast file
fails (lock timeout or recovered file) the previous event list is processed again, and the
same update is delivered a second time. -/
theorem C55_violated_failed_poll_repeats :
    let r1 := receiverReceive [(100, [1, 2])] { known := [], evs := [] }
      (some [⟨1, 11, 100, .updated⟩])
    r1.2 = [[1, 2]] ∧ (receiverReceive [(100, [1, 2])] r1.1 none).2 = [[1, 2]] := by decide

/-- **C04** A process that joins: the channel is set up if it is not, and left as it is otherwise; the other
processes do not notice, and the newcomer gets every event that is still in the ring. -/
theorem C04_joining_process (s s' : Sys) (p : Nat) (now : Int) (h : create s p now = some s') :
    (s.file.inited = true → s'.file = s.file) ∧
    (s.file.inited = false → s'.file.ring.iterate = some [] ∧ s'.file.hdrTs = now) ∧
    s'.file.inited = true ∧
    (∀ q, q ≠ p → s'.last q = s.last q) ∧
    ∀ evs t, s'.file.ring.iterate = some evs → (∀ e ∈ evs, 0 < e.ts) →
      ∃ s2, step s' (.poll p t 0 true) = some (s2, evs) := by
  have hc : ∀ (thr : Int) (evs : List Event), (∀ e ∈ evs, 0 < e.ts) → collect p 0 thr 0 true evs = evs := by
    intro thr evs
    induction evs with
    | nil => intro _; rfl
    | cons e r ih =>
      intro he
      have h1 := he e (by simp)
      have h2 := ih (fun x hx => he x (by simp [hx]))
      have : ¬ e.ts ≤ 0 := by omega
      simp [collect, this, h2]
  have hl : s'.last p = 0 ∧ s'.file.inited = true ∧ (∀ q, q ≠ p → s'.last q = s.last q) ∧
      (s.file.inited = true → s'.file = s.file) ∧
      (s.file.inited = false → s'.file.ring.iterate = some [] ∧ s'.file.hdrTs = now) := by
    unfold create at h
    cases hi : s.file.inited with
    | true =>
      simp only [hi, if_true, Option.some.injEq] at h
      subst h
      simp [hi]
      intro q hq; simp [hq]
    | false =>
      simp only [hi, Bool.false_eq_true, if_false, Option.map_eq_some_iff] at h
      obtain ⟨f, hf, rfl⟩ := h
      unfold resetFile at hf
      split at hf
      · next r hr =>
        simp only [Option.some.injEq] at hf
        subst hf
        refine ⟨by simp, rfl, by intro q hq; simp [hq], by simp, fun _ => ⟨?_, rfl⟩⟩
        unfold Ring.reset at hr
        split at hr
        · cases hr
        · simp only [Res.ok.injEq] at hr
          subst hr
          simp [Ring.iterate, Ring.iterFrom]
      · simp at hf
  refine ⟨hl.2.2.2.1, hl.2.2.2.2, hl.2.1, hl.2.2.1, ?_⟩
  intro evs t he hp
  simp only [step, receiveEvents, hl.2.1, if_true, he, hl.1, Option.map_some, Option.getD_some, hc _ evs hp]
  exact ⟨_, rfl⟩

example : ((run (init 4 1 (fun _ => ⟨9, 9, 9, .invalid⟩)) [.send 1 10 100 .created, .poll 3 11 0 true]).bind
    (fun s => create s 3 12)).bind (fun s => (step s (.poll 3 12 0 true)).map Prod.snd) =
      some [⟨1, 10, 100, .created⟩] := by decide +kernel

end Ecal.Bcast
