import Verif.Bcast.Spec
import Verif.Ring.Props

namespace Ecal.Bcast

open Ecal.Ring

structure Inv (s : Sys) (p : Nat) (clk : Int) (b pd : List Event) : Prop where
  cap   : 0 < s.cap
  ring  : s.file.ring.Inv
  maxs  : s.file.ring.maxSize = s.cap
  cont  : s.file.inited = true → s.file.ring.contents = newest s.cap (b ++ pd)
  empty : s.file.inited = false → b ++ pd = []
  base  : ∀ e ∈ b, e.ts ≤ s.last p
  pend  : ∀ e ∈ pd, s.last p < e.ts
  hdr   : s.file.inited = true → ∀ e ∈ b ++ pd, e.ts ≤ s.file.hdrTs
  hclk  : s.file.hdrTs ≤ clk
  lclk  : s.last p ≤ clk
  sorted : (b ++ pd).Pairwise (fun x y => x.ts < y.ts)

theorem collect_spec (p : Nat) (last thr timeout : Int) (lb : Bool) (a b : List Event)
    (ha : ∀ e ∈ a, ¬ ((timeout ≠ 0 ∧ e.ts ≤ thr) ∨ e.ts ≤ last))
    (hb : ∀ e ∈ b, e.ts ≤ last) :
    collect p last thr timeout lb (a ++ b) = a.filter (fun e => lb || e.pid != p) := by
  induction a with
  | nil =>
    cases b with
    | nil => rfl
    | cons e b =>
      have := hb e (by simp)
      simp [collect, this]
  | cons e a ih =>
    have h1 := ha e (by simp)
    have ih := ih (fun e he => ha e (by simp [he]))
    simp only [List.cons_append, collect, if_neg h1, ih]
    by_cases hp : e.pid = p <;> cases lb <;> simp [hp]

theorem newest_append_pend (cap : Nat) (b pd : List Event) (h : pd.length ≤ cap) :
    ∃ b', (∀ e ∈ b', e ∈ b) ∧ newest cap (b ++ pd) = b' ++ pd := by
  refine ⟨b.drop (b.length + pd.length - cap), fun e he => List.mem_of_mem_drop he, ?_⟩
  unfold newest
  rw [List.length_append, List.drop_append_of_le_length (by omega)]

theorem Inv.init (cap : Nat) (hcap : 0 < cap) (t0 : Int) (ht : 0 ≤ t0) (cells : Nat → Event)
    (p : Nat) : Inv (init cap t0 cells) p t0 [] [] := by
  constructor <;> simp [Bcast.init, Ring.contents, newest, hcap, ht]
  constructor <;> simp [hcap]

theorem Inv.send {s : Sys} {p : Nat} {clk : Int} {b pd : List Event} (h : Inv s p clk b pd)
    (q : Nat) (ts : Int) (id : Nat) (ty : EvType) (hts : clk < ts) :
    ∃ s', sendEvent s q ts id ty = some s' ∧ s'.cap = s.cap ∧
      Inv s' p ts b (pd ++ [⟨q, ts, id, ty⟩]) := by
  have key : ∃ f, (if s.file.inited then some s.file else resetFile s.cap ts s.file) = some f ∧
      f.inited = true ∧ f.ring.Inv ∧ f.ring.maxSize = s.cap ∧
      f.ring.contents = newest s.cap (b ++ pd) := by
    cases hi : s.file.inited with
    | true => exact ⟨s.file, by simp, hi, h.ring, h.maxs, h.cont hi⟩
    | false =>
      obtain ⟨r, h1, h2, h3, h4⟩ := Ring.Inv.reset s.file.ring s.cap h.cap
      refine ⟨⟨true, ts, r⟩, by simp [resetFile, h1], rfl, h2, h4, ?_⟩
      simp [h3, h.empty hi, newest]
  obtain ⟨f, hf, hfi, hri, hm, hc⟩ := key
  obtain ⟨r, h1, h2, h3, h4⟩ := hri.push ⟨q, ts, id, ty⟩
  refine ⟨{ s with file := { f with ring := r, hdrTs := ts } }, by simp [sendEvent, hf, h1], rfl, ?_⟩
  constructor
  · exact h.cap
  · exact h2
  · simp [h3, hm]
  · intro _
    have hspec : r.contents = newest s.cap (f.ring.contents ++ [⟨q, ts, id, ty⟩]) := by
      rw [h4]
      have hl := f.ring.contents_length
      have hs := hri.size
      unfold newest
      split
      · rw [show (f.ring.contents ++ [(⟨q, ts, id, ty⟩ : Event)]).length - s.cap = 0 by simp [hl]; omega]; rfl
      · have e : (f.ring.contents ++ [(⟨q, ts, id, ty⟩ : Event)]).length - s.cap = 1 := by simp [hl]; omega
        rw [e]
        cases hcc : f.ring.contents with
        | nil => rw [hcc] at hl; have := h.cap; simp at hl; omega
        | cons a l => rfl
    show r.contents = _
    rw [hspec, hc, newest_push _ _ _ h.cap, List.append_assoc]
  · intro hx; simp [hfi] at hx
  · exact h.base
  · intro e he
    simp only [List.mem_append, List.mem_singleton] at he
    rcases he with he | he
    · exact h.pend e he
    · subst he; have := h.lclk; simp; omega
  · intro _ e he
    have hb := h.base; have hl := h.lclk; have hh := h.hclk
    simp only [List.mem_append, List.mem_singleton] at he
    rcases he with he | he | he
    · have := hb e he; simp; omega
    · cases hi : s.file.inited with
      | true => have := h.hdr hi e (by simp [he]); simp; omega
      | false => have := h.empty hi; simp at this; simp [this] at he
    · subst he; simp
  · simp
  · have := h.lclk; simp; omega
  · rw [← List.append_assoc, List.pairwise_append]
    refine ⟨h.sorted, by simp, ?_⟩
    intro x hx y hy
    simp only [List.mem_singleton] at hy
    subst hy
    cases hi : s.file.inited with
    | true => have := h.hdr hi x hx; have := h.hclk; simp; omega
    | false => have := h.empty hi; simp [this] at hx

theorem Inv.poll_self {s : Sys} {p : Nat} {clk : Int} {b pd : List Event} (h : Inv s p clk b pd)
    (now timeout : Int) (lb : Bool) (hlen : pd.length ≤ s.cap)
    (htime : ∀ e ∈ pd, timeout = 0 ∨ now - timeout * 1000 < e.ts) :
    ∃ res s', receiveEvents s p now timeout lb = some (res, s') ∧ s'.cap = s.cap ∧
      res.getD [] = (pd.filter (fun e => lb || e.pid != p)).reverse ∧
      ∃ b', Inv s' p clk b' [] := by
  unfold receiveEvents
  cases hi : s.file.inited with
  | false =>
    have he := h.empty hi
    simp at he
    refine ⟨none, s, by simp, rfl, by simp [he], b, ?_⟩
    rw [he.2] at h; exact h
  | true =>
    simp only [if_true, h.ring.iterate]
    refine ⟨_, _, rfl, rfl, ?_, b ++ pd, ?_⟩
    · obtain ⟨b', hb', e⟩ := newest_append_pend s.cap b pd hlen
      rw [h.cont hi, e, List.reverse_append, Option.getD_some,
        collect_spec _ _ _ _ _ pd.reverse b'.reverse, List.filter_reverse]
      · intro e he hx
        have he := List.mem_reverse.1 he
        have h1 := h.pend e he
        rcases hx with ⟨h2, h3⟩ | h2
        · rcases htime e he with h4 | h4
          · exact h2 h4
          · omega
        · omega
      · intro e he; exact h.base e (hb' e (List.mem_reverse.1 he))
    · constructor
      · exact h.cap
      · exact h.ring
      · exact h.maxs
      · intro hx; simpa using h.cont hi
      · intro hx; simp [hi] at hx
      · simp only [if_true]; exact h.hdr hi
      · simp
      · intro _; simpa using h.hdr hi
      · exact h.hclk
      · simpa using h.hclk
      · simpa using h.sorted

theorem Inv.poll_other {s : Sys} {p : Nat} {clk : Int} {b pd : List Event} (h : Inv s p clk b pd)
    (q : Nat) (hq : q ≠ p) (now timeout : Int) (lb : Bool) :
    ∃ res s', receiveEvents s q now timeout lb = some (res, s') ∧ s'.cap = s.cap ∧
      Inv s' p clk b pd := by
  unfold receiveEvents
  cases hi : s.file.inited with
  | false => exact ⟨none, s, by simp, rfl, h⟩
  | true =>
    simp only [if_true, h.ring.iterate]
    refine ⟨_, _, rfl, rfl, ?_⟩
    have hne : ∀ t : Int, (if p = q then t else s.last p) = s.last p := by
      intro t; rw [if_neg (Ne.symm hq)]
    constructor
    · exact h.cap
    · exact h.ring
    · exact h.maxs
    · exact h.cont
    · exact h.empty
    · simp only [hne]; exact h.base
    · simp only [hne]; exact h.pend
    · exact h.hdr
    · exact h.hclk
    · simp only [hne]; exact h.lclk
    · exact h.sorted

theorem Inv.flushLocal_self {s : Sys} {p : Nat} {clk : Int} {b pd : List Event}
    (h : Inv s p clk b pd) : ∃ b', Inv (flushLocal s p) p clk b' [] := by
  unfold flushLocal
  cases hi : s.file.inited with
  | false =>
    have he := h.empty hi; simp at he
    rw [he.2] at h; exact ⟨b, by simpa using h⟩
  | true =>
    refine ⟨b ++ pd, ?_⟩
    constructor
    · exact h.cap
    · exact h.ring
    · exact h.maxs
    · intro hx; simpa using h.cont hi
    · intro hx; simp [hi] at hx
    · simp only [if_true]; exact h.hdr hi
    · simp
    · intro _; simpa using h.hdr hi
    · exact h.hclk
    · simpa using h.hclk
    · simpa using h.sorted

theorem Inv.flushLocal_other {s : Sys} {p : Nat} {clk : Int} {b pd : List Event}
    (h : Inv s p clk b pd) (q : Nat) (hq : q ≠ p) : Inv (flushLocal s q) p clk b pd := by
  unfold flushLocal
  have hne : ∀ t : Int, (if p = q then t else s.last p) = s.last p := by
    intro t; rw [if_neg (Ne.symm hq)]
  split
  · constructor
    · exact h.cap
    · exact h.ring
    · exact h.maxs
    · exact h.cont
    · exact h.empty
    · simp only [hne]; exact h.base
    · simp only [hne]; exact h.pend
    · exact h.hdr
    · exact h.hclk
    · simp only [hne]; exact h.lclk
    · exact h.sorted
  · exact h

theorem Inv.flushGlobal {s : Sys} {p : Nat} {clk : Int} {b pd : List Event}
    (h : Inv s p clk b pd) (now : Int) (hn : clk ≤ now) :
    ∃ s', flushGlobal s now = some s' ∧ s'.cap = s.cap ∧ Inv s' p now [] [] := by
  obtain ⟨r, h1, h2, h3, h4⟩ := Ring.Inv.reset s.file.ring s.cap h.cap
  refine ⟨{ s with file := ⟨true, now, r⟩ }, by simp [Bcast.flushGlobal, resetFile, h1], rfl, ?_⟩
  constructor
  · exact h.cap
  · exact h2
  · exact h4
  · simp [h3, newest]
  · simp
  · simp
  · simp
  · simp
  · simp
  · have := h.lclk; simp; omega
  · simp

theorem Inv.crash {s : Sys} {p : Nat} {clk : Int} {b pd : List Event} (h : Inv s p clk b pd) :
    Inv { s with file := { s.file with inited := false } } p clk [] [] := by
  constructor
  · exact h.cap
  · exact h.ring
  · exact h.maxs
  · simp
  · simp
  · simp
  · simp
  · simp
  · exact h.hclk
  · exact h.lclk
  · simp

/-- A poll by `p` itself keeps the invariant, whatever it hands out. -/
theorem Inv.poll_any {s : Sys} {p : Nat} {clk : Int} {b pd : List Event} (h : Inv s p clk b pd)
    (now timeout : Int) (lb : Bool) :
    ∃ res s' b', receiveEvents s p now timeout lb = some (res, s') ∧ Inv s' p clk b' [] := by
  unfold receiveEvents
  cases hi : s.file.inited with
  | false =>
    have he := h.empty hi
    simp at he
    refine ⟨none, s, b, by simp, ?_⟩
    rw [he.2] at h; exact h
  | true =>
    simp only [if_true, h.ring.iterate]
    refine ⟨_, _, b ++ pd, rfl, ?_⟩
    constructor
    · exact h.cap
    · exact h.ring
    · exact h.maxs
    · intro hx; simpa using h.cont hi
    · intro hx; simp [hi] at hx
    · simp only [if_true]; exact h.hdr hi
    · simp
    · intro _; simpa using h.hdr hi
    · exact h.hclk
    · simpa using h.hclk
    · simpa using h.sorted

theorem Inv.received {s : Sys} {p : Nat} {clk : Int} {b pd : List Event} (h : Inv s p clk b pd)
    (hist : List Op) (hc : StrictClock clk hist) (ht : InTime p s.cap pd hist) :
    received p s hist = some (expected p pd hist) := by
  induction hist generalizing s clk b pd with
  | nil => rfl
  | cons op hist ih =>
    cases op with
    | send q ts id ty =>
      obtain ⟨s', h1, hcap, h2⟩ := h.send q ts id ty hc.1
      have := ih h2 hc.2 (by rw [hcap]; exact ht)
      simp [Bcast.received, step, h1, this, expected]
    | poll q now timeout lb =>
      by_cases hq : q = p
      · subst hq
        simp only [InTime, if_true] at ht
        obtain ⟨res, s', h1, hcap, h2, b', h3⟩ := h.poll_self now timeout lb ht.1 ht.2.1
        have := ih h3 hc (by rw [hcap]; exact ht.2.2)
        simp [Bcast.received, step, h1, this, expected, h2]
      · simp only [InTime, if_neg hq] at ht
        obtain ⟨res, s', h1, hcap, h3⟩ := h.poll_other q hq now timeout lb
        have := ih h3 hc (by rw [hcap]; exact ht)
        simp [Bcast.received, step, h1, this, expected, hq]
    | flushLocal q =>
      have hcap : (flushLocal s q).cap = s.cap := by unfold flushLocal; split <;> rfl
      by_cases hq : q = p
      · subst hq
        simp only [InTime, if_true] at ht
        obtain ⟨b', h3⟩ := h.flushLocal_self
        have := ih h3 hc (by rw [hcap]; exact ht)
        simp [Bcast.received, step, this, expected]
      · simp only [InTime, if_neg hq] at ht
        have := ih (h.flushLocal_other q hq) hc (by rw [hcap]; exact ht)
        simp [Bcast.received, step, this, expected, hq]
    | flushGlobal now =>
      obtain ⟨s', h1, hcap, h2⟩ := h.flushGlobal now hc.1
      have := ih h2 hc.2 (by rw [hcap]; exact ht)
      simp [Bcast.received, step, h1, this, expected]
    | crash =>
      have := ih h.crash hc ht
      simp [Bcast.received, step, this, expected]

/-- The invariant at the end of a history. -/
theorem Inv.run {s : Sys} {p : Nat} {clk : Int} {b pd : List Event} (h : Inv s p clk b pd)
    (hist : List Op) (hc : StrictClock clk hist) :
    ∃ s' clk' b' pd', run s hist = some s' ∧ Inv s' p clk' b' pd' := by
  induction hist generalizing s clk b pd with
  | nil => exact ⟨s, clk, b, pd, rfl, h⟩
  | cons op hist ih =>
    cases op with
    | send q ts id ty =>
      obtain ⟨s', h1, _, h2⟩ := h.send q ts id ty hc.1
      obtain ⟨s2, c2, b2, p2, h3, h4⟩ := ih h2 hc.2
      exact ⟨s2, c2, b2, p2, by simp [Bcast.run, step, h1, h3], h4⟩
    | poll q now timeout lb =>
      by_cases hq : q = p
      · subst hq
        obtain ⟨res, s', b', h1, h3⟩ := h.poll_any now timeout lb
        obtain ⟨s2, c2, b2, p2, h4, h5⟩ := ih h3 hc
        exact ⟨s2, c2, b2, p2, by simp [Bcast.run, step, h1, h4], h5⟩
      · obtain ⟨res, s', h1, _, h3⟩ := h.poll_other q hq now timeout lb
        obtain ⟨s2, c2, b2, p2, h4, h5⟩ := ih h3 hc
        exact ⟨s2, c2, b2, p2, by simp [Bcast.run, step, h1, h4], h5⟩
    | flushLocal q =>
      by_cases hq : q = p
      · subst hq
        obtain ⟨b', h3⟩ := h.flushLocal_self
        obtain ⟨s2, c2, b2, p2, h4, h5⟩ := ih h3 hc
        exact ⟨s2, c2, b2, p2, by simp [Bcast.run, step, h4], h5⟩
      · obtain ⟨s2, c2, b2, p2, h4, h5⟩ := ih (h.flushLocal_other q hq) hc
        exact ⟨s2, c2, b2, p2, by simp [Bcast.run, step, h4], h5⟩
    | flushGlobal now =>
      obtain ⟨s', h1, _, h2⟩ := h.flushGlobal now hc.1
      obtain ⟨s2, c2, b2, p2, h4, h5⟩ := ih h2 hc.2
      exact ⟨s2, c2, b2, p2, by simp [Bcast.run, step, h1, h4], h5⟩
    | crash =>
      obtain ⟨s2, c2, b2, p2, h4, h5⟩ := ih h.crash hc
      exact ⟨s2, c2, b2, p2, by simp [Bcast.run, step, h4], h5⟩

theorem collect_sublist (p : Nat) (last thr timeout : Int) (lb : Bool) (evs : List Event) :
    (collect p last thr timeout lb evs).Sublist evs := by
  induction evs with
  | nil => simp [collect]
  | cons a evs ih =>
    unfold collect
    split
    · simp
    · split
      · exact ih.cons a
      · exact ih.cons_cons a

theorem collect_own (p : Nat) (last thr timeout : Int) (evs : List Event) :
    ∀ e ∈ collect p last thr timeout false evs, e.pid ≠ p := by
  induction evs with
  | nil => simp [collect]
  | cons a evs ih =>
    intro e he
    unfold collect at he
    split at he
    · simp at he
    · split at he
      · exact ih e he
      · next hn =>
        rcases List.mem_cons.1 he with h | h
        · subst h; intro hp; exact hn ⟨hp, rfl⟩
        · exact ih e h

/-! ### Reader -/

/-- For each event id the first event of the list (the newest one), ids in `seen` skipped. -/
def firstPerId : List Nat → List Event → List Event
  | _, [] => []
  | seen, e :: es => if e.id ∈ seen then firstPerId seen es else e :: firstPerId (e.id :: seen) es

/-- No known payload file failed to open. -/
def AllOpen (rd : Reader) : Prop := ∀ id, rd.known.find id ≠ some false

theorem foldl_readEvent (files : Files) (evs : List Event) (rd : Reader) (seen : List Nat)
    (msgs : List (List UInt8 × Int)) (hk : AllOpen rd)
    (ho : ∀ e ∈ firstPerId seen evs, e.type ≠ .removed → (files.find e.id).isSome) :
    ∃ rd' seen', evs.foldl (readEvent files) (rd, seen, msgs, true) =
      (rd', seen', msgs ++ (firstPerId seen evs).filterMap
        (fun e => if e.type = .updated then (files.find e.id).map (fun c => (c, e.ts)) else none),
        true) ∧ AllOpen rd' := by
  induction evs generalizing rd seen msgs with
  | nil => exact ⟨rd, seen, by simp [firstPerId], hk⟩
  | cons e evs ih =>
    by_cases hs : e.id ∈ seen
    · have e1 : readEvent files (rd, seen, msgs, true) e = (rd, seen, msgs, true) := by
        simp [readEvent, hs]
      have e2 : firstPerId seen (e :: evs) = firstPerId seen evs := by simp [firstPerId, hs]
      rw [List.foldl_cons, e1, e2]
      rw [e2] at ho
      exact ih rd seen msgs hk ho
    · have e2 : firstPerId seen (e :: evs) = e :: firstPerId (e.id :: seen) evs := by
        simp [firstPerId, hs]
      rw [e2] at ho ⊢
      have ho' : ∀ x ∈ firstPerId (e.id :: seen) evs, x.type ≠ .removed → (files.find x.id).isSome :=
        fun x hx => ho x (by simp [hx])
      have hopen := ho e (by simp)
      have hset : AllOpen { rd with known := rd.known.set e.id true } := by
        intro id
        simp only [AMap.find_set]
        split
        · simp
        · exact hk id
      have herase : ∀ r : Reader, (r.known = rd.known ∨ r.known = rd.known.set e.id false) →
          AllOpen { r with known := r.known.erase e.id } := by
        intro r hr id
        simp only [AMap.find_erase]
        split
        · simp
        · next hne =>
          rcases hr with hr | hr
          · rw [hr]; exact hk id
          · rw [hr, AMap.find_set_ne _ _ _ _ hne]; exact hk id
      -- the state after this event
      have hstep : ∃ rd1, readEvent files (rd, seen, msgs, true) e =
          (rd1, e.id :: seen, msgs ++ (if e.type = .updated then
            (files.find e.id).map (fun c => (c, e.ts)) else none).toList, true) ∧ AllOpen rd1 := by
        cases hty : e.type with
        | removed =>
          by_cases hn : (rd.known.find e.id).isNone
          · exact ⟨_, by simp [readEvent, hs, hty, hn], herase { rd with known := rd.known.set e.id false } (Or.inr rfl)⟩
          · exact ⟨_, by simp [readEvent, hs, hty, hn], herase rd (Or.inl rfl)⟩
        | updated =>
          obtain ⟨c, hc⟩ := Option.isSome_iff_exists.1 (hopen (by simp [hty]))
          by_cases hn : (rd.known.find e.id).isNone
          · refine ⟨{ rd with known := (rd.known.set e.id false).set e.id true }, by simp [readEvent, hs, hty, hn, hc], ?_⟩
            intro id; simp only [AMap.find_set]; split
            · simp
            · exact hk id
          · have : rd.known.find e.id = some true := by
              cases hf : rd.known.find e.id with
              | none => simp [hf] at hn
              | some b => cases b with
                | true => rfl
                | false => exact absurd hf (hk e.id)
            exact ⟨rd, by simp [readEvent, hs, hty, hc, this], hk⟩
        | created =>
          have hc := hopen (by simp [hty])
          by_cases hn : (rd.known.find e.id).isNone
          · refine ⟨{ rd with known := (rd.known.set e.id false).set e.id true }, by simp [readEvent, hs, hty, hn, hc], ?_⟩
            intro id; simp only [AMap.find_set]; split
            · simp
            · exact hk id
          · exact ⟨rd, by simp [readEvent, hs, hty, hn], hk⟩
        | invalid =>
          have hc := hopen (by simp [hty])
          by_cases hn : (rd.known.find e.id).isNone
          · refine ⟨{ rd with known := (rd.known.set e.id false).set e.id true }, by simp [readEvent, hs, hty, hn, hc], ?_⟩
            intro id; simp only [AMap.find_set]; split
            · simp
            · exact hk id
          · exact ⟨rd, by simp [readEvent, hs, hty, hn], hk⟩
      obtain ⟨rd1, h1, h2⟩ := hstep
      obtain ⟨rd', seen', h3, h4⟩ := ih rd1 (e.id :: seen) _ h2 ho'
      refine ⟨rd', seen', ?_, h4⟩
      rw [List.foldl_cons, h1, h3]
      simp only [List.filterMap_cons, List.append_assoc]
      congr 3
      cases (if e.type = EvType.updated then (files.find e.id).map (fun c => (c, e.ts)) else none)
        <;> rfl

end Ecal.Bcast
