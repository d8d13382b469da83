import Verif.Life.ObjectsLemmas

/-!
# Properties of API objects across initialising and finalising (C110)
-/

namespace Ecal.Life.Obj

/-- The states a program can reach. -/
def Reachable (w : World) : Prop := ∃ l, run start l = some w

theorem Reachable.inv {w : World} (h : Reachable w) : Inv w := by
  obtain ⟨l, hl⟩ := h
  exact inv_run l start w inv_start hl

/-- An application that initialises everything, creates a publisher on `t` and gets a subscriber for it. -/
def demo : List Label :=
  [.life (.initArgs 0x3f), .create .pub 0 ['t'], .peer .pub ['t'] 7]

example : ∃ w, run start demo = some w ∧ Reachable w ∧ send w 0 5 = some (5, true) ∧ announced w .pub = some [['t']] :=
  ⟨_, rfl, ⟨demo, rfl⟩, by decide, by decide⟩

/-- C110: whatever the application does with its objects - creating, destroying, moving, using them in any order, with any
number of initialisations and finalisations in between - the gates never use a pointer to something that was freed.  The only
undefined behaviour is creating a publisher or subscriber while that component is not initialised, and initialising with an
old configuration object after the last finalisation. -/
theorem C110_no_dangling_pointer_partial (w : World) (h : Reachable w) (a : Label) (hs : step w a = none) :
    (∃ k o n, a = .create k o n ∧ (k = .pub ∨ k = .sub) ∧ up w k = false) ∨
    (∃ comps, a = .life (.initCfg comps) ∧ w.life.ctx = none) := by
  have hi := h.inv
  cases a with
  | life c =>
    right
    simp only [Obj.step, lifeStep] at hs
    cases hl : Life.step w.life c with
    | none =>
      cases c with
      | newConfig => simp [Life.step] at hl
      | finalize => simp [Life.step] at hl
      | initCfg comps =>
        refine ⟨comps, rfl, ?_⟩
        simp only [Life.step, Life.initCfg] at hl
        cases hc : w.life.ctx with
        | none => rfl
        | some c => simp [hc] at hl
      | initArgs comps =>
        simp only [Life.step, Life.initArgs, Life.initCfg, Life.newConfig] at hl
        cases hc : w.life.ctx with
        | none => simp [hc] at hl
        | some c => simp [hc] at hl
      | utilGetMonitoring =>
        simp only [Life.step, Life.utilGetMonitoring] at hl
        split at hl
        · simp at hl
        · simp only [Life.initArgs, Life.initCfg, Life.newConfig] at hl
          cases hc : w.life.ctx with
          | none => simp [hc] at hl
          | some c => simp [hc] at hl
    | some st =>
      rw [hl] at hs
      cases c with
      | finalize =>
        obtain ⟨w1, e1, -⟩ := finalizeAll_eq w hi
        by_cases hf : finalizes w.life = true
        · rw [if_pos hf, e1] at hs; simp at hs
        · rw [if_neg hf] at hs; simp at hs
      | _ => simp at hs
  | create k o n =>
    left
    simp only [Obj.step, Option.map_eq_none_iff, create] at hs
    split at hs
    · simp at hs
    split at hs
    · simp at hs
    split at hs
    · next h3 =>
      refine ⟨k, o, n, rfl, ?_, h3.2⟩
      revert h3; cases k <;> simp [Kind.topic]
    · simp at hs
  | destroy k o =>
    obtain ⟨w', b, e, -⟩ := destroy_leaves_blank w hi k o
    simp only [Obj.step, e] at hs
    simp at hs
  | move k d s =>
    simp only [Obj.step, move] at hs
    split at hs
    · simp at hs
    · obtain ⟨w', b, e, -⟩ := destroy_leaves_blank w hi k d
      rw [e] at hs; simp at hs
  | peer k n p =>
    simp only [Obj.step] at hs
    split at hs
    · obtain ⟨w1, b0, -⟩ := applyPeer_eq n p (w.gate k) w (fun i hk => by
        obtain ⟨m, hm, _⟩ := hi.live k i hk; exact ⟨m, hm⟩)
      rw [b0] at hs; simp at hs
    · simp at hs
  | lost k i p =>
    simp only [Obj.step, losePeer] at hs
    split at hs
    · split at hs
      · next hg =>
        obtain ⟨m, hm, -⟩ := hi.live k i hg
        rw [hm] at hs; simp at hs
      · simp at hs
    · simp at hs
  | announce k =>
    obtain ⟨r, hr, -⟩ := announced_eq w hi k
    simp [Obj.step, hr] at hs

/-- The same for the calls that only ask: `Send`, `IsSubscribed`, `IsPublished`, `AddReceiveCallback` never use a freed
object. -/
theorem C110_calls_defined (w : World) (h : Reachable w) (k : Kind) (o len : Nat) :
    (send w o len).isSome ∧ (hasPeers w k o).isSome ∧ (addCallback w o).isSome := by
  have hi := h.inv
  have key : ∀ q p i, (w.objs q p).impl = some i → ∃ m, w.impls i = some m := by
    intro q p i hq
    cases hcr : (w.objs q p).created with
    | false => rw [hi.idle q p hcr] at hq; simp at hq
    | true =>
      obtain ⟨j, m, e1, e2, _⟩ := hi.own q p hcr
      rw [hq] at e1; cases e1; exact ⟨m, e2⟩
  refine ⟨?_, ?_, ?_⟩
  · unfold send
    split
    · rfl
    · next hcr =>
      obtain ⟨i, m, e1, e2, _⟩ := hi.own .pub o (by simpa using hcr)
      rw [e1]; simp only; rw [e2]; simp only; split <;> rfl
  · unfold hasPeers
    cases hq : (w.objs k o).impl with
    | none => rfl
    | some i => obtain ⟨m, hm⟩ := key k o i hq; simp [hm]
  · unfold addCallback
    cases hq : (w.objs .sub o).impl with
    | none => rfl
    | some i => obtain ⟨m, hm⟩ := key .sub o i hq; simp [hm]

/-- C110, violated: creating a publisher while the publisher component is not initialised calls a member function of a null
pointer (`ecal_publisher.cpp` L97). -/
theorem C110_violated_create_uninitialised :
    step start (.create .pub 0 ['t']) = none ∧
    ∃ w, run start [.life (.initArgs 0x04)] = some w ∧ step w (.create .sub 0 ['t']) = none :=
  ⟨by rfl, _, rfl, by rfl⟩

/-- C110: which `Initialize` brings which gate (`ecal_init.h`: Publisher 0x001, Subscriber 0x002, Service 0x004). -/
theorem C110_gates_of_components (comps : Nat) :
    ∃ w, run start [.life (.initArgs comps)] = some w ∧
      (up w .pub = true ↔ comps &&& 0x001 ≠ 0) ∧ (up w .sub = true ↔ comps &&& 0x002 ≠ 0) ∧
      (up w .srv = true ↔ comps &&& 0x004 ≠ 0) ∧ (up w .cli = true ↔ comps &&& 0x004 ≠ 0) := by
  have key : ∀ i, comps.testBit i = true ↔ comps &&& 2 ^ i ≠ 0 := by
    intro i
    constructor
    · intro hb e
      have : (comps &&& 2 ^ i).testBit i = true := by rw [Nat.testBit_and, hb, Nat.testBit_two_pow]; simp
      rw [e, Nat.zero_testBit] at this
      cases this
    · intro hne
      cases hb : comps.testBit i with
      | true => rfl
      | false =>
        refine absurd (Nat.eq_of_testBit_eq fun j => ?_) hne
        rw [Nat.testBit_and, Nat.testBit_two_pow, Nat.zero_testBit]
        by_cases hj : i = j
        · subst hj; simp [hb]
        · simp [hj]
  have hu : ∀ k : Kind, ∀ w : World, (∃ c, w.life.ctx = some c ∧ c.inst = 0 ||| (comps &&& Life.known)) →
      (up w k = true ↔ comps &&& 2 ^ k.bit ≠ 0) := by
    intro k w ⟨c, hc, hi⟩
    unfold up
    rw [hc]
    simp only
    rw [hi, testBit_init, Nat.zero_testBit, Bool.false_or]
    exact key _
  refine ⟨_, rfl, ?_, ?_, ?_, ?_⟩
  · exact hu .pub _ ⟨_, rfl, rfl⟩
  · exact hu .sub _ ⟨_, rfl, rfl⟩
  · exact hu .srv _ ⟨_, rfl, rfl⟩
  · exact hu .cli _ ⟨_, rfl, rfl⟩

/-- C110: an object that is not created sends nothing and has no counterparts. -/
theorem C110_not_created (w : World) (h : Reachable w) (k : Kind) (o len : Nat) (hc : (w.objs k o).created = false) :
    (k = .pub → send w o len = some (0, false)) ∧ hasPeers w k o = some false ∧ (k = .sub → addCallback w o = some false) := by
  have hn := h.inv.idle k o hc
  refine ⟨?_, ?_, ?_⟩
  · rintro rfl; simp [send, hc]
  · simp [hasPeers, hn]
  · rintro rfl; simp [addCallback, hn]

example : ((start).objs .pub 3).created = false := rfl

/-- C110: a counterpart that registers becomes known to exactly the objects that are announced under its name. -/
theorem C110_counterpart_known (w : World) (h : Reachable w) (k : Kind) (n : Name) (p : Nat) :
    ∃ w', step w (.peer k n p) = some w' ∧ ∀ i m, w.impls i = some m → ∃ m', w'.impls i = some m' ∧
      ∀ x, x ∈ m'.peers ↔ x ∈ m.peers ∨ (x = p ∧ i ∈ w.gate k ∧ m.name = n) := by
  have hi := h.inv
  have key : ∀ (l : List Nat) (v : World), l.Nodup → (∀ i ∈ l, ∃ m, v.impls i = some m) →
      ∃ v', applyPeer n p v l = some v' ∧ ∀ i m, v.impls i = some m → ∃ m', v'.impls i = some m' ∧
        ∀ x, x ∈ m'.peers ↔ x ∈ m.peers ∨ (x = p ∧ i ∈ l ∧ m.name = n) := by
    intro l
    induction l with
    | nil => intro v _ _; exact ⟨v, rfl, fun i m hm => ⟨m, hm, by simp⟩⟩
    | cons i l ih =>
      intro v hnd hl
      obtain ⟨m, hm⟩ := hl i (by simp)
      rw [List.nodup_cons] at hnd
      by_cases hnm : m.name = n
      · have hother : ∀ j, j ≠ i →
            (setImpl v i (some { m with peers := if p ∈ m.peers then m.peers else p :: m.peers })).impls j = v.impls j := by
          intro j hj; simp [setImpl, hj]
        obtain ⟨v', e, hv⟩ := ih (setImpl v i (some { m with peers := if p ∈ m.peers then m.peers else p :: m.peers })) hnd.2 (by
          intro j hj
          rw [hother j (by rintro rfl; exact hnd.1 hj)]
          exact hl j (by simp [hj]))
        refine ⟨v', by simp only [applyPeer, hm, if_pos hnm]; exact e, fun j mj hj => ?_⟩
        by_cases hji : j = i
        · subst hji
          rw [hm] at hj; cases hj
          obtain ⟨m', e1, e2⟩ := hv j { m with peers := if p ∈ m.peers then m.peers else p :: m.peers } (by simp [setImpl])
          refine ⟨m', e1, fun x => (e2 x).trans ?_⟩
          simp only
          by_cases hp : p ∈ m.peers
          · simp only [hp, if_true, hnd.1, false_and, and_false, or_false, List.mem_cons, true_or, hnm, and_true]
            constructor
            · exact Or.inl
            · rintro (h | rfl)
              · exact h
              · exact hp
          · simp only [hp, if_false, List.mem_cons, hnd.1, false_and, and_false, or_false, true_or, hnm, and_true]
            exact or_comm
        · obtain ⟨m', e1, e2⟩ := hv j mj (by rw [hother j hji]; exact hj)
          refine ⟨m', e1, fun x => (e2 x).trans ?_⟩
          simp [List.mem_cons, hji]
      · obtain ⟨v', e, hv⟩ := ih v hnd.2 (fun j hj => hl j (by simp [hj]))
        refine ⟨v', by simp only [applyPeer, hm, if_neg hnm]; exact e, fun j mj hj => ?_⟩
        obtain ⟨m', e1, e2⟩ := hv j mj hj
        refine ⟨m', e1, fun x => (e2 x).trans ?_⟩
        by_cases hji : j = i
        · subst hji
          rw [hm] at hj; cases hj
          simp [hnm]
        · simp [List.mem_cons, hji]
  by_cases hu : up w k = true
  · obtain ⟨w', e, hw⟩ := key (w.gate k) w (hi.nodup k) (fun i hk => by
      obtain ⟨m, hm, _⟩ := hi.live k i hk; exact ⟨m, hm⟩)
    exact ⟨w', by simp only [step, hu, if_true]; exact e, hw⟩
  · have hd := hi.down k (by simpa using hu)
    exact ⟨w, by simp [step, hu], fun i m hm => ⟨m, hm, by simp [hd]⟩⟩

/-- C110: a counterpart that is gone is forgotten by the object it was lost for, and by no other; other counterparts stay. -/
theorem C110_counterpart_forgotten (w : World) (h : Reachable w) (k : Kind) (i p : Nat) :
    ∃ w', step w (.lost k i p) = some w' ∧ ∀ j m, w.impls j = some m → ∃ m', w'.impls j = some m' ∧
      ∀ x, x ∈ m'.peers ↔ x ∈ m.peers ∧ ¬ (x = p ∧ j = i ∧ i ∈ w.gate k) := by
  have hi := h.inv
  by_cases hg : i ∈ w.gate k
  · have hu : up w k = true := by
      cases hu : up w k with
      | true => rfl
      | false => rw [hi.down k hu] at hg; simp at hg
    obtain ⟨m, hm, _⟩ := hi.live k i hg
    refine ⟨setImpl w i (some { m with peers := m.peers.filter (· ≠ p) }), by simp [step, hu, losePeer, hg, hm], fun j mj hj => ?_⟩
    by_cases hji : j = i
    · subst hji
      rw [hm] at hj; cases hj
      refine ⟨{ m with peers := m.peers.filter (· ≠ p) }, by simp only [setImpl, if_true], fun x => by simp [hg]⟩
    · exact ⟨mj, by simp only [setImpl]; rw [if_neg hji]; exact hj, fun x => by simp [hji]⟩
  · refine ⟨w, ?_, fun j m hm => ⟨m, hm, by simp [hg]⟩⟩
    simp only [step, losePeer]
    rw [if_neg hg]
    simp

example : ∃ w, run start (demo ++ [.lost .pub 0 7]) = some w ∧ send w 0 5 = some (5, false) := ⟨_, rfl, by decide⟩

/-- C110: exactly the publishers and subscribers that were created and not stopped are announced under their names, and each
once. -/
theorem C110_announced_iff (w : World) (h : Reachable w) (k : Kind) (hk : k = .pub ∨ k = .sub) :
    ∃ r, announced w k = some r ∧ (w.gate k).Nodup ∧
      ∀ n, n ∈ r ↔ ∃ o i m, w.objs k o = ⟨true, some i⟩ ∧ w.impls i = some m ∧ m.run = true ∧ m.name = n := by
  have hi := h.inv
  obtain ⟨r, hr, hmem⟩ := announced_eq w hi k
  refine ⟨r, hr, hi.nodup k, fun n => ?_⟩
  rw [hmem]
  constructor
  · rintro ⟨i, m, h1, h2, h3⟩
    obtain ⟨o, ho⟩ := hi.owned k i h1
    obtain ⟨m', e1, e2, e3⟩ := hi.live k i h1
    rw [h2] at e1; cases e1
    exact ⟨o, i, m, ho, h2, e3, h3⟩
  · rintro ⟨o, i, m, h1, h2, h3, h4⟩
    obtain ⟨i', m', e1, e2, e3⟩ := hi.own k o (by rw [h1])
    rw [h1] at e1; cases e1
    rw [h2] at e2; cases e2
    refine ⟨i, m, ?_, h2, h4⟩
    have := hi.topic i m h2 (by rw [e3]; rcases hk with rfl | rfl <;> rfl) h3
    rw [e3] at this; exact this

example : Reachable start := ⟨[], rfl⟩

/-- C110: an object created while its component is initialised is announced from then on, whatever else happens, until the
application destroys or moves it or finalises the library.  (The full claim has no "or finalises the library": after
`Finalize` and `Initialize` it would be announced again, see `C110_violated_zombie`.) -/
theorem C110_created_announced_partial (w : World) (h : Reachable w) (k : Kind) (o : Nat) (n : Name)
    (hc : (w.objs k o).created = false) (hu : up w k = true) (hn : n ≠ []) :
    ∃ w1, create w k o n = some (w1, true) ∧
      ∀ l w2, (∀ a ∈ l, Spares k o a ∧ a ≠ .life .finalize) → run w1 l = some w2 →
        ∃ r, announced w2 k = some r ∧ n ∈ r := by
  have hi := h.inv
  obtain ⟨w1, e, ho, hg, him, -⟩ := create_eq w hi k o n hc hu hn
  refine ⟨w1, e, fun l w2 hl hr => ?_⟩
  have hi1 := inv_create w hi k o n w1 true e
  obtain ⟨-, a2, a3⟩ := keep_in_run k o w.next l w1 w2 hi1 ho hg hl hr
  obtain ⟨r, hr', hmem⟩ := announced_eq w2 (inv_run l w1 w2 hi1 hr) k
  refine ⟨r, hr', (hmem n).2 ?_⟩
  rw [him] at a3
  cases h0 : w2.impls w.next with
  | none => simp [h0] at a3
  | some m =>
    rw [h0] at a3
    simp only [Option.map_some, Option.some.injEq, core, Prod.mk.injEq] at a3
    exact ⟨_, m, a2, h0, a3.2.1⟩

example : ∃ w, run start [.life (.initArgs 0x3f)] = some w ∧ Reachable w ∧ (w.objs .srv 0).created = false ∧
    up w .srv = true := ⟨_, rfl, ⟨[.life (.initArgs 0x3f)], rfl⟩, by rfl, by decide⟩

/-- C110: after `Destroy()` the object is as new, and what it owned is freed and in no gate. -/
theorem C110_destroyed_is_gone (w : World) (h : Reachable w) (k : Kind) (o i : Nat) (ho : w.objs k o = ⟨true, some i⟩) :
    ∃ w', destroy w k o = some (w', true) ∧ w'.objs k o = {} ∧ w'.impls i = none ∧ ∀ q, i ∉ w'.gate q := by
  have hi := h.inv
  obtain ⟨j, w1, e0, e, hl, hf, hm, hn, hg, hj, hobj⟩ := destroy_eq w hi k o (by rw [ho])
  rw [ho] at e0; cases e0
  have hi1 := inv_destroy w hi k o w1 true e
  have him : w1.impls i = none := by rw [hj, if_pos rfl]
  refine ⟨w1, e, by rw [hobj, if_pos ⟨rfl, rfl⟩], him, fun q hq => ?_⟩
  obtain ⟨m, hm', _⟩ := hi1.live q i hq
  rw [him] at hm'; simp at hm'

/-- C110: `Finalize` stops every publisher and subscriber, and the publishers forget their subscribers. -/
theorem C110_finalize_stops (w : World) (h : Reachable w) (hf : finalizes w.life = true) (k : Kind)
    (hk : k = .pub ∨ k = .sub) (o i : Nat) (ho : w.objs k o = ⟨true, some i⟩) :
    ∃ w' m, step w (.life .finalize) = some w' ∧ w'.objs k o = ⟨true, some i⟩ ∧ w'.impls i = some m ∧ m.run = false ∧
      (k = .pub → m.peers = []) := by
  have hi := h.inv
  obtain ⟨i', m, e1, e2, e3⟩ := hi.own k o (by rw [ho])
  rw [ho] at e1; cases e1
  obtain ⟨w1, e, l1, o1, n1, g1, f1, q1, i1, i2⟩ := finalizeAll_eq w hi
  have hs : step w (.life .finalize) = some { w1 with life := (Life.finalize w.life).1 } := by
    simp only [Obj.step, lifeStep, Life.step]
    rw [if_pos hf, e]
  by_cases hg : i ∈ w.gate k
  · refine ⟨_, stopped m, hs, ?_, ?_, stopped_run m, ?_⟩
    · show w1.objs k o = _; rw [o1]; exact ho
    · show w1.impls i = _; rw [i1 i ⟨k, hg⟩, e2]; rfl
    · rintro rfl
      obtain ⟨m', a1, a2, a3⟩ := hi.live .pub i hg
      rw [e2] at a1; cases a1
      unfold stopped; rw [if_pos a3, if_neg (by rw [a2]; decide)]
  · have hng := notHeld w hi k o i ho hg
    have hr : m.run = false := by
      cases hr : m.run
      · rfl
      · exact absurd ⟨_, hi.topic i m e2 (by rw [e3]; rcases hk with rfl | rfl <;> rfl) hr⟩ hng
    refine ⟨_, m, hs, ?_, ?_, hr, fun hkp => hi.quiet i m e2 (by rw [e3]; exact hkp) hr⟩
    · show w1.objs k o = _; rw [o1]; exact ho
    · show w1.impls i = _; rw [i2 i hng]; exact e2

/-- C110: `Finalize` also stops every server and client that is in its gate. -/
theorem C110_finalize_stops_registered (w : World) (h : Reachable w) (hf : finalizes w.life = true) (k : Kind) (i : Nat)
    (hg : i ∈ w.gate k) :
    ∃ w' m, step w (.life .finalize) = some w' ∧ w'.impls i = some m ∧ m.run = false ∧ ∀ q, w'.gate q = [] := by
  have hi := h.inv
  obtain ⟨m, e2, -⟩ := hi.live k i hg
  obtain ⟨w1, e, l1, o1, n1, g1, f1, q1, i1, i2⟩ := finalizeAll_eq w hi
  refine ⟨{ w1 with life := (Life.finalize w.life).1 }, stopped m, ?_, ?_, stopped_run m, q1⟩
  · simp only [Obj.step, lifeStep, Life.step]
    rw [if_pos hf, e]
  · show w1.impls i = _; rw [i1 i ⟨k, hg⟩, e2]; rfl

example : ∃ w, run start [.life (.initArgs 0x3f), .create .cli 0 ['s']] = some w ∧ finalizes w.life = true ∧
    0 ∈ w.gate .cli := ⟨_, rfl, by decide, by decide⟩

/-- C110: a publisher whose writer was stopped by `Finalize` stays dead for ever: whatever happens later - initialising again,
new subscribers - `Send` returns the number of bytes as if everything were fine, nothing is sent, `Create` fails, no
subscriber is ever seen and nothing is announced for it; until the application destroys (or moves) it. -/
theorem C110_stopped_publisher_stays_dead (w : World) (h : Reachable w) (o i : Nat) (m : Impl)
    (ho : w.objs .pub o = ⟨true, some i⟩) (hm : w.impls i = some m) (hr : m.run = false)
    (l : List Label) (w' : World) (hl : ∀ a ∈ l, Spares .pub o a) (hrun : run w l = some w') :
    (∀ len, send w' o len = some (len, false)) ∧ (∀ n, create w' .pub o n = some (w', false)) ∧
      hasPeers w' .pub o = some false ∧ i ∉ w'.gate .pub := by
  have hi := h.inv
  have hng : i ∉ w.gate .pub := by
    intro hg; obtain ⟨m', a1, a2, a3⟩ := hi.live _ i hg
    rw [hm] at a1; cases a1; rw [hr] at a3; simp at a3
  obtain ⟨i', m', e1, e2, e3⟩ := hi.own .pub o (by rw [ho])
  rw [ho] at e1; cases e1
  rw [hm] at e2; cases e2
  have hp := hi.quiet i m hm e3 hr
  obtain ⟨a1, a2, a3⟩ := keep_out_run .pub o i l w w' hi ho hng hl hrun
  refine ⟨fun len => ?_, fun n => ?_, ?_, a2⟩
  · unfold send; rw [a1]; simp [a3, hm, hp]
  · unfold create; rw [a1]; simp
  · unfold hasPeers; rw [a1]; simp [a3, hm, hp]

/-- C110: a subscriber whose reader was stopped by `Finalize` keeps reporting for ever that its topic is published if it was
then, cannot get a receive callback any more, and is not announced. -/
theorem C110_stopped_subscriber_keeps_publishers (w : World) (h : Reachable w) (o i : Nat) (m : Impl)
    (ho : w.objs .sub o = ⟨true, some i⟩) (hm : w.impls i = some m) (hr : m.run = false)
    (l : List Label) (w' : World) (hl : ∀ a ∈ l, Spares .sub o a) (hrun : run w l = some w') :
    hasPeers w' .sub o = some (decide (m.peers ≠ [])) ∧ addCallback w' o = some false ∧
      (∀ n, create w' .sub o n = some (w', false)) ∧ i ∉ w'.gate .sub := by
  have hi := h.inv
  have hng : i ∉ w.gate .sub := by
    intro hg; obtain ⟨m', a1, a2, a3⟩ := hi.live _ i hg
    rw [hm] at a1; cases a1; rw [hr] at a3; simp at a3
  obtain ⟨a1, a2, a3⟩ := keep_out_run .sub o i l w w' hi ho hng hl hrun
  refine ⟨?_, ?_, fun n => ?_, a2⟩
  · unfold hasPeers; rw [a1]; simp [a3, hm]
  · unfold addCallback; rw [a1]; simp [a3, hm, hr]
  · unfold create; rw [a1]; simp

/-- C110, violated: a publisher that is kept over `Finalize` and `Initialize` is not announced any more, `Create` refuses to
set it up again, and `Send` still reports success. -/
theorem C110_violated_zombie :
    ∃ w, run start (demo ++ [.life .finalize, .life (.initArgs 0x3f), .peer .pub ['t'] 7]) = some w ∧ up w .pub = true ∧
      announced w .pub = some [] ∧ (create w .pub 0 ['t']).map (·.2) = some false ∧ send w 0 5 = some (5, false) :=
  ⟨_, rfl, by decide, by decide, by rfl, by decide⟩

/-- C110, violated: a subscriber that is kept over `Finalize` reports a publisher although nothing is initialised. -/
theorem C110_violated_stale_publisher :
    ∃ w, run start [.life (.initArgs 0x3f), .create .sub 0 ['t'], .peer .sub ['t'] 7, .life .finalize] = some w ∧
      w.life.ctx = none ∧ hasPeers w .sub 0 = some true :=
  ⟨_, rfl, by rfl, by decide⟩

/-- C110, violated: a server that is created before the library is initialised is never announced (`Create` returns true). -/
theorem C110_violated_server_before_init :
    ∃ w w', create start .srv 0 ['s'] = some (w, true) ∧ run w [.life (.initArgs 0x3f)] = some w' ∧
      up w' .srv = true ∧ announced w' .srv = some [] ∧ (w'.impls 0).map (·.run) = some true :=
  ⟨_, _, rfl, rfl, by decide, by decide, by rfl⟩

/-- C110, violated: `Create` of a server returns true although the server was not started, if the service component was not
initialised again after a `Finalize`. -/
theorem C110_violated_dead_server_created :
    ∃ w w', run start [.life (.initArgs 0x3f), .life .finalize, .life (.initArgs 0x03)] = some w ∧
      create w .srv 0 ['s'] = some (w', true) ∧ (w'.impls 0).map (·.run) = some false :=
  ⟨_, _, rfl, rfl, by rfl⟩

example : ∃ w m, run start (demo ++ [.life .finalize]) = some w ∧ w.objs .pub 0 = ⟨true, some 0⟩ ∧ w.impls 0 = some m ∧
    m.run = false := ⟨_, _, rfl, by rfl, rfl, by rfl⟩

/-- C110: in every state with the component initialised, `Destroy()` and `Create()` bring an object (back) to life. -/
theorem C110_destroy_create_revives (w : World) (h : Reachable w) (k : Kind) (o : Nat) (n : Name) (hu : up w k = true)
    (hn : n ≠ []) :
    ∃ w1 b w2 r i, destroy w k o = some (w1, b) ∧ create w1 k o n = some (w2, true) ∧ announced w2 k = some r ∧ n ∈ r ∧
      w2.objs k o = ⟨true, some i⟩ ∧ w2.impls i = some ⟨k, n, true, []⟩ := by
  have hi := h.inv
  obtain ⟨w1, b, e, hb⟩ := destroy_leaves_blank w hi k o
  have hi1 := inv_destroy w hi k o w1 b e
  have hl : w1.life = w.life := by
    by_cases hc : (w.objs k o).created = true
    · obtain ⟨j, w2, e0, e2, hl, -⟩ := destroy_eq w hi k o hc
      rw [e] at e2
      simp only [Option.some.injEq, Prod.mk.injEq] at e2
      rw [e2.1]; exact hl
    · unfold destroy at e
      rw [if_pos (by simpa using hc)] at e
      cases e; rfl
  have hu1 : up w1 k = true := by unfold up at hu ⊢; rw [hl]; exact hu
  obtain ⟨w2, e2, ho, hg, him, -⟩ := create_eq w1 hi1 k o n (by rw [hb]) hu1 hn
  obtain ⟨r, hr, hmem⟩ := announced_eq w2 (inv_create w1 hi1 k o n w2 true e2) k
  exact ⟨w1, b, w2, r, _, e, e2, hr, (hmem n).2 ⟨_, _, hg, him, rfl⟩, ho, him⟩

/-- **Moving**: a publisher or subscriber moved to another object is afterwards what the other was, and is itself as if never
created; the implementation it refers to is untouched.  Servers and clients are not moved by a move. -/
theorem C110_move_transfers (w : World) (h : Reachable w) (k : Kind) (dst src : Nat) (hne : dst ≠ src) :
    ∃ w', move w k dst src = some w' ∧
      ((k = .pub ∨ k = .sub) → w'.objs k dst = w.objs k src ∧ w'.objs k src = {} ∧
        ∀ i, (w.objs k src).impl = some i → w'.impls i = w.impls i) ∧
      ((k = .srv ∨ k = .cli) → w' = w) := by
  have hi : Inv w := h.inv
  by_cases hk : k.topic = false
  · refine ⟨w, by unfold move; rw [if_pos hk], ?_, fun _ => rfl⟩
    rintro (rfl | rfl) <;> simp [Kind.topic] at hk
  · have hk' : ¬ (k = .srv ∨ k = .cli) := by rintro (rfl | rfl) <;> simp [Kind.topic] at hk
    by_cases hc : (w.objs k dst).created = true
    · obtain ⟨i, w1, e0, e, hl, hf, hm, hn, hg, hj, ho⟩ := destroy_eq w hi k dst hc
      refine ⟨_, by unfold move; rw [if_neg hk, e], fun _ => ⟨?_, ?_, ?_⟩, fun x => absurd x hk'⟩
      · simp [setObj, ho, hne, Ne.symm hne]
      · simp [setObj]
      · intro j hs
        have : j ≠ i := by
          rintro rfl
          exact hne (hi.uniq k dst k src j e0 hs).2
        simp [setObj, hj, this]
    · have e : destroy w k dst = some (w, false) := by unfold destroy; rw [if_pos (by simpa using hc)]
      refine ⟨_, by unfold move; rw [if_neg hk, e], fun _ => ⟨?_, ?_, ?_⟩, fun x => absurd x hk'⟩
      · simp [setObj, hne]
      · simp [setObj]
      · intro j _; simp [setObj]

end Ecal.Life.Obj
