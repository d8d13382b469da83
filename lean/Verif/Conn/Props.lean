import Verif.Conn.Lemmas

/-!
# Properties C13, C14: connection notifications

C13 is about publishers (`CDataWriter`), C14 about subscribers (`CDataReader`); the two
classes have the same code for this part (see the citations in the model), hence the same
theorems.
-/

namespace Ecal.Conn

open ExpMap (lookup)

/-- Example peers. -/
def pA : Peer := ⟨"host1", 10, "100"⟩
def pB : Peer := ⟨"host2", 20, "200"⟩

/-! ### helper: the map after a history -/

theorem run_nodup (h : List (Int × Op)) (s s' : State) (evs : List Ev)
    (h0 : s.map.map.keys.Nodup) (hr : run s h = some (s', evs)) : s'.map.map.keys.Nodup := by
  induction h generalizing s evs with
  | nil => cases hr; exact h0
  | cons x h ih =>
    simp only [run, Option.bind_eq_some_iff, Option.map_eq_some_iff] at hr
    obtain ⟨r, h1, r2, h2, h3⟩ := hr
    cases h3
    refine ih r.1 r2.2 ?_ h2
    obtain ⟨now, op⟩ := x
    cases op with
    | apply p =>
      simp only [step, applyPeer, Option.map_eq_some_iff] at h1
      obtain ⟨m, he, hm⟩ := h1
      cases hm
      simp only
      unfold ExpMap.assign ExpMap.access at he
      cases hf : s.map.map.find p with
      | none =>
        simp only [hf, ExpMap.insertRaw] at he
        split at he
        · cases he
        · simp only [Option.some.injEq] at he
          rw [← he]
          exact AMap.nodup_set (AMap.nodup_set h0 _ _) _ _
      | some w =>
        obtain ⟨u, id⟩ := w
        simp only [hf, ExpMap.updateTimestamp] at he
        split at he
        · cases he
        · next hx =>
          split at hx
          · cases hx
          · next hy =>
            split at hy
            · cases hy
            · cases hy; cases hx
              simp only at he
              split at he
              · cases he
              · cases he
                exact AMap.nodup_set h0 _ _
    | remove p =>
      simp only [step, removePeer, Option.map_eq_some_iff] at h1
      obtain ⟨m, he, hm⟩ := h1
      cases hm
      simp only
      unfold ExpMap.erase at he
      split at he
      · cases he; exact h0
      · split at he
        · cases he; exact AMap.nodup_erase h0 _
        · cases he
    | check =>
      simp only [step, Option.some.injEq, check] at h1
      have : ∀ (ns : List (ExpMap.Node Peer)) (l : Int) (m : AMap Peer (Unit × Nat)),
          m.keys.Nodup → (ExpMap.eraseExpiredLoop (V := Unit) l ns m).2.1.keys.Nodup := by
        intro ns
        induction ns with
        | nil => intro l m hm; exact hm
        | cons n ns ih =>
          intro l m hm
          simp only [ExpMap.eraseExpiredLoop]
          split
          · exact ih l _ (AMap.nodup_erase hm _)
          · exact hm
      split at h1 <;> cases h1 <;> exact this _ _ _ h0

theorem present_iff_alive (timeout t0 now : Int) (h : List (Int × Op))
    (hm : Monotone t0 (h ++ [(now, .check)])) :
    ∃ s evs, run (init timeout) (h ++ [(now, .check)]) = some (s, evs) ∧
      ∀ p, p ∈ s.map.map.keys ↔ Alive timeout now h p := by
  have hmm := toMapHist_mono t0 _ hm
  have hnr := toMapHist_noReinsert timeout (h ++ [(now, .check)]) (fun _ => none)
  obtain ⟨m, l, h1, _, _, hr⟩ :=
    (ExpMap.Rel.init (K := Peer) (V := Unit) timeout t0).run () _ hmm hnr
  have hrm := run_map (init timeout) (h ++ [(now, .check)])
  rw [show (init timeout).map = ExpMap.init Peer Unit timeout from rfl, h1] at hrm
  obtain ⟨r, hr1, hr2⟩ := Option.map_eq_some_iff.1 hrm
  refine ⟨r.1, r.2, hr1, ?_⟩
  intro p
  have hl := hr.lookup p
  rw [← AMap.find_isSome_iff, hr2]
  have hlook : (m.map.find p).isSome = (lookup m p).isSome := by simp [lookup]
  rw [hlook, hl, Option.isSome_map]
  have happ : ∀ (a b : List (Int × ExpMap.Op Peer Unit)) (tb : ExpMap.Table Peer Unit),
      ExpMap.specRun timeout () tb (a ++ b)
        = ExpMap.specRun timeout () (ExpMap.specRun timeout () tb a) b := by
    intro a; induction a with
    | nil => intro b tb; rfl
    | cons p a ih => intro b tb; exact ih b _
  rw [show (ExpMap.init Peer Unit timeout).timeout = timeout from rfl, toMapHist_append, happ]
  obtain ⟨hm1, hm2⟩ := hm.append
  obtain ⟨k1, k2⟩ := spec_lastSeen timeout t0 h hm1 p
  rw [show toMapHist [(now, Op.check)] = [(now, .eraseExpired)] from rfl]
  simp only [ExpMap.specRun, ExpMap.specStep]
  have hnow := hm2.1
  unfold Alive
  cases ht : ExpMap.specRun timeout () (fun _ => none) (toMapHist h) p with
  | none =>
    simp only [Option.isSome_none, Bool.false_eq_true, false_iff]
    rintro ⟨r, ha, hb⟩
    rcases k2 ht with hn | ⟨r', ha', hb'⟩
    · rw [hn] at ha; cases ha
    · rw [ha'] at ha; cases ha; omega
  | some w =>
    obtain ⟨u, r⟩ := w
    have hs := k1 r ht
    simp only
    rw [hs]
    constructor
    · intro hx
      refine ⟨r, rfl, ?_⟩
      split at hx
      · cases hx
      · omega
    · rintro ⟨r', ha, hb⟩
      cases ha
      rw [if_neg (by omega)]; rfl

/-! ## The properties -/

/-- **C13, alternation (calls not interleaved).** For every history of registrations,
unregistrations and expiry checks the notifications 'connected' and 'disconnected'
alternate, starting with 'connected'.  Missing for the full claim: interleaved execution,
see `C13_violated_order_by_race`. -/
theorem C13_alternates_partial (timeout : Int) (h : List (Int × Op)) (s : State) (evs : List Ev)
    (hr : run (init timeout) h = some (s, evs)) : Alternates false evs :=
  (run_evs h _ s evs hr).1

/-- **C13, the last notification tells the truth (calls not interleaved).** After a
registration cycle at time `now` (`check`) the last notification is 'connected' iff some
peer is alive: registered, not unregistered since, and seen within the timeout. -/
theorem C13_last_tells_alive_partial (timeout t0 now : Int) (h : List (Int × Op))
    (hm : Monotone t0 (h ++ [(now, .check)])) :
    ∃ s evs, run (init timeout) (h ++ [(now, .check)]) = some (s, evs) ∧
      (lastIsConnected evs = true ↔ ∃ p, Alive timeout now h p) := by
  obtain ⟨s, evs, hr, hp⟩ := present_iff_alive timeout t0 now h hm
  refine ⟨s, evs, hr, ?_⟩
  have hflag := (run_evs _ _ s evs hr).2
  have : lastIsConnected evs = s.connected := hflag.symm
  rw [this]
  have hne := run_nonempty _ _ s evs (by simp [init, ExpMap.init]) hr
  -- connected after the check only if not empty
  have hconn : s.connected = true → s.map.map ≠ [] := by
    rw [run_append] at hr
    simp only [Option.bind_eq_some_iff, Option.map_eq_some_iff] at hr
    obtain ⟨r, _, r2, h2, h3⟩ := hr
    simp only [run, step, Option.bind_some, Option.map_some, Option.some.injEq] at h2
    cases h3
    cases h2
    simp only [check]
    split
    · simp
    · next hc =>
      simp only [Bool.and_eq_true, List.isEmpty_iff, not_and] at hc
      intro hcc hnil
      exact hc hnil hcc
  constructor
  · intro hc
    have := hconn hc
    cases hk : s.map.map with
    | nil => exact absurd hk this
    | cons w l =>
      refine ⟨w.1, (hp w.1).1 ?_⟩
      rw [hk]; simp [AMap.keys]
  · rintro ⟨p, hpa⟩
    apply hne
    intro hnil
    have := (hp p).2 hpa
    rw [hnil] at this
    simp [AMap.keys] at this

/-- A 'connected' notification is never missing: whenever the map holds a peer, the last
notification is 'connected' (at every point of a non-interleaved history). -/
theorem C13_peer_implies_connected_partial (timeout : Int) (h : List (Int × Op)) (s : State)
    (evs : List Ev) (hr : run (init timeout) h = some (s, evs)) (hc : count s ≠ 0) :
    lastIsConnected evs = true := by
  have h1 := (run_evs h _ s evs hr).2
  have h2 := run_nonempty h _ s evs (by simp [init, ExpMap.init]) hr
    (by intro hn; apply hc; simp [count, hn])
  rw [← h2]; exact h1.symm

example : ∃ s, run (init 5) [(0, .apply pA), (1, .apply pB), (2, .remove pA), (7, .check), (8, .check)]
    = some (s, [.connected "100", .update "100", .update "200", .disconnected]) := ⟨_, rfl⟩

example : Monotone 0 ([(0, .apply pA), (1, .apply pB), (2, .remove pA)] ++ [(6, .check)]) ∧
    Alive 5 6 [(0, .apply pA), (1, .apply pB), (2, .remove pA)] pB := by
  refine ⟨by simp [Monotone], 1, by decide, by decide⟩

/-- **C13 violated (stale 'disconnected').** The receiver thread notifies 'connected'
before it enters the peer into the map.  A registration cycle in between finds the map
empty and notifies 'disconnected'; the peer is there, but the application was told it is
gone. -/
theorem C13_violated_disconnected_with_peer :
    (mrun (minit 5)
      [.load 0 pA, .store 0, .fire 0, .chkLock 1, .chkLoad, .chkStore, .chkFire, .insert 0 2]).map
      (fun r => (r.2, count r.1.st)) =
      some ([.connected "100", .update "100", .disconnected], 1) := by
  decide +kernel

/-- **C13 violated (order).** Already one receiver thread and the registration thread can
produce 'disconnected' before the first 'connected', and 'connected' twice in a row. -/
theorem C13_violated_order_by_race :
    (mrun (minit 5)
      [.load 0 pA, .store 0, .chkLock 1, .chkLoad, .chkStore, .chkFire, .fire 0, .insert 0 2,
       .load 0 pA, .store 0, .fire 0, .insert 0 3]).map (·.2) =
      some [.disconnected, .connected "100", .update "100", .connected "100", .update "100"] := by
  decide +kernel

/-- The interleaved model contains the non-interleaved calls: an undisturbed
`ApplySubscription` gives exactly the atomic step. -/
theorem C13_interleaved_contains_atomic (s : State) (now : Int) (p : Peer) :
    (mrun { st := s, app := fun _ => .idle, chk := .idle }
        (if s.connected then [.load 0 p, .store 0, .insert 0 now]
         else [.load 0 p, .store 0, .fire 0, .insert 0 now])).map (fun r => (r.1.st, r.2))
      = applyPeer s now p := by
  have e : ∀ (b : Bool) (o : Option (ExpMap.State Peer Unit)) (f : ExpMap.State Peer Unit → MState × List Ev)
      (g : ExpMap.State Peer Unit → State × List Ev),
      (∀ m, ((f m).1.st, (f m).2) = g m) →
      (o.map f).map (fun r => (r.1.st, r.2)) = o.map g := by
    intro b o f g h
    cases o <;> simp [h]
  cases hc : s.connected
  · simp only [Bool.false_eq_true, if_false]
    simp only [mrun, mstep, hc, setPc, if_true, Option.bind_some, List.nil_append]
    cases ha : ExpMap.assign s.map now () p () <;>
      simp [applyPeer, ha, hc, fireConnect]
  · simp only [if_true]
    simp only [mrun, mstep, hc, setPc, if_true, Option.bind_some, List.nil_append]
    cases ha : ExpMap.assign s.map now () p () <;>
      simp [applyPeer, ha, hc, fireConnect]

/-- The same for `CheckConnections`: undisturbed it removes the peers that have expired and tells the
application if none is left, exactly as the atomic step. -/
theorem C13_interleaved_contains_check (s : State) (now : Int) :
    (mrun { st := s, app := fun _ => .idle, chk := .idle }
        (if (ExpMap.eraseExpired s.map now).1.map.isEmpty then
          (if s.connected then [.chkLock now, .chkLoad, .chkStore, .chkFire] else [.chkLock now, .chkLoad])
         else [.chkLock now])).map (fun r => (r.1.st, r.1.chk, r.2))
      = some ((check s now).1, .idle, (check s now).2) := by
  cases he : (ExpMap.eraseExpired s.map now).1.map.isEmpty <;> cases hc : s.connected <;>
    simp [mrun, mstep, check, he, hc]

/-! ## C14: the same for subscribers -/

/-- **C14, alternation (calls not interleaved)**, see `C13_alternates_partial`. -/
theorem C14_alternates_partial (timeout : Int) (h : List (Int × Op)) (s : State) (evs : List Ev)
    (hr : run (init timeout) h = some (s, evs)) : Alternates false evs :=
  C13_alternates_partial timeout h s evs hr

/-- **C14, the last notification tells whether a publisher is alive (calls not
interleaved)**, see `C13_last_tells_alive_partial`. -/
theorem C14_last_tells_alive_partial (timeout t0 now : Int) (h : List (Int × Op))
    (hm : Monotone t0 (h ++ [(now, .check)])) :
    ∃ s evs, run (init timeout) (h ++ [(now, .check)]) = some (s, evs) ∧
      (lastIsConnected evs = true ↔ ∃ p, Alive timeout now h p) :=
  C13_last_tells_alive_partial timeout t0 now h hm

/-- **C14 violated**, see `C13_violated_disconnected_with_peer`. -/
theorem C14_violated_disconnected_with_peer :
    (mrun (minit 5)
      [.load 0 pA, .store 0, .fire 0, .chkLock 1, .chkLoad, .chkStore, .chkFire, .insert 0 2]).map
      (fun r => (r.2, count r.1.st)) =
      some ([.connected "100", .update "100", .disconnected], 1) :=
  C13_violated_disconnected_with_peer

/-! ## C17 (part): the peers counted by one publisher or subscriber -/

/-- **C17 (one entity).** After a registration cycle at time `now` the number of peers
reported is the number of peers alive: there is a duplicate-free list of exactly the alive
peers whose length is the reported count. -/
theorem C17_count_is_alive_peers (timeout t0 now : Int) (h : List (Int × Op))
    (hm : Monotone t0 (h ++ [(now, .check)])) :
    ∃ s evs, run (init timeout) (h ++ [(now, .check)]) = some (s, evs) ∧
      ∃ l : List Peer, l.Nodup ∧ (∀ p, p ∈ l ↔ Alive timeout now h p) ∧ count s = l.length := by
  obtain ⟨s, evs, hr, hp⟩ := present_iff_alive timeout t0 now h hm
  refine ⟨s, evs, hr, s.map.map.keys, ?_, hp, by simp [count, AMap.keys]⟩
  exact run_nodup _ _ s evs (by simp [init, ExpMap.init, AMap.keys]) hr

end Ecal.Conn
