import Verif.Sync.ApiLocks
import Verif.Sync.LocksLemmas

/-! # C81: calls of the library from its callbacks do not deadlock -/

namespace Ecal.Sync.ApiLocks
open Ecal.Sync.Locks

/-! ## Which calls are safe in which callback -/

/-- The callbacks of publishers and subscribers. -/
inductive Ctx where
  | receive
  | dropped
  /-- connected and update events of a subscriber -/
  | subConnected
  | subDisconnected
  /-- connected and update events of a publisher -/
  | pubConnected
  | pubDisconnected
deriving DecidableEq, Repr

/-- The calls a callback may make: a receive callback may do everything with publishers, may receive, ask for the
connections and set event callbacks; an event callback of a subscriber may do everything with publishers and may
receive; an event callback of a publisher may only receive. -/
def allowed : Ctx → Op → Bool
  | _, .receive _ => true
  | .receive, .setSubEvent _ => true
  | .receive, .subCount _ => true
  | .pubConnected, _ => false
  | .pubDisconnected, _ => false
  | _, .pubCreate => true
  | _, .pubDestroy _ => true
  | _, .setPubEvent _ => true
  | _, .send _ _ => true
  | _, .pubCount _ => true
  | _, _ => false

/-- All calls of a callback satisfy a test. -/
def okOps (a : Ctx → Op → Bool) (c : Ctx) (ops : List Op) : Bool := ops.all (a c)

def okEv (a : Ctx → Op → Bool) (c : Ctx) : Option (List Op) → Bool
  | none => true
  | some ops => okOps a c ops

/-- All callbacks of a thread make only calls that pass the test; the calls of user threads are free. -/
def keeps (a : Ctx → Op → Bool) : Work → Bool
  | .user _ => true
  | .sample ds => ds.all (fun d => okEv a .dropped d.dropped && okEv a .receive d.recv)
  | .regPub ps => ps.all (fun p => okEv a .subConnected p.connected && okEv a .subConnected p.update)
  | .unregPub _ => true
  | .regSub ps => ps.all (fun p => okEv a .pubConnected p.connected && okEv a .pubConnected p.update)
  | .unregSub _ => true
  | .cycle rs ws => rs.all (fun r => okEv a .subDisconnected r.2) && ws.all (fun w => okEv a .pubDisconnected w.2)

/-! ## The order of the locks -/

def rank : Lk → Nat
  | .applier => 0
  | .subGate => 1
  | .rCb _ => 2
  | .rMap _ => 3
  | .rEv _ => 4
  | .pubGate => 5
  | .wMap _ => 6
  | .wEv _ => 7
  | .wFreq _ => 8
  | .tcpMap => 9
  | .pool => 10
  | .regList => 11
  | .rFreq _ => 12
  | .rBuf _ => 13

/-- Without `Finalize`: the lock of the receive callback comes first. -/
def rank' : Lk → Nat
  | .rCb _ => 0
  | .applier => 1
  | .subGate => 2
  | l => rank l

/-- Actions that keep the order when they are made with `held` held. -/
def Safe (rk : Lk → Nat) (held : List (Lk × Mode)) (a : List (Act Lk)) : Prop :=
  ∀ r, Ordered rk held r → Ordered rk held (a ++ r)

theorem safe_nil (rk : Lk → Nat) (held) : Safe rk held [] := fun _ h => h

theorem safe_append {rk : Lk → Nat} {held a b} (ha : Safe rk held a) (hb : Safe rk held b) : Safe rk held (a ++ b) := by
  intro r hr
  rw [List.append_assoc]
  exact ha _ (hb _ hr)

theorem safe_flatMap {rk : Lk → Nat} {held} {α : Type} (f : α → List (Act Lk)) (xs : List α) (h : ∀ x ∈ xs, Safe rk held (f x)) :
    Safe rk held (xs.flatMap f) := by
  induction xs with
  | nil => exact safe_nil rk held
  | cons x r ih =>
    rw [List.flatMap_cons]
    exact safe_append (h x List.mem_cons_self) (ih (fun y hy => h y (List.mem_cons_of_mem _ hy)))

/-- Everything held is below the lock. -/
def Below (rk : Lk → Nat) (held : List (Lk × Mode)) (k : Nat) : Prop := ∀ h ∈ held, rk h.1 < k

theorem safe_sect {rk : Lk → Nat} {held l m body} (hl : Below rk held (rk l)) (hb : Safe rk ((l, m) :: held) body) :
    Safe rk held (sect l m body) := by
  intro r hr
  have hf : ((l, m) :: held).filter (fun h => h.1 != l) = held := by
    rw [List.filter_cons_of_neg (by simp)]
    apply List.filter_eq_self.2
    intro x hx
    simp only [bne_iff_ne, ne_eq]
    intro he
    have := hl x hx
    rw [he] at this
    exact Nat.lt_irrefl _ this
  have : sect l m body ++ r = .acq l m :: (body ++ (.rel l :: r)) := by simp [sect]
  rw [this]
  refine ⟨hl, hb _ ?_⟩
  show Ordered rk (((l, m) :: held).filter (fun h => h.1 != l)) r
  rw [hf]
  exact hr

theorem safe_touch {rk : Lk → Nat} {held l} (hl : Below rk held (rk l)) : Safe rk held (touch l) := safe_sect hl (safe_nil _ _)

theorem below_cons {rk : Lk → Nat} {held l m k} (h : Below rk held k) (hl : rk l < k) : Below rk ((l, m) :: held) k := by
  intro x hx
  rcases List.mem_cons.1 hx with rfl | hx
  · exact hl
  · exact h x hx

theorem below_nil {rk : Lk → Nat} {k} : Below rk [] k := by intro x hx; cases hx

theorem below_mono {rk : Lk → Nat} {held k k'} (h : Below rk held k) (hk : k ≤ k') : Below rk held k' :=
  fun x hx => Nat.lt_of_lt_of_le (h x hx) hk

theorem safe_if {rk : Lk → Nat} {held a} (b : Bool) (h : Safe rk held a) : Safe rk held (if b then a else []) := by
  cases b
  · exact safe_nil _ _
  · exact h

/-! ## Both orders -/

/-- What the proofs need of an order of the locks. -/
structure Good (rk : Lk → Nat) : Prop where
  agree : ∀ l, rank l ≥ 3 → rk l = rank l
  gate : rk .subGate < 3
  app : rk .applier < rk .subGate
  cb : ∀ i, rk (.rCb i) < 3

theorem good_rank : Good rank := ⟨fun _ _ => rfl, by decide, by decide, fun _ => by simp [rank]⟩

theorem good_rank' : Good rank' :=
  ⟨fun l h => by cases l <;> simp_all [rank, rank'], by decide, by decide, fun _ => by simp [rank']⟩

section
variable {rk : Lk → Nat} (g : Good rk)
include g

theorem g_touch {held l} (k : Nat) (hk : Below rk held k) (h3 : 3 ≤ rank l) (h : k ≤ rank l) : Safe rk held (touch l) :=
  safe_touch (by rw [g.agree l h3]; exact below_mono hk h)

theorem writerStop_safe {held} (j : Nat) (h : Below rk held 6) : Safe rk held (writerStop j) := by
  unfold writerStop
  refine safe_append (safe_append ?_ ?_) ?_ <;> exact g_touch g 6 h (by simp [rank]) (by simp [rank])

theorem writerRegister_safe {held} (j : Nat) (h : Below rk held 6) : Safe rk held (writerRegister j) := by
  unfold writerRegister
  refine safe_append (safe_append ?_ ?_) ?_ <;> exact g_touch g 6 h (by simp [rank]) (by simp [rank])

/-- Calls that touch only publishers. -/
theorem pubOps_safe {held} (h : Below rk held 5) : Safe rk held (Op.acts .pubCreate) ∧ (∀ j, Safe rk held (Op.acts (.pubDestroy j))) ∧
    (∀ j, Safe rk held (Op.acts (.setPubEvent j))) ∧ (∀ j b, Safe rk held (Op.acts (.send j b))) ∧
    (∀ j, Safe rk held (Op.acts (.pubCount j))) := by
  have h6 := below_mono h (show 5 ≤ 6 by decide)
  refine ⟨?_, ?_, ?_, ?_, ?_⟩
  · exact g_touch g 5 h (by simp [rank]) (by simp [rank])
  · intro j
    exact safe_append (g_touch g 5 h (by simp [rank]) (by simp [rank])) (writerStop_safe g j h6)
  · intro j; exact g_touch g 5 h (by simp [rank]) (by simp [rank])
  · intro j b
    simp only [Op.acts]
    exact safe_append (safe_append (g_touch g 5 h (by simp [rank]) (by simp [rank])) (g_touch g 5 h (by simp [rank]) (by simp [rank])))
      (safe_if b (writerRegister_safe g j h6))
  · intro j; exact g_touch g 5 h (by simp [rank]) (by simp [rank])

theorem receive_safe {held} (h : Below rk held 12) (i : Nat) : Safe rk held (Op.acts (.receive i)) :=
  g_touch g 12 h (by simp [rank]) (by simp [rank])

/-- Calls in an event callback of a subscriber. -/
theorem subEv_ops {held} (h : Below rk held 5) (c : Ctx) (hc : c = .dropped ∨ c = .subConnected ∨ c = .subDisconnected)
    (ops : List Op) (ho : okOps allowed c ops = true) : Safe rk held (opsActs ops) := by
  apply safe_flatMap
  intro o hm
  have ha := List.all_eq_true.1 ho o hm
  obtain ⟨h1, h2, h3, h4, h5⟩ := pubOps_safe g h
  have h12 := below_mono h (show 5 ≤ 12 by decide)
  rcases hc with rfl | rfl | rfl <;> cases o <;> first
    | exact h1
    | exact h2 _
    | exact h3 _
    | exact h4 _ _
    | exact h5 _
    | exact receive_safe g h12 _
    | (simp [allowed] at ha; done)

/-- Calls in an event callback of a publisher. -/
theorem pubEv_ops {held} (h : Below rk held 8) (c : Ctx) (hc : c = .pubConnected ∨ c = .pubDisconnected)
    (ops : List Op) (ho : okOps allowed c ops = true) : Safe rk held (opsActs ops) := by
  apply safe_flatMap
  intro o hm
  have ha := List.all_eq_true.1 ho o hm
  have h12 := below_mono h (show 8 ≤ 12 by decide)
  rcases hc with rfl | rfl <;> cases o <;> first
    | exact receive_safe g h12 _
    | (simp [allowed] at ha; done)

/-- A call in a receive callback. -/
theorem recv_op {held} (h : Below rk held 3) (o : Op) (ha : allowed .receive o = true) : Safe rk held o.acts := by
  have h5 := below_mono h (show 3 ≤ 5 by decide)
  obtain ⟨p1, p2, p3, p4, p5⟩ := pubOps_safe g h5
  have h12 := below_mono h (show 3 ≤ 12 by decide)
  cases o <;> first
    | exact p1
    | exact p2 _
    | exact p3 _
    | exact p4 _ _
    | exact p5 _
    | exact receive_safe g h12 _
    | exact g_touch g (l := .rEv _) 3 h (by simp [rank]) (by simp [rank])
    | exact g_touch g (l := .rMap _) 3 h (by simp [rank]) (by simp [rank])
    | (simp [allowed] at ha; done)

theorem ev_sub_safe {held} (i : Nat) (h : Below rk held 4) (c : Ctx) (hc : c = .dropped ∨ c = .subConnected ∨ c = .subDisconnected)
    (e : Option (List Op)) (ho : okEv allowed c e = true) : Safe rk held (event (.rEv i) e) := by
  cases e with
  | none => exact safe_nil _ _
  | some ops =>
    have hr : rk (.rEv i) = 4 := g.agree _ (by simp [rank])
    refine safe_sect (by rw [hr]; exact h) (subEv_ops g ?_ c hc ops ho)
    exact below_cons (below_mono h (by decide)) (by rw [hr]; decide)

theorem ev_pub_safe {held} (j : Nat) (h : Below rk held 7) (c : Ctx) (hc : c = .pubConnected ∨ c = .pubDisconnected)
    (e : Option (List Op)) (ho : okEv allowed c e = true) : Safe rk held (event (.wEv j) e) := by
  cases e with
  | none => exact safe_nil _ _
  | some ops =>
    have hr : rk (.wEv j) = 7 := g.agree _ (by simp [rank])
    refine safe_sect (by rw [hr]; exact h) (pubEv_ops g ?_ c hc ops ho)
    exact below_cons (below_mono h (by decide)) (by rw [hr]; decide)

/-- The delivery of a sample, for any test of the calls in the receive callback. -/
theorem deliver_safe (d : Delivery) (hd : okEv allowed .dropped d.dropped = true)
    (hr : ∀ ops, d.recv = some ops → Safe rk [(.rCb d.reader, .excl)] (opsActs ops)) : Safe rk [] (deliver d) := by
  have h3 : Below rk [((.rCb d.reader : Lk), Mode.excl)] 3 := below_cons below_nil (g.cb _)
  refine safe_sect below_nil (safe_append (safe_append ?_ ?_) ?_)
  · exact ev_sub_safe g _ (below_mono h3 (by decide)) .dropped (Or.inl rfl) _ hd
  · exact g_touch g 3 h3 (by simp [rank]) (by simp [rank])
  · cases hrv : d.recv with
    | none => exact g_touch g 3 h3 (by simp [rank]) (by simp [rank])
    | some ops => exact hr ops hrv

theorem seePub_safe {held} (p : PubSeen) (h : Below rk held 3)
    (ho : (okEv allowed .subConnected p.connected && okEv allowed .subConnected p.update) = true) : Safe rk held (seePub p) := by
  rw [Bool.and_eq_true] at ho
  have h4 := below_mono h (show 3 ≤ 4 by decide)
  refine safe_append (safe_append (safe_append (safe_append ?_ ?_) ?_) ?_) ?_
  · exact safe_if _ (g_touch g 3 h (by simp [rank]) (by simp [rank]))
  · exact safe_if _ (g_touch g 3 h (by simp [rank]) (by simp [rank]))
  · exact ev_sub_safe g _ h4 .subConnected (Or.inr (Or.inl rfl)) _ ho.1
  · exact ev_sub_safe g _ h4 .subConnected (Or.inr (Or.inl rfl)) _ ho.2
  · exact g_touch g 3 h (by simp [rank]) (by simp [rank])

theorem seeSub_safe {held} (p : SubSeen) (h : Below rk held 6)
    (ho : (okEv allowed .pubConnected p.connected && okEv allowed .pubConnected p.update) = true) : Safe rk held (seeSub p) := by
  rw [Bool.and_eq_true] at ho
  have h7 := below_mono h (show 6 ≤ 7 by decide)
  refine safe_append (safe_append (safe_append ?_ ?_) ?_) ?_
  · exact ev_pub_safe g _ h7 .pubConnected (Or.inl rfl) _ ho.1
  · exact ev_pub_safe g _ h7 .pubConnected (Or.inl rfl) _ ho.2
  · exact safe_if _ (writerRegister_safe g _ h)
  · exact g_touch g 6 h (by simp [rank]) (by simp [rank])

theorem cycleReader_safe {held} (r : Nat × Option (List Op)) (h : Below rk held 3) (ho : okEv allowed .subDisconnected r.2 = true) :
    Safe rk held (cycleReader r) := by
  have hr : rk (.rMap r.1) = 3 := g.agree _ (by simp [rank])
  refine safe_append (safe_sect (by rw [hr]; exact h) ?_) (g_touch g 3 h (by simp [rank]) (by simp [rank]))
  exact ev_sub_safe g _ (below_cons (below_mono h (by decide)) (by rw [hr]; decide)) .subDisconnected (Or.inr (Or.inr rfl)) _ ho

theorem cycleWriter_safe {held} (r : Nat × Option (List Op)) (h : Below rk held 6) (ho : okEv allowed .pubDisconnected r.2 = true) :
    Safe rk held (cycleWriter r) := by
  have hr : rk (.wMap r.1) = 6 := g.agree _ (by simp [rank])
  refine safe_append (safe_append (safe_sect (by rw [hr]; exact h) ?_) (g_touch g 6 h (by simp [rank]) (by simp [rank])))
    (g_touch g 6 h (by simp [rank]) (by simp [rank]))
  exact ev_pub_safe g _ (below_cons (below_mono h (by decide)) (by rw [hr]; decide)) .pubDisconnected (Or.inr rfl) _ ho

/-- The threads of the library other than the delivery of samples. -/
theorem work_safe (w : Work) (hk : keeps allowed w = true) (hu : ∀ ops, w ≠ .user ops) (hs : ∀ ds, w ≠ .sample ds) : Safe rk [] w.acts := by
  have hg2 : ∀ m, Below rk [((.subGate : Lk), m)] 3 := fun m => below_cons below_nil g.gate
  have hg2a : ∀ m, Below rk [((.subGate : Lk), m), (.applier, .excl)] 3 :=
    fun m => below_cons (below_cons below_nil (Nat.lt_trans g.app g.gate)) g.gate
  have hpg : rk .pubGate = 5 := g.agree _ (by simp [rank])
  have hp2 : ∀ m, Below rk [((.pubGate : Lk), m)] 6 := fun m => below_cons below_nil (by rw [hpg]; decide)
  have hp2a : ∀ m, Below rk [((.pubGate : Lk), m), (.applier, .excl)] 6 := fun m =>
    below_cons (below_cons below_nil (Nat.lt_trans g.app (Nat.lt_trans g.gate (by decide)))) (by rw [hpg]; decide)
  have hsg : Below rk [((.applier : Lk), Mode.excl)] (rk .subGate) := below_cons below_nil g.app
  have hpgb : Below rk [((.applier : Lk), Mode.excl)] (rk .pubGate) :=
    below_cons below_nil (by rw [hpg]; exact Nat.lt_trans g.app (Nat.lt_trans g.gate (by decide)))
  cases w with
  | user ops => exact absurd rfl (hu ops)
  | sample ds => exact absurd rfl (hs ds)
  | regPub ps =>
    refine safe_sect below_nil (safe_sect hsg (safe_flatMap _ _ ?_))
    intro p hp
    exact seePub_safe g p (hg2a _) (List.all_eq_true.1 hk p hp)
  | unregPub rs =>
    refine safe_sect below_nil (safe_sect hsg (safe_flatMap _ _ ?_))
    intro p _
    exact g_touch g 3 (hg2a _) (by simp [rank]) (by simp [rank])
  | regSub ps =>
    refine safe_sect below_nil (safe_sect hpgb (safe_flatMap _ _ ?_))
    intro p hp
    exact seeSub_safe g p (hp2a _) (List.all_eq_true.1 hk p hp)
  | unregSub rs =>
    refine safe_sect below_nil (safe_sect hpgb (safe_flatMap _ _ ?_))
    intro p _
    exact g_touch g 6 (hp2a _) (by simp [rank]) (by simp [rank])
  | cycle rs ws =>
    simp only [keeps, Bool.and_eq_true] at hk
    refine safe_append (safe_append (safe_sect below_nil (safe_flatMap _ _ ?_)) (safe_sect below_nil (safe_flatMap _ _ ?_)))
      (safe_touch below_nil)
    · intro r hr
      exact cycleReader_safe g r (hg2 _) (List.all_eq_true.1 hk.1 r hr)
    · intro r hr
      exact cycleWriter_safe g r (hp2 _) (List.all_eq_true.1 hk.2 r hr)

end

theorem readerStop_safe {held} (i : Nat) (h : Below rank held 2) : Safe rank held (readerStop i) := by
  have ht : ∀ l, 2 ≤ rank l → Safe rank held (touch l) := fun l hl => safe_touch (below_mono h hl)
  unfold readerStop
  refine safe_append (safe_append (safe_append ?_ ?_) ?_) ?_ <;> exact ht _ (by simp [rank])

/-- Every call from a thread of the user, with nothing held. -/
theorem op_safe (o : Op) : Safe rank [] o.acts := by
  have ht : ∀ l, Safe rank [] (touch l) := fun l => safe_touch below_nil
  cases o with
  | subCreate => exact safe_append (ht _) (ht _)
  | subDestroy i => exact safe_append (safe_append (ht _) (ht _)) (readerStop_safe i below_nil)
  | pubDestroy j => exact safe_append (ht _) (writerStop_safe good_rank j below_nil)
  | send j b => exact safe_append (safe_append (ht _) (ht _)) (safe_if b (writerRegister_safe good_rank j below_nil))
  | finalize js is =>
    refine safe_append (safe_append (safe_append (safe_sect below_nil (safe_flatMap _ _ ?_)) (safe_sect below_nil (safe_flatMap _ _ ?_))) (ht _)) (ht _)
    · intro j _; exact writerStop_safe good_rank j (below_cons below_nil (by decide))
    · intro i _; exact readerStop_safe i (below_cons below_nil (by decide))
  | _ => exact ht _

theorem work_ordered (w : Work) (hk : keeps allowed w = true) : Safe rank [] w.acts := by
  by_cases hu : ∃ ops, w = .user ops
  · obtain ⟨ops, rfl⟩ := hu
    exact safe_flatMap _ _ (fun o _ => op_safe o)
  · by_cases hs : ∃ ds, w = .sample ds
    · obtain ⟨ds, rfl⟩ := hs
      refine safe_append (safe_touch' ) (safe_flatMap _ _ ?_)
      intro d hd
      have := List.all_eq_true.1 hk d hd
      rw [Bool.and_eq_true] at this
      refine deliver_safe good_rank d this.1 ?_
      intro ops hops
      rw [hops] at this
      apply safe_flatMap
      intro o ho
      exact recv_op good_rank (below_cons below_nil (by simp [rank])) o (List.all_eq_true.1 this.2 o ho)
    · exact work_safe good_rank w hk (fun ops h => hu ⟨ops, h⟩) (fun ds h => hs ⟨ds, h⟩)
where
  safe_touch' : Safe rank [] (sect .subGate .shared []) := safe_sect below_nil (safe_nil _ _)

theorem startAll_ordered (rk : Lk → Nat) (ws : List Work) (h : ∀ w ∈ ws, Safe rk [] w.acts) : AllOrdered rk (startAll ws) := by
  intro t ht
  simp only [startAll, start, List.map_map, List.mem_map] at ht
  obtain ⟨w, hw, rfl⟩ := ht
  have := h w hw [] rfl
  rwa [List.append_nil] at this

/-! ## Property theorems -/

/-- **C81, no deadlock (partial).**  For every number of threads of the user, transport threads, registration
threads and publishers and subscribers: if the callbacks make only calls of the table `allowed`, then no execution
deadlocks – also while threads of the user create, destroy, send, receive, change callbacks and finalize, and with
or without preference of writers.  Missing for the full property: the other calls, see below. -/
theorem C81_no_deadlock_partial (pref : Bool) (ws : List Work) (h : ∀ w ∈ ws, keeps allowed w = true) (is : List Nat)
    (s : Sys Lk) (hr : run pref (startAll ws) is = some s) : ¬ Deadlocked pref s :=
  ordered_not_deadlocked rank pref s
    (run_ordered rank pref _ s is (startAll_ordered rank ws (fun w hw => work_ordered w (h w hw))) hr)

/-- **C81, end (partial).**  Under the same condition every execution can be continued until all calls and all
callbacks have returned, and it has at most as many steps as there are actions (so it cannot go on for ever). -/
theorem C81_completes_partial (pref : Bool) (ws : List Work) (h : ∀ w ∈ ws, keeps allowed w = true) (is : List Nat)
    (s : Sys Lk) (hr : run pref (startAll ws) is = some s) :
    (∃ is' s', run pref s is' = some s' ∧ ∀ t ∈ s', t.rest = []) ∧ is.length ≤ ((ws.map Work.acts).map List.length).sum := by
  have ho := run_ordered rank pref _ s is (startAll_ordered rank ws (fun w hw => work_ordered w (h w hw))) hr
  refine ⟨ordered_completes rank pref s ho, ?_⟩
  have := run_left pref _ s is hr
  have he : left (startAll ws) = ((ws.map Work.acts).map List.length).sum := by
    simp only [left, startAll, start, List.map_map]
    rfl
  omega

/-- Not trivial: a receive callback that sends and creates a publisher, an event callback that sends, while a user
destroys the subscriber and another one finalizes. -/
example : ∀ w ∈ ([.sample [⟨0, some [.send 1 true], some [.send 1 false, .pubCreate]⟩],
      .cycle [(0, some [.send 1 false])] [(1, some [.receive 3])], .user [.subDestroy 0], .user [.finalize [1] [0]]] : List Work),
    keeps allowed w = true := by decide

/-! ### Without `Finalize` -/

/-- Without `Finalize` a receive callback may also create subscribers. -/
def allowed' : Ctx → Op → Bool
  | .receive, .subCreate => true
  | c, o => allowed c o

/-- No `Finalize`, neither by users nor by callbacks (callbacks may not call it anyway). -/
def noFinalize : Work → Bool
  | .user ops => ops.all (fun o => match o with | .finalize _ _ => false | _ => true)
  | _ => true

theorem op_safe' (o : Op) (hn : ∀ js is, o ≠ .finalize js is) : Safe rank' [] o.acts := by
  have ht : ∀ l, Safe rank' [] (touch l) := fun l => safe_touch below_nil
  cases o with
  | subCreate => exact safe_append (ht _) (ht _)
  | subDestroy i =>
    exact safe_append (safe_append (ht _) (ht _)) (safe_append (safe_append (safe_append (ht _) (ht _)) (ht _)) (ht _))
  | pubDestroy j => exact safe_append (ht _) (writerStop_safe good_rank' j below_nil)
  | send j b => exact safe_append (safe_append (ht _) (ht _)) (safe_if b (writerRegister_safe good_rank' j below_nil))
  | finalize js is => exact absurd rfl (hn js is)
  | _ => exact ht _

theorem allowed'_of_ne (c : Ctx) (o : Op) (hc : c ≠ .receive) : allowed' c o = allowed c o := by
  cases c <;> first | exact absurd rfl hc | (cases o <;> rfl)

theorem okEv'_of_ne (c : Ctx) (e : Option (List Op)) (hc : c ≠ .receive) : okEv allowed' c e = okEv allowed c e := by
  cases e with
  | none => rfl
  | some ops =>
    have : allowed' c = allowed c := funext (fun o => allowed'_of_ne c o hc)
    simp only [okEv, okOps, this]

theorem keeps'_of_lib (w : Work) (hs : ∀ ds, w ≠ .sample ds) : keeps allowed' w = keeps allowed w := by
  cases w with
  | sample ds => exact absurd rfl (hs ds)
  | regPub ps => simp only [keeps, okEv'_of_ne .subConnected _ (by decide)]
  | regSub ps => simp only [keeps, okEv'_of_ne .pubConnected _ (by decide)]
  | cycle rs ws => simp only [keeps, okEv'_of_ne .subDisconnected _ (by decide), okEv'_of_ne .pubDisconnected _ (by decide)]
  | _ => rfl

theorem work_ordered' (w : Work) (hk : keeps allowed' w = true) (hn : noFinalize w = true) : Safe rank' [] w.acts := by
  by_cases hu : ∃ ops, w = .user ops
  · obtain ⟨ops, rfl⟩ := hu
    refine safe_flatMap _ _ (fun o ho => op_safe' o ?_)
    intro js is he
    have := List.all_eq_true.1 hn o ho
    rw [he] at this
    cases this
  · by_cases hs : ∃ ds, w = .sample ds
    · obtain ⟨ds, rfl⟩ := hs
      refine safe_append (safe_sect below_nil (safe_nil _ _)) (safe_flatMap _ _ ?_)
      intro d hd
      have := List.all_eq_true.1 hk d hd
      rw [Bool.and_eq_true, okEv'_of_ne .dropped _ (by decide)] at this
      refine deliver_safe good_rank' d this.1 ?_
      intro ops hops
      rw [hops] at this
      apply safe_flatMap
      intro o ho
      have hao := List.all_eq_true.1 this.2 o ho
      have hb : Below rank' [((.rCb d.reader : Lk), Mode.excl)] 1 := below_cons below_nil (by simp [rank'])
      by_cases hc : o = .subCreate
      · subst hc
        exact safe_append (safe_touch (below_mono hb (by decide))) (safe_touch (below_mono hb (by decide)))
      · refine recv_op good_rank' (below_mono hb (by decide)) o ?_
        rw [← hao]
        cases o <;> first | rfl | exact absurd rfl hc
    · rw [keeps'_of_lib w (fun ds h => hs ⟨ds, h⟩)] at hk
      exact work_safe good_rank' w hk (fun ops h => hu ⟨ops, h⟩) (fun ds h => hs ⟨ds, h⟩)

/-- **C81, subscribers created in receive callbacks (partial).**  As long as nobody finalizes, receive callbacks may
also create subscribers. -/
theorem C81_create_in_receive_partial (pref : Bool) (ws : List Work) (h : ∀ w ∈ ws, keeps allowed' w = true)
    (hn : ∀ w ∈ ws, noFinalize w = true) (is : List Nat) (s : Sys Lk) (hr : run pref (startAll ws) is = some s) :
    ¬ Deadlocked pref s :=
  ordered_not_deadlocked rank' pref s
    (run_ordered rank' pref _ s is (startAll_ordered rank' ws (fun w hw => work_ordered' w (h w hw) (hn w hw))) hr)

/-- Not trivial: a receive callback that creates subscribers while another thread destroys the subscriber. -/
example : (∀ w ∈ ([.sample [⟨0, none, some [.subCreate, .send 1 false]⟩], .user [.subDestroy 0]] : List Work), keeps allowed' w = true) ∧
    (∀ w ∈ ([.sample [⟨0, none, some [.subCreate, .send 1 false]⟩], .user [.subDestroy 0]] : List Work), noFinalize w = true) := by
  decide

/-! ### Every other call can deadlock -/

/-- A checker for deadlocks. -/
def deadlockedB (pref : Bool) (s : Sys Lk) : Bool :=
  s.any (fun t => !t.rest.isEmpty) && (List.range s.length).all (fun i => (step pref s i).isNone)

theorem deadlockedB_sound (pref : Bool) (s : Sys Lk) (h : deadlockedB pref s = true) : Deadlocked pref s := by
  simp only [deadlockedB, Bool.and_eq_true] at h
  constructor
  · intro hf
    obtain ⟨t, ht, hne⟩ := List.any_eq_true.1 h.1
    rw [hf t ht] at hne
    simp at hne
  · intro i
    by_cases hi : i < s.length
    · have := List.all_eq_true.1 h.2 i (List.mem_range.2 hi)
      exact Option.isNone_iff_eq_none.1 this
    · simp [step, List.getElem?_eq_none (Nat.le_of_not_lt hi)]

/-- The calls for the subscriber 0 and the publisher 0. -/
inductive Kind where
  | subCreate | subDestroy | setRecv | setSubEvent | receive | subCount | pubCreate | pubDestroy | setPubEvent
  | send (rereg : Bool) | pubCount | finalize
deriving DecidableEq, Repr

def Kind.op : Kind → Op
  | .subCreate => .subCreate
  | .subDestroy => .subDestroy 0
  | .setRecv => .setRecv 0
  | .setSubEvent => .setSubEvent 0
  | .receive => .receive 0
  | .subCount => .subCount 0
  | .pubCreate => .pubCreate
  | .pubDestroy => .pubDestroy 0
  | .setPubEvent => .setPubEvent 0
  | .send b => .send 0 b
  | .pubCount => .pubCount 0
  | .finalize => .finalize [0] [0]

/-- The thread in which the callback runs that makes the call `o`. -/
def site : Ctx → Op → Work
  | .receive, o => .sample [⟨0, none, some [o]⟩]
  | .dropped, o => .sample [⟨0, some [o], none⟩]
  | .subConnected, o => .regPub [⟨0, false, false, some [o], some []⟩]
  | .subDisconnected, o => .cycle [(0, some [o])] []
  | .pubConnected, o => .regSub [⟨0, some [o], some [], false⟩]
  | .pubDisconnected, o => .cycle [] [(0, some [o])]

/-- The other threads and a schedule that lead to the deadlock; the thread 0 makes the call. -/
def rival : Ctx → Kind → List Work × List Nat
  | .receive, .subCreate => ([.user [.finalize [] [0]]], [0, 0, 1, 1, 1, 0, 0, 0, 0, 0, 1, 1])
  | .receive, .subDestroy => ([], [0, 0, 0, 0, 0])
  | .receive, .setRecv => ([], [0, 0, 0, 0, 0])
  | .receive, .finalize => ([], [0, 0, 0, 0, 0, 0, 0, 0, 0, 0, 0, 0, 0, 0, 0, 0])
  | .dropped, .subCreate => ([.cycle [(0, some [])] []], [1, 0, 0, 0, 0, 0, 0, 1])
  | .dropped, .subDestroy => ([], [0, 0, 0, 0])
  | .dropped, .setRecv => ([], [0, 0, 0, 0])
  | .dropped, .setSubEvent => ([], [0, 0, 0, 0])
  | .dropped, .subCount => ([.cycle [(0, some [])] []], [1, 1, 0, 0, 0, 0])
  | .dropped, .finalize => ([], [0, 0, 0, 0, 0, 0, 0, 0, 0, 0, 0, 0, 0, 0, 0])
  | .subConnected, .subCreate => ([], [0, 0, 0, 0, 0])
  | .subConnected, .subDestroy => ([], [0, 0, 0, 0, 0])
  | .subConnected, .setRecv => ([.sample [⟨0, some [], none⟩]], [1, 1, 1, 0, 0, 0])
  | .subConnected, .setSubEvent => ([], [0, 0, 0])
  | .subConnected, .subCount => ([.cycle [(0, some [])] []], [1, 1, 0, 0, 0])
  | .subConnected, .finalize => ([], [0, 0, 0, 0, 0, 0, 0, 0, 0, 0, 0])
  | .subDisconnected, .subCreate => ([], [0, 0, 0, 0, 0])
  | .subDisconnected, .subDestroy => ([], [0, 0, 0, 0, 0])
  | .subDisconnected, .setRecv => ([.sample [⟨0, some [], none⟩]], [1, 1, 1, 0, 0, 0])
  | .subDisconnected, .setSubEvent => ([], [0, 0, 0])
  | .subDisconnected, .subCount => ([], [0, 0, 0])
  | .subDisconnected, .finalize => ([], [0, 0, 0, 0, 0, 0, 0, 0, 0, 0, 0])
  | .pubConnected, .subCreate => ([.cycle [(0, some [.pubCreate])] []], [1, 0, 0, 0, 0, 0, 1, 1])
  | .pubConnected, .subDestroy => ([.cycle [(0, some [.pubCreate])] []], [1, 0, 0, 0, 0, 0, 1, 1])
  | .pubConnected, .setRecv => ([.sample [⟨0, none, some [.pubCreate]⟩]], [1, 1, 1, 0, 0, 0, 1, 1])
  | .pubConnected, .setSubEvent => ([.sample [⟨0, some [.pubCreate], none⟩]], [0, 0, 1, 1, 1, 1, 0])
  | .pubConnected, .subCount => ([.cycle [(0, some [.pubCreate])] []], [1, 1, 0, 0, 0, 1])
  | .pubConnected, .pubCreate => ([], [0, 0, 0])
  | .pubConnected, .pubDestroy => ([], [0, 0, 0])
  | .pubConnected, .setPubEvent => ([], [0, 0, 0])
  | .pubConnected, .send _ => ([.cycle [] [(0, some [])]], [1, 1, 1, 1, 0, 0, 0])
  | .pubConnected, .pubCount => ([.cycle [] [(0, some [])]], [1, 1, 1, 1, 0, 0, 0])
  | .pubConnected, .finalize => ([], [0, 0, 0])
  | .pubDisconnected, .subCreate => ([.regPub [⟨0, false, false, some [.pubCreate], some []⟩]], [1, 1, 0, 0, 0, 0, 0, 0, 0, 1])
  | .pubDisconnected, .subDestroy => ([.regPub [⟨0, false, false, some [.pubCreate], some []⟩]], [1, 1, 0, 0, 0, 0, 0, 0, 0, 1])
  | .pubDisconnected, .setRecv => ([.sample [⟨0, none, some [.pubCreate]⟩]], [1, 1, 1, 0, 0, 0, 0, 0, 1, 1])
  | .pubDisconnected, .setSubEvent => ([.sample [⟨0, some [.pubCreate], none⟩]], [0, 0, 0, 1, 1, 1, 1, 0, 0])
  | .pubDisconnected, .pubCreate => ([], [0, 0, 0, 0, 0])
  | .pubDisconnected, .pubDestroy => ([], [0, 0, 0, 0, 0])
  | .pubDisconnected, .setPubEvent => ([], [0, 0, 0, 0, 0])
  | .pubDisconnected, .send _ => ([], [0, 0, 0, 0, 0])
  | .pubDisconnected, .pubCount => ([], [0, 0, 0, 0, 0])
  | .pubDisconnected, .finalize => ([], [0, 0, 0, 0, 0])
  | _, _ => ([], [])

def isCycle : Work → Bool
  | .cycle _ _ => true
  | _ => false

def isReg : Work → Bool
  | .regPub _ => true
  | .unregPub _ => true
  | .regSub _ => true
  | .unregSub _ => true
  | _ => false

/-- Check of one entry. -/
def checkEntry (pref : Bool) (c : Ctx) (k : Kind) : Bool :=
  let ws := site c k.op :: (rival c k).1
  (rival c k).1.all (keeps allowed) && ws.countP isCycle ≤ 1 && ws.countP isReg ≤ 1 &&
  (match run pref (startAll ws) (rival c k).2 with
   | some s => deadlockedB pref s
   | none => false)

theorem checkEntry_all (pref : Bool) (c : Ctx) (k : Kind) (h : allowed c k.op = false) (hx : ¬ (c = .pubDisconnected ∧ k = .subCount)) :
    checkEntry pref c k = true := by
  cases c <;> cases k <;> first
    | (exact absurd h (by decide))
    | (simp [allowed, Kind.op] at h; done)
    | (exact absurd ⟨rfl, rfl⟩ hx)
    | (cases pref <;> decide +kernel)
    | (rename_i b; cases b <;> cases pref <;> decide +kernel)

/-- **C81 (violated by every other call).**  The table of the theorems above cannot be extended.  For each callback
and each call that the table does not allow – changing or destroying the subscriber in its receive callback,
creating subscribers or asking for the connections in an event callback, sending in an event callback of the
publisher, finalizing in a callback, and so on – there is a deadlock, even if all other callbacks keep to the
table, with at most one registration send thread and one registration receive thread, and with or without preference
of writers.  (Asking a subscriber for its connections in the disconnected callback of a publisher is not covered: it
would need two registration send threads.)  Often a single thread deadlocks with itself: the callback runs with the
lock that the call takes. -/
theorem C81_violated_other_calls (pref : Bool) (c : Ctx) (k : Kind) (h : allowed c k.op = false)
    (hx : ¬ (c = .pubDisconnected ∧ k = .subCount)) :
    ∃ (ws : List Work) (is : List Nat) (s : Sys Lk), (∀ w ∈ ws, keeps allowed w = true) ∧
      (site c k.op :: ws).countP isCycle ≤ 1 ∧ (site c k.op :: ws).countP isReg ≤ 1 ∧
      run pref (startAll (site c k.op :: ws)) is = some s ∧ Deadlocked pref s := by
  have hc := checkEntry_all pref c k h hx
  simp only [checkEntry, Bool.and_eq_true, decide_eq_true_eq] at hc
  obtain ⟨⟨⟨h1, h2⟩, h3⟩, h4⟩ := hc
  cases hr : run pref (startAll (site c k.op :: (rival c k).1)) (rival c k).2 with
  | none => rw [hr] at h4; cases h4
  | some s =>
    rw [hr] at h4
    exact ⟨(rival c k).1, (rival c k).2, s, fun w hw => List.all_eq_true.1 h1 w hw, h2, h3, hr, deadlockedB_sound pref s h4⟩

/-- Not empty: sending in the connected callback of the publisher is such a call. -/
example : allowed .pubConnected (Kind.send false).op = false := by decide

/-- **C81 (violated: send in the connected callback).**  The natural first message: a publisher sends in its
connected callback.  The registration cycle, which finds the publisher still without connections, holds the lock of
the connections and waits for the lock of the callbacks; the callback holds that lock and waits for the other. -/
theorem C81_violated_send_on_connect (pref : Bool) : ∃ (is : List Nat) (s : Sys Lk),
    run pref (startAll [.regSub [⟨0, some [.send 0 false], some [], false⟩], .cycle [] [(0, some [])]]) is = some s ∧
      Deadlocked pref s := by
  have hc := checkEntry_all pref .pubConnected (.send false) rfl (by simp)
  simp only [checkEntry, Bool.and_eq_true] at hc
  have h4 := hc.2
  simp only [Kind.op, rival, site] at h4
  cases hr : run pref (startAll [.regSub [⟨0, some [.send 0 false], some [], false⟩], .cycle [] [(0, some [])]]) [1, 1, 1, 1, 0, 0, 0] with
  | none => rw [hr] at h4; cases h4
  | some s => rw [hr] at h4; exact ⟨_, s, hr, deadlockedB_sound pref s h4⟩

/-- **C81 (violated: two subscribers change each other's callbacks).**  Each receive callback removes the callback of
the other subscriber; both wait for ever. -/
theorem C81_violated_mutual (pref : Bool) : ∃ (is : List Nat) (s : Sys Lk),
    run pref (startAll [.sample [⟨0, none, some [.setRecv 1]⟩], .sample [⟨1, none, some [.setRecv 0]⟩]]) is = some s ∧
      Deadlocked pref s := by
  have h : (match run pref (startAll [.sample [⟨0, none, some [.setRecv 1]⟩], .sample [⟨1, none, some [.setRecv 0]⟩]])
      [0, 0, 0, 1, 1, 1, 0, 0, 1, 1] with | some s => deadlockedB pref s | none => false) = true := by
    cases pref <;> decide +kernel
  cases hr : run pref (startAll [.sample [⟨0, none, some [.setRecv 1]⟩], .sample [⟨1, none, some [.setRecv 0]⟩]])
      [0, 0, 0, 1, 1, 1, 0, 0, 1, 1] with
  | none => rw [hr] at h; cases h
  | some s => rw [hr] at h; exact ⟨_, s, hr, deadlockedB_sound pref s h⟩

end Ecal.Sync.ApiLocks
