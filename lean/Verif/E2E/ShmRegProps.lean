import Verif.E2E.ShmRegSim

/-! # C108: publishers and subscribers find each other over shared memory

First part: nothing is invented, and what is received has its effect. -/

namespace Ecal.E2E.ShmReg

open Ecal.Wire (RegSample RTopic IsMap)
open Ecal.E2E.Disc (Proc PSt World Accepts speer ppeer)
open Ecal.Bcast (Event EvType Sys Reader)
open Ecal.Gate (Obj CS)

/-! ## Specification -/

/-- At some time process `B` had the subscriber `j` of topic `n`. -/
def HadSub (P : Nat → Proc) (w : SW) (h : List SIn) (B j : Nat) (n : String) : Prop :=
  ∃ h1 h2, h = h1 ++ h2 ∧ ∃ o ∈ ((run P w h1).st B).sg, o.id = j ∧ o.name = n

/-- At some time process `A` had the publisher `i` of topic `n`, which knew a subscriber for which `f`
holds. -/
def HadPub (P : Nat → Proc) (w : SW) (h : List SIn) (A i : Nat) (n : String) (f : Conn.Peer → Prop) : Prop :=
  ∃ h1 h2, h = h1 ++ h2 ∧ ∃ o ∈ ((run P w h1).st A).pg, o.id = i ∧ o.name = n ∧
    ∃ s evs, o.st = some (s, evs) ∧ ∃ p ∈ s.map.map.keys, f p

/-- What the applications do (and the collecting). -/
def acts (h : List SIn) : List Disc.In := h.filterMap (fun x => match x with | .act y => some y | _ => none)

/-- The clock value process `q` reads in a step, as far as the gates see it. -/
def clock (q : Nat) : SIn → Option Int
  | .act x => Disc.clock q x
  | .apply p now => if p = q then some now else none
  | _ => none

/-- The clock of process `q` does not go backwards and starts at `t0`. -/
def Mono (q : Nat) (t0 : Int) : List SIn → Prop
  | [] => True
  | x :: h =>
    match clock q x with
    | some t => t0 ≤ t ∧ Mono q t h
    | none => Mono q t0 h

/-- A registration of the subscriber. -/
def IsSubReg (B : Proc) (j : Nat) (topic : Bytes) (m : RegSample) : Prop :=
  m.cmd = 3 ∧ m.hostName = B.host ∧ m.processId = B.pid ∧ m.entityId = B.stid j ∧
    m.topic.hgname = B.group ∧ m.topic.tname = topic

/-- A registration of the publisher that announces a connection with the host `host`. -/
def IsPubReg (A : Proc) (i : Nat) (topic host : Bytes) (m : RegSample) : Prop :=
  m.cmd = 2 ∧ m.hostName = A.host ∧ m.processId = A.pid ∧ m.entityId = A.ptid i ∧
    m.topic.hgname = A.group ∧ m.topic.tname = topic ∧
    (host = A.host → m.topic.connLoc.toInt > 0) ∧ (host ≠ A.host → m.topic.connExt.toInt > 0)

/-- The publisher knows the peer, and its last notification was 'connected'. -/
def PubConnected (w : SW) (A i : Nat) (topic : Bytes) (p : Conn.Peer) : Prop :=
  ∃ o ∈ (w.st A).pg, o.id = i ∧ o.name = str topic ∧ ∃ s evs, o.st = some (s, evs) ∧
    p ∈ s.map.map.keys ∧ Conn.lastIsConnected evs = true

/-- The subscriber knows the peer, and its last notification was 'connected'. -/
def SubConnected (w : SW) (B j : Nat) (topic : Bytes) (p : Conn.Peer) : Prop :=
  ∃ o ∈ (w.st B).sg, o.id = j ∧ o.name = str topic ∧ ∃ s evs, o.st = some (s, evs) ∧
    p ∈ s.map.map.keys ∧ Conn.lastIsConnected evs = true

/-! ## The translation -/

section
variable {P : Nat → Proc} {cap : Nat} {t0 : Int} {cells : Nat → Event}

theorem sim_init (h : List SIn) (hf : Fit (run P (init cap t0 cells) h)) :
    Sim (run P (init cap t0 cells) h) (Disc.run P {} (tr P (init cap t0 cells) {} h)) ∧
      SInv (run P (init cap t0 cells) h) :=
  sim_run h (init_sim cap t0 cells) (init_inv cap t0 cells) hf

theorem run_append (P : Nat → Proc) (w : SW) (a b : List SIn) : run P w (a ++ b) = run P (run P w a) b := by
  simp [run]

theorem fit_left {a b : List SIn} {w : SW} (hf : Fit (run P w (a ++ b))) : Fit (run P w a) := by
  rw [run_append] at hf
  exact fit_prefix hf

end

/-- **C108 (shared memory is no better and no worse than a network).** Whatever the processes do, in any
interleaving of the accesses to the broadcast file and the payload files, with failing accesses, files that
disappear and crashes: the publishers and subscribers of all processes are in the same state as after a
history over UDP, in which every sample that arrives was sent. -/
theorem C108_refines_network (P : Nat → Proc) (cap : Nat) (t0 : Int) (cells : Nat → Event) (h : List SIn)
    (hf : Fit (run P (init cap t0 cells) h)) :
    ∃ h', (Disc.run P {} h').st = (run P (init cap t0 cells) h).st ∧
      (∀ m ∈ (Disc.run P {} h').net, Disc.Fits m ∧ ∃ x ∈ (run P (init cap t0 cells) h).written, m ∈ x.2) ∧
      ∀ a b, h' = a ++ b → ∃ h1 h2, h = h1 ++ h2 ∧
        (Disc.run P {} a).st = (run P (init cap t0 cells) h1).st := by
  refine ⟨tr P (init cap t0 cells) {} h, (sim_init h hf).1.st, ?_, ?_⟩
  · intro m hm
    exact ⟨(sim_init h hf).1.fits hf m hm, (sim_init h hf).1.net m hm⟩
  · intro a b e
    obtain ⟨h1, h2, rfl, rfl⟩ := tr_prefix P h _ _ a b e
    exact ⟨h1, h2, rfl, (sim_init h1 (fit_left hf)).1.st⟩

/-- **C108 (publishers know only subscribers).** In any history over shared memory, every peer a publisher of
topic `n` knows is a subscriber that some process had for the same topic, in a process this one listens to. -/
theorem C108_publisher_knows_subscribers (P : Nat → Proc) (cap : Nat) (t0 : Int) (cells : Nat → Event)
    (h : List SIn) (hf : Fit (run P (init cap t0 cells) h)) (q : Nat) (o : Obj CS)
    (ho : o ∈ ((run P (init cap t0 cells) h).st q).pg) (s : Conn.State) (evs : List Conn.Ev)
    (hs : o.st = some (s, evs)) (p : Conn.Peer) (hp : p ∈ s.map.map.keys) :
    ∃ B j, Accepts (P q) (P B) ∧ p = speer (P B) j ∧ HadSub P (init cap t0 cells) h B j o.name := by
  obtain ⟨h', hst, hn, hpre⟩ := C108_refines_network P cap t0 cells h hf
  rw [← hst] at ho
  obtain ⟨B, j, h1, h2, a, b, e, o', ho', hx⟩ :=
    Disc.C106_publisher_knows_subscribers P h' (fun m hm => (hn m hm).1) q o ho s evs hs p hp
  obtain ⟨a', b', e', hst'⟩ := hpre a b e
  rw [hst'] at ho'
  exact ⟨B, j, h1, h2, a', b', e', o', ho', hx⟩

/-- **C108 (subscribers know only publishers that know a subscriber).** As `C106`, over shared memory.
Missing for the full claim: that it is this subscriber the publisher knew (C57). -/
theorem C108_subscriber_knows_connected_publishers_partial (P : Nat → Proc) (cap : Nat) (t0 : Int)
    (cells : Nat → Event) (h : List SIn) (hf : Fit (run P (init cap t0 cells) h)) (q : Nat) (o : Obj CS)
    (ho : o ∈ ((run P (init cap t0 cells) h).st q).sg) (s : Conn.State) (evs : List Conn.Ev)
    (hs : o.st = some (s, evs)) (p : Conn.Peer) (hp : p ∈ s.map.map.keys) :
    ∃ A i B j, Accepts (P q) (P A) ∧ p = ppeer (P A) i ∧ Accepts (P A) (P B) ∧
      HadPub P (init cap t0 cells) h A i o.name (fun p' => p' = speer (P B) j) ∧
      HadSub P (init cap t0 cells) h B j o.name ∧ ((P B).host = (P A).host ↔ (P A).host = (P q).host) := by
  obtain ⟨h', hst, hn, hpre⟩ := C108_refines_network P cap t0 cells h hf
  rw [← hst] at ho
  obtain ⟨A, i, B, j, h1, h2, h3, ⟨a, b, e, o1, ho1, hx1⟩, ⟨c, d, e2, o2, ho2, hx2⟩, h4⟩ :=
    Disc.C106_subscriber_knows_connected_publishers_partial P h' (fun m hm => (hn m hm).1) q o ho s evs hs p hp
  obtain ⟨a', b', e', hst1⟩ := hpre a b e
  obtain ⟨c', d', e2', hst2⟩ := hpre c d e2
  rw [hst1] at ho1
  rw [hst2] at ho2
  exact ⟨A, i, B, j, h1, h2, h3, ⟨a', b', e', o1, ho1, hx1⟩, ⟨c', d', e2', o2, ho2, hx2⟩, h4⟩

/-! ## Learning -/

theorem acts_append (a b : List SIn) : acts (a ++ b) = acts a ++ acts b := by simp [acts]

theorem mem_tr (P : Nat → Proc) (h : List SIn) (w : SW) (D : World) (y : Disc.In) (hy : y ∈ tr P w D h) :
    y ∈ acts h ∨ (∃ p, y = .send p) ∨ (∃ p, y = .flush p) ∨ (∃ q k now, y = .arrive q k now) := by
  induction h generalizing w D with
  | nil => cases hy
  | cons x h ih =>
    simp only [tr] at hy
    rcases List.mem_append.1 hy with hy | hy
    · cases x with
      | act z =>
        simp only [tr1] at hy
        split at hy
        · rw [List.mem_singleton] at hy
          subst hy
          exact Or.inl (by simp [acts])
        · cases hy
      | write1 p a b n o =>
        simp only [tr1] at hy
        split at hy
        · exact Or.inr (Or.inl ⟨p, List.mem_singleton.1 hy⟩)
        · cases hy
      | write2 p n o =>
        simp only [tr1] at hy
        split at hy
        · exact Or.inr (Or.inr (Or.inl ⟨p, List.mem_singleton.1 hy⟩))
        · cases hy
      | apply q now =>
        simp only [tr1] at hy
        split at hy
        · split at hy
          · exact Or.inr (Or.inr (Or.inr ⟨q, _, now, List.mem_singleton.1 hy⟩))
          · cases hy
        · cases hy
      | _ => cases hy
    · rcases ih _ _ hy with h1 | h1
      · left
        have : acts (x :: h) = acts [x] ++ acts h := acts_append [x] h
        rw [this]
        exact List.mem_append_right _ h1
      · exact Or.inr h1

theorem pubKept_tr {P : Nat → Proc} {A i : Nat} {h : List SIn} (hk : Disc.PubKept A i (acts h)) (w : SW)
    (D : World) : Disc.PubKept A i (tr P w D h) := by
  intro y hy
  rcases mem_tr P h w D y hy with h1 | ⟨p, rfl⟩ | ⟨p, rfl⟩ | ⟨q, k, now, rfl⟩
  · exact hk y h1
  all_goals simp

theorem subKept_tr {P : Nat → Proc} {B j : Nat} {h : List SIn} (hk : Disc.SubKept B j (acts h)) (w : SW)
    (D : World) : Disc.SubKept B j (tr P w D h) := by
  intro y hy
  rcases mem_tr P h w D y hy with h1 | ⟨p, rfl⟩ | ⟨p, rfl⟩ | ⟨q, k, now, rfl⟩
  · exact hk y h1
  all_goals simp

/-- Translating loses no action of an application. -/
theorem acts_split (h : List SIn) (a : List Disc.In) (y : Disc.In) (b : List Disc.In)
    (e : acts h = a ++ y :: b) : ∃ h1 h2, h = h1 ++ .act y :: h2 ∧ acts h1 = a ∧ acts h2 = b := by
  induction h generalizing a with
  | nil => simp [acts] at e
  | cons x h ih =>
    have hx : acts (x :: h) = acts [x] ++ acts h := acts_append [x] h
    rw [hx] at e
    cases x with
    | act z =>
      have hz : acts [SIn.act z] = [z] := rfl
      rw [hz] at e
      cases a with
      | nil =>
        simp only [List.cons_append, List.nil_append, List.cons.injEq] at e
        obtain ⟨rfl, e⟩ := e
        exact ⟨[], h, rfl, rfl, e⟩
      | cons a0 a =>
        simp only [List.cons_append, List.nil_append, List.cons.injEq] at e
        obtain ⟨rfl, e⟩ := e
        obtain ⟨h1, h2, rfl, rfl, rfl⟩ := ih a e
        exact ⟨.act z :: h1, h2, rfl, rfl, rfl⟩
    | bind | unbind | write1 | write2 | wnext | crash | attach | pollBegin | pollNext | pollEnd | apply =>
      obtain ⟨h1, h2, rfl, rfl, rfl⟩ := ih a e
      exact ⟨_ :: h1, h2, rfl, rfl, rfl⟩

theorem pubLives_tr {P : Nat → Proc} {A i : Nat} {topic : Bytes} {h : List SIn}
    (hl : Disc.PubLives A i topic (acts h)) (w : SW) (D : World) :
    Disc.PubLives A i topic (tr P w D h) := by
  obtain ⟨a, b, e, ha, hb⟩ := hl
  obtain ⟨h1, h2, rfl, rfl, rfl⟩ := acts_split h a _ b e
  rw [tr_append]
  exact ⟨_, _, rfl, pubKept_tr ha _ _, pubKept_tr hb _ _⟩

theorem subLives_tr {P : Nat → Proc} {B j : Nat} {topic : Bytes} {h : List SIn}
    (hl : Disc.SubLives B j topic (acts h)) (w : SW) (D : World) :
    Disc.SubLives B j topic (tr P w D h) := by
  obtain ⟨a, b, e, ha, hb⟩ := hl
  obtain ⟨h1, h2, rfl, rfl, rfl⟩ := acts_split h a _ b e
  rw [tr_append]
  exact ⟨_, _, rfl, subKept_tr ha _ _, subKept_tr hb _ _⟩

theorem mono_tr {P : Nat → Proc} {q : Nat} (h : List SIn) {t0 : Int} (hm : Mono q t0 h) (w : SW) (D : World) :
    Disc.Mono q t0 (tr P w D h) := by
  induction h generalizing t0 w D with
  | nil => trivial
  | cons x h ih =>
    have key : ∀ t, t0 ≤ t → Disc.Mono q t (tr P (step P w x) (Disc.run P D (tr1 w D x)) h) →
        Disc.Mono q t0 (tr P (step P w x) (Disc.run P D (tr1 w D x)) h) :=
      fun t ht hx => Disc.Mono.weaken _ ht hx
    simp only [tr]
    simp only [Mono] at hm
    cases x with
    | act z =>
      simp only [tr1]
      simp only [clock] at hm
      split
      · rename_i hal
        have e : tr1 w D (.act z) = [z] := by simp only [tr1, if_pos hal]
        simp only [List.cons_append, List.nil_append, Disc.Mono]
        cases hc : Disc.clock q z with
        | some t =>
          simp only [hc] at hm ⊢
          exact ⟨hm.1, ih hm.2 _ _⟩
        | none =>
          simp only [hc] at hm ⊢
          exact ih hm _ _
      · rename_i hal
        have e : tr1 w D (.act z) = [] := by simp only [tr1, if_neg hal]
        cases hc : Disc.clock q z with
        | some t =>
          simp only [hc] at hm
          have := key t hm.1 (ih hm.2 _ _)
          rw [e] at this
          exact this
        | none =>
          simp only [hc] at hm
          exact ih hm _ _
    | write1 p a b n o =>
      simp only [tr1]
      simp only [clock] at hm
      split
      · simp only [List.cons_append, List.nil_append, Disc.Mono, Disc.clock]
        exact ih hm _ _
      · exact ih hm _ _
    | write2 p n o =>
      simp only [tr1]
      simp only [clock] at hm
      split
      · simp only [List.cons_append, List.nil_append, Disc.Mono, Disc.clock]
        exact ih hm _ _
      · exact ih hm _ _
    | apply p now =>
      by_cases hp : p = q
      · subst hp
        simp only [clock, if_pos] at hm
        have hx := ih hm.2 (step P w (.apply p now)) (Disc.run P D (tr1 w D (.apply p now)))
        have hcase : tr1 w D (.apply p now) = [] ∨ ∃ k, tr1 w D (.apply p now) = [.arrive p k now] := by
          simp only [tr1]
          split
          · split
            · exact Or.inr ⟨_, rfl⟩
            · exact Or.inl rfl
          · exact Or.inl rfl
        rcases hcase with e | ⟨k, e⟩
        · rw [e] at hx ⊢
          exact Disc.Mono.weaken _ hm.1 hx
        · rw [e] at hx ⊢
          simp only [List.cons_append, List.nil_append, Disc.Mono, Disc.clock, if_pos]
          exact ⟨hm.1, hx⟩
      · simp only [clock, if_neg hp] at hm
        have hx := ih hm (step P w (.apply p now)) (Disc.run P D (tr1 w D (.apply p now)))
        have hcase : tr1 w D (.apply p now) = [] ∨ ∃ k, tr1 w D (.apply p now) = [.arrive p k now] := by
          simp only [tr1]
          split
          · split
            · exact Or.inr ⟨_, rfl⟩
            · exact Or.inl rfl
          · exact Or.inl rfl
        rcases hcase with e | ⟨k, e⟩
        · rw [e] at hx ⊢; exact hx
        · rw [e] at hx ⊢
          simp only [List.cons_append, List.nil_append, Disc.Mono, Disc.clock, if_neg hp]
          exact hx
    | _ =>
      simp only [clock] at hm
      exact ih hm _ _

/-- The datagram a received sample of a topic stands for. -/
theorem apply_arrives {w : SW} {D : World} (hs : Sim w D) (hi : SInv w) (q : Nat)
    (now : Int) (m : RegSample) (ms : List RegSample) (hm : (w.rd q).inbox = m :: ms)
    (hc : m.cmd = 2 ∨ m.cmd = 12 ∨ m.cmd = 3 ∨ m.cmd = 13) :
    ∃ k m0, tr1 w D (.apply q now) = [.arrive q k now] ∧ D.net[k]? = some m0 ∧ m0.cmd = m.cmd ∧
      m0.hostName = m.hostName ∧ m0.processId = m.processId ∧ m0.entityId = m.entityId ∧
      m0.topic = m.topic := by
  obtain ⟨x, hx, m0, h0, rfl⟩ := hi.inbox q m (by rw [hm]; exact List.mem_cons_self)
  rw [Disc.transmitted_cmd] at hc
  have ht : Disc.isTopic m0 = true := by
    simp only [Disc.isTopic, decide_eq_true_eq]
    rcases hc with h | h | h | h <;> simp [h]
  cases hk : D.net.findIdx? (fun m' => Disc.isTopic m' && decide (Wire.transmitted m' = Wire.transmitted m0)) with
  | none =>
    have := List.findIdx?_eq_none_iff.1 hk m0 (hs.sent x hx m0 h0 ht)
    simp [ht] at this
  | some k =>
    obtain ⟨hlt, hp, _⟩ := List.findIdx?_eq_some_iff_getElem.1 hk
    simp only [Bool.and_eq_true, decide_eq_true_eq] at hp
    refine ⟨k, D.net[k], by simp only [tr1, hm, hk], List.getElem?_eq_getElem hlt, ?_⟩
    have hc' : (D.net[k]).cmd = 2 ∨ (D.net[k]).cmd = 12 ∨ (D.net[k]).cmd = 3 ∨ (D.net[k]).cmd = 13 := by
      have h1 := hp.1
      simp only [Disc.isTopic, decide_eq_true_eq] at h1
      rcases h1 with h | h | h | h <;> simp [h]
    obtain ⟨a1, a2, a3, a4, a5⟩ := Disc.transmitted_topic _ hc'
    rw [← hp.2]
    exact ⟨a1.symm, a2.symm, a3.symm, a4.symm, a5.symm⟩

/-- **C108 (a publisher learns of a subscriber).** A publisher exists, its process has received a registration
of a subscriber of its topic over shared memory and applies it; the subscriber is not destroyed.  Then,
whatever else happens, at every registration cycle that follows within the timeout the publisher knows the
subscriber and the application's last notification was 'connected'. -/
theorem C108_publisher_learns (P : Nat → Proc) (A i B j : Nat) (topic : Bytes) (hne : topic ≠ [])
    (hacc : Accepts (P A) (P B)) (hinj : ∀ B' j', speer (P B') j' = speer (P B) j → B' = B ∧ j' = j)
    (cap : Nat) (c0 : Int) (cells : Nat → Event) (h0 h3 : List SIn) (t0 t1 t2 : Int) (iS iP : Nat → RTopic)
    (H : List SIn) (hH : H = h0 ++ .apply A t1 :: h3)
    (hf : Fit (run P (init cap c0 cells) H))
    (hl : Disc.PubLives A i topic (acts h0)) (hk : Disc.PubKept A i (acts h3))
    (m : RegSample) (ms : List RegSample)
    (hin : ((run P (init cap c0 cells) h0).rd A).inbox = m :: ms) (hd : IsSubReg (P B) j topic m)
    (hdel : ∀ t info, Disc.In.delSub B j t info ∉ acts H)
    (hm : Mono A t0 (H ++ [.act (.collect A t2 iS iP)]))
    (hout : ((run P (init cap c0 cells) H).st A).out = none)
    (hidle : idle (run P (init cap c0 cells) H) A = true)
    (ht : t2 - (P A).timeout ≤ t1) :
    PubConnected (run P (init cap c0 cells) (H ++ [.act (.collect A t2 iS iP)])) A i topic
      (speer (P B) j) := by
  have hf0 : Fit (run P (init cap c0 cells) h0) := by rw [hH] at hf; exact fit_left hf
  obtain ⟨hs0, hi0⟩ := sim_init h0 hf0
  obtain ⟨d1, d2, d3, d4, d5, d6⟩ := hd
  obtain ⟨k, m0, e1, hk0, f1, f2, f3, f4, f5⟩ := apply_arrives hs0 hi0 A t1 m ms hin
    (Or.inr (Or.inr (Or.inl d1)))
  have etr : tr P (init cap c0 cells) {} H = tr P (init cap c0 cells) {} h0 ++ .arrive A k t1 ::
      tr P (step P (run P (init cap c0 cells) h0) (.apply A t1))
        (Disc.run P (Disc.run P {} (tr P (init cap c0 cells) {} h0)) [.arrive A k t1]) h3 := by
    rw [hH, tr_append, tr, e1]; rfl
  have ecol : tr P (init cap c0 cells) {} (H ++ [.act (.collect A t2 iS iP)]) =
      tr P (init cap c0 cells) {} H ++ [.collect A t2 iS iP] := by
    rw [tr_append]
    simp [tr, tr1, allowed, hidle]
  have hwr : (run P (init cap c0 cells) (H ++ [.act (.collect A t2 iS iP)])).written =
      (run P (init cap c0 cells) H).written := by
    rw [run_append]
    show (step P _ (.act _)).written = _
    simp only [step]
    split <;> rfl
  have hf2 : Fit (run P (init cap c0 cells) (H ++ [.act (.collect A t2 iS iP)])) := by
    intro x hx; rw [hwr] at hx; exact hf x hx
  obtain ⟨hsH, hiH⟩ := sim_init H hf
  have hfin := Disc.C106_publisher_learns P A i B j k topic hne hacc hinj
    (tr P (init cap c0 cells) {} h0) _ t0 t1 t2 iS iP (etr ▸ hsH.fits hf)
    (pubLives_tr hl _ _) (pubKept_tr hk _ _)
    ⟨m0, hk0, f1.trans d1, f2.trans d2, f3.trans d3, f4.trans d4, (congrArg _ f5).trans d5,
      (congrArg _ f5).trans d6⟩
    (by
      intro t info hx
      rw [← etr] at hx
      rcases mem_tr P H _ _ _ hx with h1 | ⟨p, h1⟩ | ⟨p, h1⟩ | ⟨q, k, now, h1⟩
      · exact hdel t info h1
      all_goals cases h1)
    (by
      have := mono_tr (P := P) _ hm (init cap c0 cells) {}
      rw [ecol, etr] at this
      exact this)
    (by rw [← etr, hsH.st]; exact hout) ht
  rw [← etr, ← ecol] at hfin
  obtain ⟨o, ho, hx⟩ := hfin
  rw [(sim_init _ hf2).1.st] at ho
  exact ⟨o, ho, hx⟩

/-- **C108 (a subscriber learns of a publisher).** The same in the other direction: the registration of the
publisher says that it knows a subscriber on this host. -/
theorem C108_subscriber_learns (P : Nat → Proc) (A i B j : Nat) (topic : Bytes) (hne : topic ≠ [])
    (hacc : Accepts (P B) (P A)) (hinj : ∀ A' i', ppeer (P A') i' = ppeer (P A) i → A' = A ∧ i' = i)
    (cap : Nat) (c0 : Int) (cells : Nat → Event) (h0 h3 : List SIn) (t0 t1 t2 : Int) (iS iP : Nat → RTopic)
    (H : List SIn) (hH : H = h0 ++ .apply B t1 :: h3)
    (hf : Fit (run P (init cap c0 cells) H))
    (hl : Disc.SubLives B j topic (acts h0)) (hk : Disc.SubKept B j (acts h3))
    (m : RegSample) (ms : List RegSample)
    (hin : ((run P (init cap c0 cells) h0).rd B).inbox = m :: ms)
    (hd : IsPubReg (P A) i topic (P B).host m)
    (hdel : ∀ t info, Disc.In.delPub A i t info ∉ acts H)
    (hm : Mono B t0 (H ++ [.act (.collect B t2 iS iP)]))
    (hout : ((run P (init cap c0 cells) H).st B).out = none)
    (hidle : idle (run P (init cap c0 cells) H) B = true)
    (ht : t2 - (P B).timeout ≤ t1) :
    SubConnected (run P (init cap c0 cells) (H ++ [.act (.collect B t2 iS iP)])) B j topic
      (ppeer (P A) i) := by
  have hf0 : Fit (run P (init cap c0 cells) h0) := by rw [hH] at hf; exact fit_left hf
  obtain ⟨hs0, hi0⟩ := sim_init h0 hf0
  obtain ⟨d1, d2, d3, d4, d5, d6, d7, d8⟩ := hd
  obtain ⟨k, m0, e1, hk0, f1, f2, f3, f4, f5⟩ := apply_arrives hs0 hi0 B t1 m ms hin (Or.inl d1)
  have etr : tr P (init cap c0 cells) {} H = tr P (init cap c0 cells) {} h0 ++ .arrive B k t1 ::
      tr P (step P (run P (init cap c0 cells) h0) (.apply B t1))
        (Disc.run P (Disc.run P {} (tr P (init cap c0 cells) {} h0)) [.arrive B k t1]) h3 := by
    rw [hH, tr_append, tr, e1]; rfl
  have ecol : tr P (init cap c0 cells) {} (H ++ [.act (.collect B t2 iS iP)]) =
      tr P (init cap c0 cells) {} H ++ [.collect B t2 iS iP] := by
    rw [tr_append]
    simp [tr, tr1, allowed, hidle]
  have hwr : (run P (init cap c0 cells) (H ++ [.act (.collect B t2 iS iP)])).written =
      (run P (init cap c0 cells) H).written := by
    rw [run_append]
    show (step P _ (.act _)).written = _
    simp only [step]
    split <;> rfl
  have hf2 : Fit (run P (init cap c0 cells) (H ++ [.act (.collect B t2 iS iP)])) := by
    intro x hx; rw [hwr] at hx; exact hf x hx
  obtain ⟨hsH, hiH⟩ := sim_init H hf
  have hfin := Disc.C106_subscriber_learns P A i B j k topic hne hacc hinj
    (tr P (init cap c0 cells) {} h0) _ t0 t1 t2 iS iP (etr ▸ hsH.fits hf)
    (subLives_tr hl _ _) (subKept_tr hk _ _)
    ⟨m0, hk0, f1.trans d1, f2.trans d2, f3.trans d3, f4.trans d4, (congrArg _ f5).trans d5,
      (congrArg _ f5).trans d6, by rw [f5]; exact d7, by rw [f5]; exact d8⟩
    (by
      intro t info hx
      rw [← etr] at hx
      rcases mem_tr P H _ _ _ hx with h1 | ⟨p, h1⟩ | ⟨p, h1⟩ | ⟨q, k, now, h1⟩
      · exact hdel t info h1
      all_goals cases h1)
    (by
      have := mono_tr (P := P) _ hm (init cap c0 cells) {}
      rw [ecol, etr] at this
      exact this)
    (by rw [← etr, hsH.st]; exact hout) ht
  rw [← etr, ← ecol] at hfin
  obtain ⟨o, ho, hx⟩ := hfin
  rw [(sim_init _ hf2).1.st] at ho
  exact ⟨o, ho, hx⟩

end Ecal.E2E.ShmReg
