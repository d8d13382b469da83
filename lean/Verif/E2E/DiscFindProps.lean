import Verif.E2E.DiscLearnProps

/-! # C106, third part: the whole exchange, and forgetting -/

namespace Ecal.E2E.Disc

open Ecal.Wire (RegSample RTopic IsMap)
open Ecal.Gate (Obj CS POp SOp GOp gstep cstep eraseFirst)

/-- The publishers of process `A` know fewer than 2^31 subscribers each. -/
def Few (w : World) (A : Nat) : Prop :=
  ∀ o ∈ (w.st A).pg, ∀ s evs, o.st = some (s, evs) → s.map.map.length < 2 ^ 31

/-! ## Announcing -/

theorem out_stable (P : Nat → Proc) (p : Nat) (m : RegSample) (h : List In) (w : World)
    (hw : ∃ l, (w.st p).out = some l ∧ (m ∈ l ∨ m ∈ w.net)) (hn : In.flush p ∉ h) :
    ∃ l, ((run P w h).st p).out = some l ∧ (m ∈ l ∨ m ∈ (run P w h).net) := by
  induction h generalizing w with
  | nil => exact hw
  | cons x h ih =>
    obtain ⟨l, hl, hm⟩ := hw
    have hnet : m ∈ w.net → m ∈ net' w x := by
      intro hx
      obtain ⟨l', hl'⟩ := net_grows P w [x]
      have : net' w x = w.net ++ l' := hl'
      rw [this]; simp [hx]
    apply ih (step P w x)
    · simp only [Disc.step]
      cases x with
      | collect p' now a b =>
        refine ⟨l, ?_, hm.imp_right hnet⟩
        simp only [out']
        split
        · rename_i hc; rw [hl] at hc; cases hc.2
        · exact hl
      | send p' =>
        by_cases hp : p' = p
        · subst hp
          refine ⟨[], by simp [out', hl], Or.inr ?_⟩
          simp only [net', hl]
          rcases hm with hm | hm <;> simp [hm]
        · exact ⟨l, by simp [out', hp, hl], hm.imp_right hnet⟩
      | flush p' =>
        refine ⟨l, ?_, hm.imp_right hnet⟩
        simp only [out']
        split
        · rename_i hc; subst hc; exact absurd (List.mem_cons_self) hn
        · exact hl
      | _ => exact ⟨l, hl, hm.imp_right hnet⟩
    · intro hx; exact hn (List.mem_cons_of_mem _ hx)

/-- What was collected is in the network after the flush. -/
theorem flushed (P : Nat → Proc) (p : Nat) (h h1 : List In) (now : Int) (iS iP : Nat → RTopic)
    (hout : ((run P {} h).st p).out = none) (hn : In.flush p ∉ h1) (m : RegSample)
    (hm : m ∈ (((run P {} (h ++ [.collect p now iS iP])).st p).sg.map (fun o => subSample (P p) (iS o.id) o) ++
      ((run P {} (h ++ [.collect p now iS iP])).st p).pg.map (fun o => pubSample (P p) (iP o.id) o))) :
    ∃ k : Nat, (run P {} (h ++ .collect p now iS iP :: h1 ++ [.flush p])).net[k]? = some m := by
  have e : h ++ In.collect p now iS iP :: h1 = (h ++ [.collect p now iS iP]) ++ h1 := by simp
  have ho : ((run P {} (h ++ [.collect p now iS iP])).st p).out = some
      (((run P {} (h ++ [.collect p now iS iP])).st p).sg.map (fun o => subSample (P p) (iS o.id) o) ++
      ((run P {} (h ++ [.collect p now iS iP])).st p).pg.map (fun o => pubSample (P p) (iP o.id) o)) := by
    rw [run_snoc]
    simp only [Disc.step, out']
    rw [if_pos ⟨trivial, hout⟩]
  obtain ⟨l, ho2, hm2⟩ := out_stable P p m h1 _ ⟨_, ho, Or.inl hm⟩ hn
  rw [← run_append, ← e] at ho2 hm2
  rw [run_snoc]
  simp only [Disc.step, net', ho2]
  apply List.getElem?_of_mem
  rcases hm2 with hm2 | hm2 <;> simp [hm2]

theorem sub_there (P : Nat → Proc) (B j : Nat) (topic : Bytes) (h : List In) (hl : SubLives B j topic h) :
    ∃ o ∈ ((run P {} h).st B).sg, o.id = j ∧ o.name = str topic := by
  obtain ⟨h1, h2, rfl, hk1, hk2⟩ := hl
  have e : h1 ++ In.newSub B j topic :: h2 = (h1 ++ [.newSub B j topic]) ++ h2 := by simp
  have hh : subHist P B {} (h1 ++ .newSub B j topic :: h2) = subHist P B {} h1 ++
      .create j (str topic) (P B).timeout :: subHist P B (run P {} (h1 ++ [.newSub B j topic])) h2 := by
    rw [e, subHist_append, subHist_append]
    simp [subHist, subOps]
  rw [run_sg, hh]
  obtain ⟨⟨o, ho, hid⟩, ha⟩ := Gate.grun_registered cstep
    ((subHist P B {} h1).flatMap (Gate.subGateOps (str (P B).host)))
    ((subHist P B (run P {} (h1 ++ [.newSub B j topic])) h2).flatMap (Gate.subGateOps (str (P B).host)))
    j (str topic) (some (Conn.init (P B).timeout, []))
    (Gate.subGate_untouched _ j _ (subHist_untouched P B j h1 {} hk1))
    (Gate.subGate_untouched _ j _ (subHist_untouched P B j h2 _ hk2))
  refine ⟨o, ?_, hid, ?_⟩
  · show o ∈ Gate.subGateRun (str (P B).host) [] _
    simp only [Gate.subGateRun, List.flatMap_append, List.flatMap_cons, Gate.subGateOps,
      List.singleton_append]
    exact ho
  · rw [ha o ho hid]

/-- **C106 (a subscriber is announced).** A registration cycle of the process of a subscriber, from collecting
to sending, sends a registration of the subscriber. -/
theorem C106_subscriber_announced (P : Nat → Proc) (B j : Nat) (topic : Bytes) (h h1 : List In) (now : Int)
    (iS iP : Nat → RTopic) (hl : SubLives B j topic h) (hout : ((run P {} h).st B).out = none)
    (hn : In.flush B ∉ h1) :
    ∃ k, SubDatagram P (run P {} (h ++ .collect B now iS iP :: h1 ++ [.flush B])) k B j topic := by
  have hl' : SubLives B j topic (h ++ [.collect B now iS iP]) :=
    hl.more (by intro x hx; simp only [List.mem_singleton] at hx; subst hx; simp)
  obtain ⟨o, ho, hid, hnm⟩ := sub_there P B j topic _ hl'
  obtain ⟨k, hk⟩ := flushed P B h h1 now iS iP hout hn (subSample (P B) (iS o.id) o)
    (List.mem_append_left _ (List.mem_map.2 ⟨o, ho, rfl⟩))
  refine ⟨k, _, hk, rfl, rfl, rfl, ?_, rfl, ?_⟩
  · show (P B).stid o.id = _
    rw [hid]
  · show unstr o.name = _
    rw [hnm, unstr_str]

theorem ofInt_pos (c : Int) (h0 : 0 < c) (h1 : c < 2 ^ 31) : (BitVec.ofInt 32 c).toInt > 0 := by
  rw [BitVec.toInt_ofInt]
  have : c.bmod (2 ^ 32) = c := by
    apply Int.bmod_eq_of_le <;> omega
  omega

theorem counts_of_key (A : Proc) (o : Obj CS) (s : Conn.State) (evs : List Conn.Ev)
    (hs : o.st = some (s, evs)) (p : Conn.Peer) (hp : p ∈ s.map.map.keys) (hlen : s.map.map.length < 2 ^ 31) :
    (p.host = str A.host → (BitVec.ofInt 32 (counts A o).1).toInt > 0) ∧
    (p.host ≠ str A.host → (BitVec.ofInt 32 (counts A o).2).toInt > 0) := by
  obtain ⟨e, he, hep⟩ := List.mem_map.1 hp
  subst hep
  simp only [counts, hs, Gate.connCounts]
  have hle : (s.map.map.filter (fun e => e.1.host == str A.host)).length ≤ s.map.map.length :=
    List.length_filter_le _ _
  constructor
  · intro hh
    apply ofInt_pos
    · have : 0 < (s.map.map.filter (fun e => e.1.host == str A.host)).length := by
        apply List.length_pos_of_mem (a := e)
        rw [List.mem_filter]
        exact ⟨he, by simpa using hh⟩
      omega
    · omega
  · intro hh
    apply ofInt_pos
    · have : (s.map.map.filter (fun e => e.1.host == str A.host)).length < s.map.map.length := by
        apply Classical.byContradiction
        intro hx
        have heq : (s.map.map.filter (fun e => e.1.host == str A.host)).length = s.map.map.length := by omega
        rw [List.length_filter_eq_length_iff] at heq
        have := heq e he
        exact hh (by simpa using this)
      omega
    · omega

/-- **C106 (a connected publisher announces the connection).** If after collecting the publisher knows a
subscriber on host `host`, then the registration sent says so. -/
theorem C106_publisher_announced (P : Nat → Proc) (A i : Nat) (topic host : Bytes) (h h1 : List In)
    (now : Int) (iS iP : Nat → RTopic) (hout : ((run P {} h).st A).out = none) (hn : In.flush A ∉ h1)
    (p : Conn.Peer) (hh : p.host = str host)
    (hc : PubConnected (run P {} (h ++ [.collect A now iS iP])) A i topic p)
    (hlen : Few (run P {} (h ++ [.collect A now iS iP])) A) :
    ∃ k, PubDatagram P (run P {} (h ++ .collect A now iS iP :: h1 ++ [.flush A])) k A i topic host := by
  obtain ⟨o, ho, hid, hnm, s, evs, hst, hp, _⟩ := hc
  obtain ⟨k, hk⟩ := flushed P A h h1 now iS iP hout hn (pubSample (P A) (iP o.id) o)
    (List.mem_append_right _ (List.mem_map.2 ⟨o, ho, rfl⟩))
  obtain ⟨c1, c2⟩ := counts_of_key (P A) o s evs hst p hp (hlen o ho s evs hst)
  refine ⟨k, _, hk, rfl, rfl, rfl, ?_, rfl, ?_, ?_, ?_⟩
  · show (P A).ptid o.id = _
    rw [hid]
  · show unstr o.name = _
    rw [hnm, unstr_str]
  · intro e; exact c1 (by rw [hh, e])
  · intro e; exact c2 (fun hx => e (str_inj (hh.symm.trans hx)))

/-! ## The whole exchange -/

/-- **C106 (publisher and subscriber find each other).** Publisher `i` of process `A` and subscriber `j` of
process `B` of the same topic exist, the two processes listen to each other.  `B` runs a registration cycle.
Then one of its datagrams makes the following true, whatever happens in between, in these or other
processes: once it reached `A`, the next cycle of `A` (within the timeout) finds the publisher connected with
the subscriber, and one of the datagrams of that cycle has this effect: once it reached `B`, the next cycle of
`B` (within the timeout) finds the subscriber connected with the publisher. -/
theorem C106_find_each_other (P : Nat → Proc) (A i B j : Nat) (topic : Bytes) (hne : topic ≠ [])
    (hAB : Accepts (P A) (P B)) (hBA : Accepts (P B) (P A))
    (hinjS : ∀ B' j', speer (P B') j' = speer (P B) j → B' = B ∧ j' = j)
    (hinjP : ∀ A' i', ppeer (P A') i' = ppeer (P A) i → A' = A ∧ i' = i)
    (h0 h1 : List In) (b0 : Int) (iS0 iP0 : Nat → RTopic)
    (hlA : PubLives A i topic h0) (hlB : SubLives B j topic h0)
    (hkA1 : PubKept A i h1) (hkB1 : SubKept B j h1)
    (ho0 : ((run P {} h0).st B).out = none) (hn1 : In.flush B ∉ h1) :
    ∃ k, ∀ (h2 h3 h4 : List In) (a1 a2 : Int) (iS1 iP1 : Nat → RTopic) (H1 : List In),
      H1 = h0 ++ .collect B b0 iS0 iP0 :: h1 ++ [.flush B] ++ h2 ++ .arrive A k a1 :: h3 →
      (∀ m ∈ (run P {} H1).net, Fits m) → PubKept A i (h2 ++ h3 ++ h4) → SubKept B j (h2 ++ h3 ++ h4) →
      (∃ t, Mono A t (H1 ++ [.collect A a2 iS1 iP1])) → a2 - (P A).timeout ≤ a1 →
      ((run P {} H1).st A).out = none → In.flush A ∉ h4 →
      Few (run P {} (H1 ++ [.collect A a2 iS1 iP1])) A →
      PubConnected (run P {} (H1 ++ [.collect A a2 iS1 iP1])) A i topic (speer (P B) j) ∧
      ∃ k', ∀ (h5 h6 : List In) (b1 b2 : Int) (iS2 iP2 : Nat → RTopic) (H2 : List In),
        H2 = H1 ++ .collect A a2 iS1 iP1 :: h4 ++ [.flush A] ++ h5 ++ .arrive B k' b1 :: h6 →
        (∀ m ∈ (run P {} H2).net, Fits m) → PubKept A i (h5 ++ h6) → SubKept B j (h5 ++ h6) →
        (∃ t, Mono B t (H2 ++ [.collect B b2 iS2 iP2])) → b2 - (P B).timeout ≤ b1 →
        ((run P {} H2).st B).out = none →
        SubConnected (run P {} (H2 ++ [.collect B b2 iS2 iP2])) B j topic (ppeer (P A) i) := by
  have kept_append : ∀ a b, PubKept A i (a ++ b) → PubKept A i a ∧ PubKept A i b := fun a b h =>
    ⟨fun x hx => h x (List.mem_append_left _ hx), fun x hx => h x (List.mem_append_right _ hx)⟩
  have kept_join : ∀ a b, PubKept A i a → PubKept A i b → PubKept A i (a ++ b) := fun a b h1 h2 x hx =>
    (List.mem_append.1 hx).elim (h1 x) (h2 x)
  have skept_append : ∀ a b, SubKept B j (a ++ b) → SubKept B j a ∧ SubKept B j b := fun a b h =>
    ⟨fun x hx => h x (List.mem_append_left _ hx), fun x hx => h x (List.mem_append_right _ hx)⟩
  have skept_join : ∀ a b, SubKept B j a → SubKept B j b → SubKept B j (a ++ b) := fun a b h1 h2 x hx =>
    (List.mem_append.1 hx).elim (h1 x) (h2 x)
  have c1 : ∀ q n a b, PubKept A i [In.collect q n a b] := fun q n a b x hx => by
    simp only [List.mem_singleton] at hx; subst hx; simp
  have c2 : ∀ q n a b, SubKept B j [In.collect q n a b] := fun q n a b x hx => by
    simp only [List.mem_singleton] at hx; subst hx; simp
  have f1 : ∀ q, PubKept A i [In.flush q] := fun q x hx => by
    simp only [List.mem_singleton] at hx; subst hx; simp
  have f2 : ∀ q, SubKept B j [In.flush q] := fun q x hx => by
    simp only [List.mem_singleton] at hx; subst hx; simp
  have a1' : ∀ q k t, PubKept A i [In.arrive q k t] := fun q k t x hx => by
    simp only [List.mem_singleton] at hx; subst hx; simp
  have a2' : ∀ q k t, SubKept B j [In.arrive q k t] := fun q k t x hx => by
    simp only [List.mem_singleton] at hx; subst hx; simp
  obtain ⟨k, m, hk, hd⟩ := C106_subscriber_announced P B j topic h0 h1 b0 iS0 iP0 hlB ho0 hn1
  refine ⟨k, ?_⟩
  intro h2 h3 h4 a1 a2 iS1 iP1 H1 hH1 hf1 hkA hkB hmA hta hoA hn4 hlen
  obtain ⟨tA, hmA⟩ := hmA
  obtain ⟨hkA23, hkA4⟩ := kept_append _ _ hkA
  obtain ⟨hkA2, hkA3⟩ := kept_append _ _ hkA23
  obtain ⟨hkB23, hkB4⟩ := skept_append _ _ hkB
  obtain ⟨hkB2, hkB3⟩ := skept_append _ _ hkB23
  have hlA1 : PubLives A i topic (h0 ++ .collect B b0 iS0 iP0 :: h1 ++ [.flush B] ++ h2) := by
    have := hlA.more (kept_join _ _ (kept_join _ _ (kept_join _ _ (c1 B b0 iS0 iP0) hkA1) (f1 B)) hkA2)
    simpa using this
  have hlB1 : SubLives B j topic H1 := by
    have := hlB.more (skept_join _ _ (skept_join _ _ (skept_join _ _ (skept_join _ _ (skept_join _ _
      (c2 B b0 iS0 iP0) hkB1) (f2 B)) hkB2) (a2' A k a1)) hkB3)
    rw [hH1]; simpa using this
  have hlA1' : PubLives A i topic H1 := by
    have := hlA1.more (kept_join _ _ (a1' A k a1) hkA3)
    rw [hH1]; simpa using this
  have hsub : SubDatagram P (run P {} (h0 ++ .collect B b0 iS0 iP0 :: h1 ++ [.flush B] ++ h2)) k B j topic := by
    refine ⟨m, ?_, hd⟩
    rw [run_append]
    obtain ⟨l, hl⟩ := net_grows P (run P {} (h0 ++ .collect B b0 iS0 iP0 :: h1 ++ [.flush B])) h2
    rw [hl]
    have hlt := (List.getElem?_eq_some_iff.1 hk).1
    rw [List.getElem?_append_left hlt]
    exact hk
  have hconn := C106_publisher_learns P A i B j k topic hne hAB hinjS
    (h0 ++ .collect B b0 iS0 iP0 :: h1 ++ [.flush B] ++ h2) h3 tA a1 a2 iS1 iP1 (hH1 ▸ hf1) hlA1 hkA3 hsub
    (fun t info => hH1 ▸ hlB1.nodel t info) (hH1 ▸ hmA) (hH1 ▸ hoA) hta
  rw [← hH1] at hconn
  refine ⟨hconn, ?_⟩
  obtain ⟨k', m', hk', hd'⟩ := C106_publisher_announced P A i topic (P B).host H1 h4 a2 iS1 iP1 hoA hn4
    (speer (P B) j) rfl hconn hlen
  refine ⟨k', ?_⟩
  intro h5 h6 b1 b2 iS2 iP2 H2 hH2 hf2 hkA' hkB' hmB htb hoB
  obtain ⟨tB, hmB⟩ := hmB
  obtain ⟨hkA5, hkA6⟩ := kept_append _ _ hkA'
  obtain ⟨hkB5, hkB6⟩ := skept_append _ _ hkB'
  have hlB2 : SubLives B j topic (H1 ++ .collect A a2 iS1 iP1 :: h4 ++ [.flush A] ++ h5) := by
    have := hlB1.more (skept_join _ _ (skept_join _ _ (skept_join _ _ (c2 A a2 iS1 iP1) hkB4) (f2 A)) hkB5)
    simpa using this
  have hlA2 : PubLives A i topic H2 := by
    have := hlA1'.more (kept_join _ _ (kept_join _ _ (kept_join _ _ (kept_join _ _ (kept_join _ _
      (c1 A a2 iS1 iP1) hkA4) (f1 A)) hkA5) (a1' B k' b1)) hkA6)
    rw [hH2]; simpa using this
  have hpub : PubDatagram P (run P {} (H1 ++ .collect A a2 iS1 iP1 :: h4 ++ [.flush A] ++ h5)) k' A i topic
      (P B).host := by
    refine ⟨m', ?_, hd'⟩
    rw [run_append]
    obtain ⟨l, hl⟩ := net_grows P (run P {} (H1 ++ .collect A a2 iS1 iP1 :: h4 ++ [.flush A])) h5
    rw [hl]
    have hlt := (List.getElem?_eq_some_iff.1 hk').1
    rw [List.getElem?_append_left hlt]
    exact hk'
  have hfin := C106_subscriber_learns P A i B j k' topic hne hBA hinjP
    (H1 ++ .collect A a2 iS1 iP1 :: h4 ++ [.flush A] ++ h5) h6 tB b1 b2 iS2 iP2 (hH2 ▸ hf2) hlB2 hkB6 hpub
    (fun t info => hH2 ▸ hlA2.nodel t info) (hH2 ▸ hmB) (hH2 ▸ hoB) htb
  rw [← hH2] at hfin
  exact hfin

/-! ## Forgetting -/

/-- The `k`-th datagram is the unregistration of the subscriber. -/
def SubGoneDatagram (P : Nat → Proc) (w : World) (k B j : Nat) (topic : Bytes) : Prop :=
  ∃ m, w.net[k]? = some m ∧ m.cmd = 13 ∧ m.hostName = (P B).host ∧ m.processId = (P B).pid ∧
    m.entityId = (P B).stid j ∧ m.topic.hgname = (P B).group ∧ m.topic.tname = topic

/-- The `k`-th datagram is the unregistration of the publisher. -/
def PubGoneDatagram (P : Nat → Proc) (w : World) (k A i : Nat) (topic : Bytes) : Prop :=
  ∃ m, w.net[k]? = some m ∧ m.cmd = 12 ∧ m.hostName = (P A).host ∧ m.processId = (P A).pid ∧
    m.entityId = (P A).ptid i ∧ m.topic.hgname = (P A).group ∧ m.topic.tname = topic

theorem pubSeen_some (n : String) (p : Conn.Peer) (l : List POp) (acc : Option Int) (r : Int)
    (h : l.foldl (Gate.pubSeen n p) acc = some r) :
    (∃ a reg b, l = a ++ .subReg r reg :: b ∧ reg.topic = n ∧ reg.peer = p ∧
      ∀ now r', POp.subUnreg now r' ∈ b → ¬ (r'.topic = n ∧ r'.peer = p)) ∨
    (acc = some r ∧ ∀ now r', POp.subUnreg now r' ∈ l → ¬ (r'.topic = n ∧ r'.peer = p)) := by
  induction l generalizing acc with
  | nil => exact Or.inr ⟨h, by intro now r' hx; cases hx⟩
  | cons x l ih =>
    rw [List.foldl_cons] at h
    rcases ih _ h with ⟨a, reg, b, e, h1, h2, h3⟩ | ⟨h1, h2⟩
    · exact Or.inl ⟨x :: a, reg, b, by rw [e]; rfl, h1, h2, h3⟩
    · cases x with
      | subReg now reg =>
        simp only [Gate.pubSeen] at h1
        by_cases e : reg.topic = n ∧ reg.peer = p
        · rw [if_pos e] at h1
          cases h1
          exact Or.inl ⟨[], reg, l, rfl, e.1, e.2, h2⟩
        · rw [if_neg e] at h1
          refine Or.inr ⟨h1, ?_⟩
          intro now' r' hx
          rcases List.mem_cons.1 hx with hx | hx
          · cases hx
          · exact h2 now' r' hx
      | subUnreg now reg =>
        simp only [Gate.pubSeen] at h1
        by_cases e : reg.topic = n ∧ reg.peer = p
        · rw [if_pos e] at h1; cases h1
        · rw [if_neg e] at h1
          refine Or.inr ⟨h1, ?_⟩
          intro now' r' hx
          rcases List.mem_cons.1 hx with hx | hx
          · cases hx; exact e
          · exact h2 now' r' hx
      | create | destroy | cycle =>
        refine Or.inr ⟨h1, ?_⟩
        intro now' r' hx
        rcases List.mem_cons.1 hx with hx | hx
        · cases hx
        · exact h2 now' r' hx

theorem subSeen_some (H n : String) (p : Conn.Peer) (l : List SOp) (acc : Option Int) (r : Int)
    (h : l.foldl (Gate.subSeen H n p) acc = some r) :
    (∃ a reg b, l = a ++ .pubReg r reg :: b ∧ reg.topic = n ∧ reg.peer = p ∧
      ((p.host = H ∧ reg.connLoc > 0) ∨ (p.host ≠ H ∧ reg.connExt > 0)) ∧
      ∀ now r', SOp.pubUnreg now r' ∈ b → ¬ (r'.topic = n ∧ r'.peer = p)) ∨
    (acc = some r ∧ ∀ now r', SOp.pubUnreg now r' ∈ l → ¬ (r'.topic = n ∧ r'.peer = p)) := by
  induction l generalizing acc with
  | nil => exact Or.inr ⟨h, by intro now r' hx; cases hx⟩
  | cons x l ih =>
    rw [List.foldl_cons] at h
    rcases ih _ h with ⟨a, reg, b, e, h1, h2, h3⟩ | ⟨h1, h2⟩
    · exact Or.inl ⟨x :: a, reg, b, by rw [e]; rfl, h1, h2, h3⟩
    · cases x with
      | pubReg now reg =>
        simp only [Gate.subSeen] at h1
        by_cases e : reg.topic = n ∧ reg.peer = p ∧
          ((p.host = H ∧ reg.connLoc > 0) ∨ (p.host ≠ H ∧ reg.connExt > 0))
        · rw [if_pos e] at h1
          cases h1
          exact Or.inl ⟨[], reg, l, rfl, e.1, e.2.1, e.2.2, h2⟩
        · rw [if_neg e] at h1
          refine Or.inr ⟨h1, ?_⟩
          intro now' r' hx
          rcases List.mem_cons.1 hx with hx | hx
          · cases hx
          · exact h2 now' r' hx
      | pubUnreg now reg =>
        simp only [Gate.subSeen] at h1
        by_cases e : reg.topic = n ∧ reg.peer = p
        · rw [if_pos e] at h1; cases h1
        · rw [if_neg e] at h1
          refine Or.inr ⟨h1, ?_⟩
          intro now' r' hx
          rcases List.mem_cons.1 hx with hx | hx
          · cases hx; exact e
          · exact h2 now' r' hx
      | create | destroy | cycle =>
        refine Or.inr ⟨h1, ?_⟩
        intro now' r' hx
        rcases List.mem_cons.1 hx with hx | hx
        · cases hx
        · exact h2 now' r' hx

theorem split_at {α : Type} (x y a : List α) (op : α) (b : List α) (h : x ++ y = a ++ op :: b) :
    (∃ d, x = a ++ op :: d ∧ b = d ++ y) ∨ ∃ c, y = c ++ op :: b := by
  induction x generalizing a with
  | nil => exact Or.inr ⟨a, h⟩
  | cons z x ih =>
    cases a with
    | nil =>
      simp only [List.cons_append, List.nil_append, List.cons.injEq] at h
      obtain ⟨rfl, rfl⟩ := h
      exact Or.inl ⟨x, rfl, rfl⟩
    | cons u a =>
      simp only [List.cons_append, List.cons.injEq] at h
      obtain ⟨rfl, h⟩ := h
      rcases ih a h with ⟨d, e1, e2⟩ | ⟨c, e⟩
      · exact Or.inl ⟨d, by rw [e1]; rfl, e2⟩
      · exact Or.inr ⟨c, e⟩

theorem split_pubHist (P : Nat → Proc) (q : Nat) (op : POp) (h : List In) (w : World) (a b : List POp)
    (e : pubHist P q w h = a ++ op :: b) :
    ∃ ha x hb, h = ha ++ x :: hb ∧ op ∈ pubOps P (run P w ha) q x ∧
      ∀ op' ∈ pubHist P q (run P w (ha ++ [x])) hb, op' ∈ b := by
  induction h generalizing w a with
  | nil => simp [pubHist] at e
  | cons x h ih =>
    rcases split_at _ _ _ _ _ e with ⟨d, e1, e2⟩ | ⟨c, e⟩
    · refine ⟨[], x, h, rfl, ?_, ?_⟩
      · show op ∈ pubOps P w q x
        rw [e1]; simp
      · intro op' ho
        rw [e2]
        exact List.mem_append_right _ ho
    · obtain ⟨ha, y, hb, rfl, h1, h2⟩ := ih _ _ e
      exact ⟨x :: ha, y, hb, rfl, h1, h2⟩

theorem split_subHist (P : Nat → Proc) (q : Nat) (op : SOp) (h : List In) (w : World) (a b : List SOp)
    (e : subHist P q w h = a ++ op :: b) :
    ∃ ha x hb, h = ha ++ x :: hb ∧ op ∈ subOps P (run P w ha) q x ∧
      ∀ op' ∈ subHist P q (run P w (ha ++ [x])) hb, op' ∈ b := by
  induction h generalizing w a with
  | nil => simp [subHist] at e
  | cons x h ih =>
    rcases split_at _ _ _ _ _ e with ⟨d, e1, e2⟩ | ⟨c, e⟩
    · refine ⟨[], x, h, rfl, ?_, ?_⟩
      · show op ∈ subOps P w q x
        rw [e1]; simp
      · intro op' ho
        rw [e2]
        exact List.mem_append_right _ ho
    · obtain ⟨ha, y, hb, rfl, h1, h2⟩ := ih _ _ e
      exact ⟨x :: ha, y, hb, rfl, h1, h2⟩

/-- A registration the gate got is an arrival of a registration datagram, with the same time. -/
theorem pubOps_reg_datagram (P : Nat → Proc) (h : List In) (q B j : Nat) (topic : Bytes) (x : In) (now : Int)
    (r : Gate.Reg) (hf : ∀ m ∈ (run P {} h).net, Fits m)
    (hinj : ∀ B' j', speer (P B') j' = speer (P B) j → B' = B ∧ j' = j)
    (hop : POp.subReg now r ∈ pubOps P (run P {} h) q x) (ht : r.topic = str topic)
    (hp : r.peer = speer (P B) j) :
    ∃ k, x = .arrive q k now ∧ SubDatagram P (run P {} h) k B j topic := by
  cases x with
  | newPub p i' topic => simp only [pubOps] at hop; split at hop <;> simp at hop
  | delPub p i' topic info => simp only [pubOps] at hop; split at hop <;> simp at hop
  | collect p now a b => simp only [pubOps] at hop; split at hop <;> simp at hop
  | newSub | delSub | again | other | send | flush => cases hop
  | arrive p k now' =>
    simp only [pubOps] at hop
    split at hop
    · rename_i hpq
      subst hpq
      split at hop
      · rename_i m hd
        unfold delivered at hd
        rw [Option.bind_eq_some_iff] at hd
        obtain ⟨m0, h0, hd⟩ := hd
        have hm0 := List.mem_of_getElem? h0
        rw [receive_datagram m0 (hf m0 hm0)] at hd
        cases hd
        have hs := (winv P h hf).net m0 hm0
        cases hs with
        | sub h1 h2 B' info o e ho =>
          obtain ⟨a, b⟩ := ops_topic (P p) (P B') now' (subSample (P B') info o) (Or.inr (Or.inr (Or.inl rfl)))
            rfl rfl rfl
          by_cases ha : Accepts (P p) (P B')
          · rw [(a ha).1, if_pos (by rfl)] at hop
            simp only [List.mem_singleton, POp.subReg.injEq] at hop
            obtain ⟨rfl, rfl⟩ := hop
            obtain ⟨rfl, hj⟩ := hinj B' o.id hp
            refine ⟨k, rfl, _, h0, rfl, rfl, rfl, ?_, rfl, ?_⟩
            · show (P B').stid o.id = _
              rw [hj]
            · exact str_inj ht
          · rw [(b ha).1] at hop; cases hop
        | pub h1 h2 A info o e ho =>
          obtain ⟨a, b⟩ := ops_topic (P p) (P A) now' (pubSample (P A) info o) (Or.inl rfl) rfl rfl rfl
          by_cases ha : Accepts (P p) (P A)
          · rw [(a ha).1, if_neg (by simp [pubSample]), if_neg (by simp [pubSample])] at hop; cases hop
          · rw [(b ha).1] at hop; cases hop
        | subGone B' j' t info ho hd =>
          obtain ⟨a, b⟩ := ops_topic (P p) (P B') now' (subGone (P B') info j' t)
            (Or.inr (Or.inr (Or.inr rfl))) rfl rfl rfl
          by_cases ha : Accepts (P p) (P B')
          · rw [(a ha).1, if_neg (by simp [subGone]), if_pos (by rfl)] at hop
            simp at hop
          · rw [(b ha).1] at hop; cases hop
        | pubGone A i t info hd =>
          obtain ⟨a, b⟩ := ops_topic (P p) (P A) now' (pubGone (P A) info i t) (Or.inr (Or.inl rfl)) rfl rfl
            rfl
          by_cases ha : Accepts (P p) (P A)
          · rw [(a ha).1, if_neg (by simp [pubGone]), if_neg (by simp [pubGone])] at hop; cases hop
          · rw [(b ha).1] at hop; cases hop
        | other _ hm =>
          rw [(ops_other (P p) now' m0 hm).1] at hop; cases hop
      · cases hop
    · cases hop

/-- The same for publishers' registrations that announce a connection on the own side. -/
theorem subOps_reg_datagram (P : Nat → Proc) (h : List In) (q A i : Nat) (topic : Bytes) (x : In) (now : Int)
    (r : Gate.Reg) (hf : ∀ m ∈ (run P {} h).net, Fits m)
    (hinj : ∀ A' i', ppeer (P A') i' = ppeer (P A) i → A' = A ∧ i' = i)
    (hop : SOp.pubReg now r ∈ subOps P (run P {} h) q x) (ht : r.topic = str topic)
    (hp : r.peer = ppeer (P A) i)
    (hc : ((ppeer (P A) i).host = str (P q).host ∧ r.connLoc > 0) ∨
      ((ppeer (P A) i).host ≠ str (P q).host ∧ r.connExt > 0)) :
    ∃ k, x = .arrive q k now ∧ PubDatagram P (run P {} h) k A i topic (P q).host := by
  cases x with
  | newSub p i' topic => simp only [subOps] at hop; split at hop <;> simp at hop
  | delSub p i' topic info => simp only [subOps] at hop; split at hop <;> simp at hop
  | collect p now a b => simp only [subOps] at hop; split at hop <;> simp at hop
  | newPub | delPub | again | other | send | flush => cases hop
  | arrive p k now' =>
    simp only [subOps] at hop
    split at hop
    · rename_i hpq
      subst hpq
      split at hop
      · rename_i m hd
        unfold delivered at hd
        rw [Option.bind_eq_some_iff] at hd
        obtain ⟨m0, h0, hd⟩ := hd
        have hm0 := List.mem_of_getElem? h0
        rw [receive_datagram m0 (hf m0 hm0)] at hd
        cases hd
        have hs := (winv P h hf).net m0 hm0
        cases hs with
        | sub h1 h2 B' info o e ho =>
          obtain ⟨a, b⟩ := ops_topic (P p) (P B') now' (subSample (P B') info o) (Or.inr (Or.inr (Or.inl rfl)))
            rfl rfl rfl
          by_cases ha : Accepts (P p) (P B')
          · rw [(a ha).2, if_neg (by simp [subSample]), if_neg (by simp [subSample])] at hop; cases hop
          · rw [(b ha).2] at hop; cases hop
        | pub h1 h2 A' info o e ho =>
          obtain ⟨a, b⟩ := ops_topic (P p) (P A') now' (pubSample (P A') info o) (Or.inl rfl) rfl rfl rfl
          by_cases ha : Accepts (P p) (P A')
          · rw [(a ha).2, if_pos (by rfl)] at hop
            simp only [List.mem_singleton, SOp.pubReg.injEq] at hop
            obtain ⟨rfl, rfl⟩ := hop
            obtain ⟨rfl, hj⟩ := hinj A' o.id hp
            refine ⟨k, rfl, _, h0, rfl, rfl, rfl, ?_, rfl, ?_, ?_, ?_⟩
            · show (P A').ptid o.id = _
              rw [hj]
            · exact str_inj ht
            · intro e
              rcases hc with hc | hc
              · exact hc.2
              · exact absurd (congrArg str e.symm) hc.1
            · intro e
              rcases hc with hc | hc
              · exact absurd (str_inj hc.1).symm e
              · exact hc.2
          · rw [(b ha).2] at hop; cases hop
        | subGone B' j' t info ho hd =>
          obtain ⟨a, b⟩ := ops_topic (P p) (P B') now' (subGone (P B') info j' t)
            (Or.inr (Or.inr (Or.inr rfl))) rfl rfl rfl
          by_cases ha : Accepts (P p) (P B')
          · rw [(a ha).2, if_neg (by simp [subGone]), if_neg (by simp [subGone])] at hop; cases hop
          · rw [(b ha).2] at hop; cases hop
        | pubGone A' i' t info hd =>
          obtain ⟨a, b⟩ := ops_topic (P p) (P A') now' (pubGone (P A') info i' t) (Or.inr (Or.inl rfl)) rfl rfl
            rfl
          by_cases ha : Accepts (P p) (P A')
          · rw [(a ha).2, if_neg (by simp [pubGone]), if_pos (by rfl)] at hop; simp at hop
          · rw [(b ha).2] at hop; cases hop
        | other _ hm =>
          rw [(ops_other (P p) now' m0 hm).2] at hop; cases hop
      · cases hop
    · cases hop

/-- **C106 (a publisher forgets a subscriber).** If every registration of the subscriber that reached the
process is older than the timeout or followed by the arrival of its unregistration, the publisher does not
know the subscriber after the cycle.  Missing for the full claim: a datagram of the registration can arrive
after the one of the unregistration, see `C106_violated_late_datagram`. -/
theorem C106_publisher_forgets_partial (P : Nat → Proc) (A i B j : Nat) (topic : Bytes) (hne : topic ≠ [])
    (hacc : Accepts (P A) (P B)) (hinj : ∀ B' j', speer (P B') j' = speer (P B) j → B' = B ∧ j' = j)
    (h : List In) (t0 t2 : Int) (iS iP : Nat → RTopic) (hf : ∀ m ∈ (run P {} h).net, Fits m)
    (hl : PubLives A i topic h) (hm : Mono A t0 (h ++ [.collect A t2 iS iP]))
    (hout : ((run P {} h).st A).out = none)
    (hold : ∀ h1 k t h2, h = h1 ++ .arrive A k t :: h2 → SubDatagram P (run P {} h1) k B j topic →
      t < t2 - (P A).timeout ∨ ∃ h3 k' t' h4, h2 = h3 ++ .arrive A k' t' :: h4 ∧
        SubGoneDatagram P (run P {} (h1 ++ .arrive A k t :: h3)) k' B j topic) :
    ∀ o ∈ ((run P {} (h ++ [.collect A t2 iS iP])).st A).pg, o.id = i →
      ∃ s evs, o.st = some (s, evs) ∧ speer (P B) j ∉ s.map.map.keys := by
  obtain ⟨ha, hb, rfl, hk1, hk2⟩ := hl
  obtain ⟨_, _, hall⟩ := pub_after_collect P A i topic hne ha hb hk1 hk2 t0 t2 iS iP hm hout
  intro o ho hid
  obtain ⟨hnm, s, evs, hst, hkeys, _⟩ := hall o ho hid
  refine ⟨s, evs, hst, ?_⟩
  intro hp
  obtain ⟨r, hr1, hr2⟩ := (hkeys _).1 hp
  rcases pubSeen_some _ _ _ _ _ hr1 with ⟨a, reg, b, e, g1, g2, g3⟩ | ⟨hx, _⟩
  · obtain ⟨hc, x, hd, rfl, hx1, hx2⟩ := split_pubHist P A _ hb _ a b e
    rw [← run_append] at hx1
    have e1 : ha ++ In.newPub A i topic :: (hc ++ x :: hd) = (ha ++ [.newPub A i topic] ++ hc) ++ x :: hd := by
      simp
    rw [e1] at hf hold
    obtain ⟨k, rfl, hdg⟩ := pubOps_reg_datagram P _ A B j topic x r reg (fits_prefix hf) hinj hx1 g1 g2
    rcases hold _ k r hd rfl hdg with hlt | ⟨h3, k', t', h4, rfl, hgone⟩
    · omega
    · obtain ⟨m, hmk, d1, d2, d3, d4, d5, d6⟩ := hgone
      have hfit : Fits m := by
        have e2 : ha ++ [In.newPub A i topic] ++ hc ++ In.arrive A k r :: (h3 ++ In.arrive A k' t' :: h4) =
            (ha ++ [In.newPub A i topic] ++ hc ++ In.arrive A k r :: h3) ++ In.arrive A k' t' :: h4 := by simp
        rw [e2] at hf
        exact fits_prefix hf m (List.mem_of_getElem? hmk)
      have hops : pubOps P (run P {} (ha ++ [In.newPub A i topic] ++ hc ++ In.arrive A k r :: h3)) A
          (.arrive A k' t') = [.subUnreg t' (regOf m)] := by
        have hdl : delivered (run P {} (ha ++ [In.newPub A i topic] ++ hc ++ In.arrive A k r :: h3)) k' =
            some (Wire.transmitted m) := by
          unfold delivered
          rw [hmk]
          exact receive_datagram m hfit
        simp only [pubOps, if_true, hdl]
        rw [((ops_topic (P A) (P B) t' m (Or.inr (Or.inr (Or.inr d1))) d2 d3 d5).1 hacc).1,
          if_neg (by rw [d1]; decide), if_pos d1]
      refine g3 t' (regOf m) (hx2 _ ?_) ⟨?_, ?_⟩
      · rw [pubHist_append, ← run_append, ← run_append]
        apply List.mem_append_right
        simp only [pubHist]
        apply List.mem_append_left
        have e3 : ha ++ [In.newPub A i topic] ++ (hc ++ [In.arrive A k r] ++ h3) =
            ha ++ [In.newPub A i topic] ++ hc ++ In.arrive A k r :: h3 := by simp
        have e4 : ha ++ [In.newPub A i topic] ++ (hc ++ [In.arrive A k r]) ++ h3 =
            ha ++ [In.newPub A i topic] ++ hc ++ In.arrive A k r :: h3 := by simp
        first
          | rw [e3, hops]; simp
          | rw [e4, hops]; simp
      · show str m.topic.tname = _
        rw [d6]
      · show (⟨str m.hostName, m.processId.toInt, str m.entityId⟩ : Conn.Peer) = _
        rw [d2, d3, d4]; rfl
  · cases hx

/-- **C106 (a subscriber forgets a publisher).** The same for subscribers; registrations of the publisher that
announce no connection on the own side do not count. -/
theorem C106_subscriber_forgets_partial (P : Nat → Proc) (A i B j : Nat) (topic : Bytes) (hne : topic ≠ [])
    (hacc : Accepts (P B) (P A)) (hinj : ∀ A' i', ppeer (P A') i' = ppeer (P A) i → A' = A ∧ i' = i)
    (h : List In) (t0 t2 : Int) (iS iP : Nat → RTopic) (hf : ∀ m ∈ (run P {} h).net, Fits m)
    (hl : SubLives B j topic h) (hm : Mono B t0 (h ++ [.collect B t2 iS iP]))
    (hout : ((run P {} h).st B).out = none)
    (hold : ∀ h1 k t h2, h = h1 ++ .arrive B k t :: h2 → PubDatagram P (run P {} h1) k A i topic (P B).host →
      t < t2 - (P B).timeout ∨ ∃ h3 k' t' h4, h2 = h3 ++ .arrive B k' t' :: h4 ∧
        PubGoneDatagram P (run P {} (h1 ++ .arrive B k t :: h3)) k' A i topic) :
    ∀ o ∈ ((run P {} (h ++ [.collect B t2 iS iP])).st B).sg, o.id = j →
      ∃ s evs, o.st = some (s, evs) ∧ ppeer (P A) i ∉ s.map.map.keys := by
  obtain ⟨ha, hb, rfl, hk1, hk2⟩ := hl
  obtain ⟨_, _, hall⟩ := sub_after_collect P B j topic hne ha hb hk1 hk2 t0 t2 iS iP hm hout
  intro o ho hid
  obtain ⟨hnm, s, evs, hst, hkeys, _⟩ := hall o ho hid
  refine ⟨s, evs, hst, ?_⟩
  intro hp
  obtain ⟨r, hr1, hr2⟩ := (hkeys _).1 hp
  rcases subSeen_some _ _ _ _ _ _ hr1 with ⟨a, reg, b, e, g1, g2, gc, g3⟩ | ⟨hx, _⟩
  · obtain ⟨hc, x, hd, rfl, hx1, hx2⟩ := split_subHist P B _ hb _ a b e
    rw [← run_append] at hx1
    have e1 : ha ++ In.newSub B j topic :: (hc ++ x :: hd) = (ha ++ [.newSub B j topic] ++ hc) ++ x :: hd := by
      simp
    rw [e1] at hf hold
    obtain ⟨k, rfl, hdg⟩ := subOps_reg_datagram P _ B A i topic x r reg (fits_prefix hf) hinj hx1 g1 g2 gc
    rcases hold _ k r hd rfl hdg with hlt | ⟨h3, k', t', h4, rfl, hgone⟩
    · omega
    · obtain ⟨m, hmk, d1, d2, d3, d4, d5, d6⟩ := hgone
      have hfit : Fits m := by
        have e2 : ha ++ [In.newSub B j topic] ++ hc ++ In.arrive B k r :: (h3 ++ In.arrive B k' t' :: h4) =
            (ha ++ [In.newSub B j topic] ++ hc ++ In.arrive B k r :: h3) ++ In.arrive B k' t' :: h4 := by simp
        rw [e2] at hf
        exact fits_prefix hf m (List.mem_of_getElem? hmk)
      have hops : subOps P (run P {} (ha ++ [In.newSub B j topic] ++ hc ++ In.arrive B k r :: h3)) B
          (.arrive B k' t') = [.pubUnreg t' (regOf m)] := by
        have hdl : delivered (run P {} (ha ++ [In.newSub B j topic] ++ hc ++ In.arrive B k r :: h3)) k' =
            some (Wire.transmitted m) := by
          unfold delivered
          rw [hmk]
          exact receive_datagram m hfit
        simp only [subOps, if_true, hdl]
        rw [((ops_topic (P B) (P A) t' m (Or.inr (Or.inl d1)) d2 d3 d5).1 hacc).2,
          if_neg (by rw [d1]; decide), if_pos d1]
      refine g3 t' (regOf m) (hx2 _ ?_) ⟨?_, ?_⟩
      · rw [subHist_append, ← run_append, ← run_append]
        apply List.mem_append_right
        simp only [subHist]
        apply List.mem_append_left
        have e3 : ha ++ [In.newSub B j topic] ++ (hc ++ [In.arrive B k r] ++ h3) =
            ha ++ [In.newSub B j topic] ++ hc ++ In.arrive B k r :: h3 := by simp
        have e4 : ha ++ [In.newSub B j topic] ++ (hc ++ [In.arrive B k r]) ++ h3 =
            ha ++ [In.newSub B j topic] ++ hc ++ In.arrive B k r :: h3 := by simp
        first
          | rw [e3, hops]; simp
          | rw [e4, hops]; simp
      · show str m.topic.tname = _
        rw [d6]
      · show (⟨str m.hostName, m.processId.toInt, str m.entityId⟩ : Conn.Peer) = _
        rw [d2, d3, d4]; rfl
  · cases hx

/-! ## Unregistrations are sent -/

/-- A sample waiting to be sent keeps waiting, or is in the network. -/
theorem pending_or_net (P : Nat → Proc) (B : Nat) (m : RegSample) (h : List In) (w : World)
    (hw : m ∈ (w.st B).pending ∨ m ∈ w.net) :
    m ∈ ((run P w h).st B).pending ∨ m ∈ (run P w h).net := by
  induction h generalizing w with
  | nil => exact hw
  | cons x h ih =>
    apply ih (step P w x)
    simp only [Disc.step]
    rcases hw with hw | hw
    · cases x with
      | flush p =>
        simp only [pending', net']
        by_cases hp : p = B
        · subst hp
          cases ho : (w.st p).out with
          | none =>
            left
            rw [if_neg (fun hx => hx.2 rfl)]
            exact hw
          | some l => right; simp [hw]
        · left
          rw [if_neg (fun hx => hp hx.1)]
          exact hw
      | delPub p i topic info => left; simp only [pending']; split <;> simp [hw]
      | delSub p i topic info => left; simp only [pending']; split <;> simp [hw]
      | again p i info => left; simp only [pending']; split <;> simp [hw]
      | other p m' => left; simp only [pending']; split <;> simp [hw]
      | newPub | newSub | collect | send | arrive => left; exact hw
    · right
      obtain ⟨l, hl⟩ := net_grows P w [x]
      have : net' w x = w.net ++ l := hl
      rw [this]; simp [hw]

/-- **C106 (unregistrations are sent).** The destruction of a subscriber is announced: whatever happens
afterwards, after the next completed cycle of its process the unregistration has been sent. -/
theorem C106_subscriber_unregistration_sent (P : Nat → Proc) (B j : Nat) (topic : Bytes) (info : RTopic)
    (h h1 : List In) (hl : SubLives B j topic h)
    (hout : ((run P {} (h ++ .delSub B j topic info :: h1)).st B).out ≠ none) :
    ∃ k, SubGoneDatagram P (run P {} (h ++ .delSub B j topic info :: h1 ++ [.flush B])) k B j topic := by
  obtain ⟨o, ho, hid, hnm⟩ := sub_there P B j topic h hl
  have hp : present ((run P {} h).st B).sg j (str topic) = true := by
    simp only [present, List.any_eq_true, decide_eq_true_eq]
    exact ⟨o, ho, hid, hnm⟩
  have h0 : subGone (P B) info j topic ∈ ((run P {} (h ++ [.delSub B j topic info])).st B).pending := by
    rw [run_snoc]
    simp only [Disc.step, pending']
    rw [if_pos ⟨trivial, hp⟩]
    simp
  have e : h ++ In.delSub B j topic info :: h1 = (h ++ [.delSub B j topic info]) ++ h1 := by simp
  have h1' := pending_or_net P B _ h1 _ (Or.inl h0)
  rw [← run_append, ← e] at h1'
  have hin : subGone (P B) info j topic ∈ (run P {} (h ++ .delSub B j topic info :: h1 ++ [.flush B])).net := by
    rw [run_snoc]
    simp only [Disc.step, net']
    cases hx : ((run P {} (h ++ .delSub B j topic info :: h1)).st B).out with
    | none => exact absurd hx hout
    | some l => rcases h1' with h | h <;> simp [h]
  obtain ⟨k, hk⟩ := List.getElem?_of_mem hin
  exact ⟨k, _, hk, rfl, rfl, rfl, rfl, rfl, rfl⟩

theorem pub_there (P : Nat → Proc) (A i : Nat) (topic : Bytes) (h : List In) (hl : PubLives A i topic h) :
    ∃ o ∈ ((run P {} h).st A).pg, o.id = i ∧ o.name = str topic := by
  obtain ⟨h1, h2, rfl, hk1, hk2⟩ := hl
  have e : h1 ++ In.newPub A i topic :: h2 = (h1 ++ [.newPub A i topic]) ++ h2 := by simp
  have hh : pubHist P A {} (h1 ++ .newPub A i topic :: h2) = pubHist P A {} h1 ++
      .create i (str topic) (P A).timeout :: pubHist P A (run P {} (h1 ++ [.newPub A i topic])) h2 := by
    rw [e, pubHist_append, pubHist_append]
    simp [pubHist, pubOps]
  rw [run_pg, hh]
  obtain ⟨⟨o, ho, hid⟩, ha⟩ := Gate.grun_registered cstep
    ((pubHist P A {} h1).flatMap Gate.pubGateOps)
    ((pubHist P A (run P {} (h1 ++ [.newPub A i topic])) h2).flatMap Gate.pubGateOps)
    i (str topic) (some (Conn.init (P A).timeout, []))
    (Gate.pubGate_untouched i _ (pubHist_untouched P A i h1 {} hk1))
    (Gate.pubGate_untouched i _ (pubHist_untouched P A i h2 _ hk2))
  refine ⟨o, ?_, hid, ?_⟩
  · show o ∈ Gate.pubGateRun [] _
    simp only [Gate.pubGateRun, List.flatMap_append, List.flatMap_cons, Gate.pubGateOps,
      List.singleton_append]
    exact ho
  · rw [ha o ho hid]

/-- **C106 (unregistrations are sent, publishers).** -/
theorem C106_publisher_unregistration_sent (P : Nat → Proc) (A i : Nat) (topic : Bytes) (info : RTopic)
    (h h1 : List In) (hl : PubLives A i topic h)
    (hout : ((run P {} (h ++ .delPub A i topic info :: h1)).st A).out ≠ none) :
    ∃ k, PubGoneDatagram P (run P {} (h ++ .delPub A i topic info :: h1 ++ [.flush A])) k A i topic := by
  obtain ⟨o, ho, hid, hnm⟩ := pub_there P A i topic h hl
  have hp : present ((run P {} h).st A).pg i (str topic) = true := by
    simp only [present, List.any_eq_true, decide_eq_true_eq]
    exact ⟨o, ho, hid, hnm⟩
  have h0 : pubGone (P A) info i topic ∈ ((run P {} (h ++ [.delPub A i topic info])).st A).pending := by
    rw [run_snoc]
    simp only [Disc.step, pending']
    rw [if_pos ⟨trivial, hp⟩]
    simp
  have e : h ++ In.delPub A i topic info :: h1 = (h ++ [.delPub A i topic info]) ++ h1 := by simp
  have h1' := pending_or_net P A _ h1 _ (Or.inl h0)
  rw [← run_append, ← e] at h1'
  have hin : pubGone (P A) info i topic ∈ (run P {} (h ++ .delPub A i topic info :: h1 ++ [.flush A])).net := by
    rw [run_snoc]
    simp only [Disc.step, net']
    cases hx : ((run P {} (h ++ .delPub A i topic info :: h1)).st A).out with
    | none => exact absurd hx hout
    | some l => rcases h1' with h | h <;> simp [h]
  obtain ⟨k, hk⟩ := List.getElem?_of_mem hin
  exact ⟨k, _, hk, rfl, rfl, rfl, rfl, rfl, rfl⟩

/-! ## Examples and the violation -/

/-- Every process on its own host, network mode. -/
def exP (p : Nat) : Proc :=
  { host := List.replicate (p + 1) 104, group := List.replicate (p + 1) 103, pid := .ofNat 32 (100 + p),
    network := true, loopback := false, timeout := 10, ptid := fun i => List.replicate (i + 1) 112,
    stid := fun j => List.replicate (j + 1) 115 }

def noInfo : Nat → RTopic := fun _ => {}

/-- The whole exchange: the publisher in process 0, the subscriber in process 1. -/
def exH : List In :=
  [.newPub 0 1 [116], .newSub 1 2 [116], .collect 1 0 noInfo noInfo, .flush 1, .arrive 0 0 1,
   .collect 0 2 noInfo noInfo, .flush 0, .arrive 1 1 3, .collect 1 4 noInfo noInfo]

def knows (g : List (Obj CS)) (p : Conn.Peer) : Bool :=
  g.any (fun o => match o.st with | some (s, _) => s.map.map.keys.contains p | none => false)

example : knows ((run exP {} exH).st 0).pg (speer (exP 1) 2) = true ∧
    knows ((run exP {} exH).st 1).sg (ppeer (exP 0) 1) = true := by decide +kernel

example : Accepts (exP 0) (exP 1) ∧ Accepts (exP 1) (exP 0) ∧ Mono 0 0 exH ∧ Mono 1 0 exH := by
  refine ⟨?_, ?_, ?_, ?_⟩ <;> simp [Accepts, exP, Mono, exH, clock]

/-- Names are unique. -/
example (B j : Nat) : ∀ B' j', speer (exP B') j' = speer (exP B) j → B' = B ∧ j' = j := by
  intro B' j' h
  simp only [speer, exP, Conn.Peer.mk.injEq] at h
  have h1 := congrArg List.length (str_inj h.1)
  have h2 := congrArg List.length (str_inj h.2.2)
  simp only [List.length_replicate] at h1 h2
  omega

example (A i : Nat) : ∀ A' i', ppeer (exP A') i' = ppeer (exP A) i → A' = A ∧ i' = i := by
  intro A' i' h
  simp only [ppeer, exP, Conn.Peer.mk.injEq] at h
  have h1 := congrArg List.length (str_inj h.1)
  have h2 := congrArg List.length (str_inj h.2.2)
  simp only [List.length_replicate] at h1 h2
  omega

/-- Every sample of the exchange can be sent; the threads wait when they should. -/
example : (∀ m ∈ (run exP {} exH).net, m.topic.attr = [] ∧ (Wire.serializeReg m).length < 1000) ∧
    ((run exP {} (exH.take 2)).st 1).out = none ∧ ((run exP {} (exH.take 5)).st 0).out = none ∧
    ((run exP {} (exH.take 8)).st 1).out = none := by decide +kernel

example : PubLives 0 1 [116] exH ∧ SubLives 1 2 [116] exH := by
  refine ⟨⟨[], exH.drop 1, rfl, ?_, ?_⟩, ⟨[.newPub 0 1 [116]], exH.drop 2, rfl, ?_, ?_⟩⟩ <;>
    simp [PubKept, SubKept, exH]

/-- After an unregistration, and after a silence, the publisher has forgotten. -/
example : knows ((run exP {} (exH ++ [.flush 1, .delSub 1 2 [116] {}, .collect 1 5 noInfo noInfo, .flush 1,
      .arrive 0 3 6, .collect 0 7 noInfo noInfo])).st 0).pg (speer (exP 1) 2) = false ∧
    knows ((run exP {} (exH ++ [.collect 0 12 noInfo noInfo])).st 0).pg (speer (exP 1) 2) = false ∧
    knows ((run exP {} (exH ++ [.collect 0 11 noInfo noInfo])).st 0).pg (speer (exP 1) 2) = true := by
  decide +kernel

/-- **C106 violated (a late datagram brings back a destroyed subscriber).** The subscriber announces itself
and is destroyed; both datagrams reach the publisher's process, the older one last.  The publisher knows a
subscriber that does not exist any more (until the timeout). -/
theorem C106_violated_late_datagram :
    let h := [In.newPub 0 1 [116], .newSub 1 2 [116], .collect 1 0 noInfo noInfo, .flush 1,
      .delSub 1 2 [116] {}, .collect 1 1 noInfo noInfo, .flush 1, .arrive 0 1 2, .arrive 0 0 3,
      .collect 0 4 noInfo noInfo]
    ((run exP {} h).st 1).sg.length = 0 ∧ knows ((run exP {} h).st 0).pg (speer (exP 1) 2) = true := by
  decide +kernel

end Ecal.E2E.Disc
