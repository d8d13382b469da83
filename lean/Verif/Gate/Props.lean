import Verif.Gate.Lemmas
import Verif.Reader.Lemmas

/-! # Properties C17, C57, C58: matching and routing in one process -/

namespace Ecal.Gate

/-- A subscriber registration for the examples. -/
def mkReg (topic host tid : String) (loc ext : Int := 0) : Reg :=
  { topic, peer := ⟨host, 1, tid⟩, layers := [⟨.shm, 2, true⟩], connLoc := loc, connExt := ext }

/-! ## C17 -/

/-- **C17 (publishers).** A publisher of topic `n` created at some point of any history of
the process (other publishers come and go, registrations for any topics arrive): after a
registration cycle at time `now` it is still there exactly with its name, and it counts
exactly the subscribers of its topic that registered since its creation, were not
unregistered and were seen within the timeout. -/
theorem C17_publisher_counts_alive_subscribers (id : Nat) (n : String) (hn : n ≠ "")
    (timeout t0 now : Int) (h1 h2 : List POp) (hu1 : POp.Untouched id h1)
    (hu2 : POp.Untouched id h2) (hm : POp.mono t0 (h2 ++ [.cycle now])) :
    let g := pubGateRun [] (h1 ++ .create id n timeout :: h2 ++ [.cycle now])
    (∃ o ∈ g, o.id = id) ∧
    ∀ o ∈ g, o.id = id → o.name = n ∧ ∃ s evs, o.st = some (s, evs) ∧
      ∃ l : List Conn.Peer, l.Nodup ∧ (∀ p, p ∈ l ↔ SubAlive timeout now n h2 p) ∧
        Conn.count s = l.length := by
  intro g
  have hu2' : POp.Untouched id (h2 ++ [.cycle now]) := by
    intro op hop
    rcases List.mem_append.1 hop with h | h
    · exact hu2 op h
    · simp only [List.mem_singleton] at h; subst h; simp
  have hg : g = ((h1.flatMap pubGateOps) ++ GOp.register id n (some (Conn.init timeout, [])) ::
      ((h2 ++ [POp.cycle now]).flatMap pubGateOps)).foldl (gstep cstep) [] := by
    simp only [g, pubGateRun]
    congr 1
    simp [List.flatMap_append, pubGateOps]
  obtain ⟨he, ha⟩ := grun_registered cstep _ _ id n (some (Conn.init timeout, []))
    (pubGate_untouched id h1 hu1) (pubGate_untouched id _ hu2')
  rw [← hg] at he ha
  refine ⟨he, ?_⟩
  intro o ho hid
  have := ha o ho hid
  subst this
  refine ⟨rfl, ?_⟩
  rw [cstep_foldl]
  have hmono := pubProj_mono n _ t0 t0 (Int.le_refl _) hm
  rw [pubProj_append] at hmono
  obtain ⟨s, evs, hr, l, hl1, hl2, hl3⟩ :=
    Conn.C17_count_is_alive_peers timeout t0 now (pubProj n h2) hmono
  have hr' : Conn.run (Conn.init timeout)
      (projOps n ((h2 ++ [POp.cycle now]).flatMap pubGateOps)) = some (s, evs) := by
    have := pubProj_append n h2 [.cycle now]
    unfold pubProj at this
    rw [this]
    exact hr
  rw [hr']
  refine ⟨s, evs, by simp, l, hl1, ?_, hl3⟩
  intro p
  rw [hl2 p]
  unfold Conn.Alive SubAlive Conn.lastSeen
  rw [pubProj_seen n hn]

example : POp.mono 0 ([.subReg 0 (mkReg "t" "h" "7"), .subReg 1 (mkReg "u" "h" "8"),
      .create 2 "u" 5] ++ [.cycle 4]) ∧
    SubAlive 5 4 "t" [.subReg 0 (mkReg "t" "h" "7"), .subReg 1 (mkReg "u" "h" "8"), .create 2 "u" 5]
      ⟨"h", 1, "7"⟩ ∧
    POp.Untouched 1 [.subReg 0 (mkReg "t" "h" "7"), .subReg 1 (mkReg "u" "h" "8"), .create 2 "u" 5] := by
  refine ⟨by simp [POp.mono], ⟨0, by decide, by decide⟩, ?_⟩
  intro op hop
  simp only [List.mem_cons, List.not_mem_nil, or_false] at hop
  rcases hop with rfl | rfl | rfl <;> simp

/-- **C17 (subscribers).** The same for subscribers: counted are the publishers of the topic
whose last registration that announces at least one connection on our side is younger than
the timeout. -/
theorem C17_subscriber_counts_confirmed_publishers (myHost : String) (id : Nat) (n : String)
    (hn : n ≠ "") (timeout t0 now : Int) (h1 h2 : List SOp) (hu1 : SOp.Untouched id h1)
    (hu2 : SOp.Untouched id h2) (hm : SOp.mono t0 (h2 ++ [.cycle now])) :
    let g := subGateRun myHost [] (h1 ++ .create id n timeout :: h2 ++ [.cycle now])
    (∃ o ∈ g, o.id = id) ∧
    ∀ o ∈ g, o.id = id → o.name = n ∧ ∃ s evs, o.st = some (s, evs) ∧
      ∃ l : List Conn.Peer, l.Nodup ∧ (∀ p, p ∈ l ↔ PubAlive myHost timeout now n h2 p) ∧
        Conn.count s = l.length := by
  intro g
  have hu2' : SOp.Untouched id (h2 ++ [.cycle now]) := by
    intro op hop
    rcases List.mem_append.1 hop with h | h
    · exact hu2 op h
    · simp only [List.mem_singleton] at h; subst h; simp
  have hg : g = ((h1.flatMap (subGateOps myHost)) ++ GOp.register id n (some (Conn.init timeout, [])) ::
      ((h2 ++ [SOp.cycle now]).flatMap (subGateOps myHost))).foldl (gstep cstep) [] := by
    simp only [g, subGateRun]
    congr 1
    simp [List.flatMap_append, subGateOps]
  obtain ⟨he, ha⟩ := grun_registered cstep _ _ id n (some (Conn.init timeout, []))
    (subGate_untouched myHost id h1 hu1) (subGate_untouched myHost id _ hu2')
  rw [← hg] at he ha
  refine ⟨he, ?_⟩
  intro o ho hid
  have := ha o ho hid
  subst this
  refine ⟨rfl, ?_⟩
  rw [cstep_foldl]
  have hmono := subProj_mono myHost n _ t0 t0 (Int.le_refl _) hm
  rw [subProj_append] at hmono
  obtain ⟨s, evs, hr, l, hl1, hl2, hl3⟩ :=
    Conn.C17_count_is_alive_peers timeout t0 now (subProj myHost n h2) hmono
  have hr' : Conn.run (Conn.init timeout)
      (projOps n ((h2 ++ [SOp.cycle now]).flatMap (subGateOps myHost))) = some (s, evs) := by
    have := subProj_append myHost n h2 [.cycle now]
    unfold subProj at this
    rw [this]
    exact hr
  rw [hr']
  refine ⟨s, evs, by simp, l, hl1, ?_, hl3⟩
  intro p
  rw [hl2 p]
  unfold Conn.Alive PubAlive Conn.lastSeen
  rw [subProj_seen myHost n hn]

example : SOp.mono 0 ([.pubReg 0 (mkReg "t" "h" "7" 1 0), .pubReg 1 (mkReg "t" "h" "8" 0 1)] ++ [.cycle 4]) ∧
    PubAlive "h" 5 4 "t" [.pubReg 0 (mkReg "t" "h" "7" 1 0), .pubReg 1 (mkReg "t" "h" "8" 0 1)]
      ⟨"h", 1, "7"⟩ := by
  exact ⟨by simp [SOp.mono], 0, by decide, by decide⟩

/-- A destroyed publisher is gone from the gate (identities are not reused). -/
theorem C17_destroyed_publisher_gone (id : Nat) (n : String) (timeout : Int) (h1 h2 h3 : List POp)
    (hu1 : POp.Untouched id h1) (hu2 : POp.Untouched id h2) (hu3 : POp.Untouched id h3) :
    ∀ o ∈ pubGateRun [] (h1 ++ .create id n timeout :: h2 ++ .destroy id n :: h3), o.id ≠ id := by
  have key : ∀ (g : List (Obj CS)), (g.filter (fun o => o.id = id)).length ≤ 1 →
      (∀ o ∈ g, o.id = id → o.name = n) → ∀ o ∈ eraseFirst id n g, o.id ≠ id := by
    intro g
    induction g with
    | nil => intro _ _ o ho; simp [eraseFirst] at ho
    | cons a g ih =>
      intro hl hn o ho hid
      by_cases e : a.id = id
      · have ea := hn a (by simp) e
        simp only [eraseFirst, e, ea, and_self, if_true] at ho
        have : (g.filter (fun o => o.id = id)).length = 0 := by
          simp [e] at hl
          simpa using hl
        have := List.length_eq_zero_iff.1 this
        have hmem : o ∈ g.filter (fun o => o.id = id) := by simp [ho, hid]
        rw [this] at hmem; cases hmem
      · simp only [eraseFirst, e, false_and, if_false, List.mem_cons] at ho
        rcases ho with rfl | ho
        · exact e hid
        · refine ih ?_ (fun o ho => hn o (by simp [ho])) o ho hid
          simpa [List.filter_cons, e] using hl
  -- at most one entry with this identity
  have cnt : ∀ (h : List (GOp CS (Int × Conn.Op))) (g : List (Obj CS)), GUntouched id h →
      ((h.foldl (gstep cstep) g).filter (fun o => o.id = id)).length =
        (g.filter (fun o => o.id = id)).length := by
    intro h
    induction h with
    | nil => intro g _; rfl
    | cons op h ih =>
      intro g hu
      simp only [List.foldl_cons]
      rw [ih _ (fun o ho => hu o (by simp [ho]))]
      have hop := hu op (by simp)
      cases op with
      | register i m s0 =>
        have : i ≠ id := by intro e; subst e; exact hop.1 m s0 rfl
        simp [gstep, List.filter_append, this]
      | unregister i m =>
        have : i ≠ id := by intro e; subst e; exact hop.2 m rfl
        simp only [gstep]
        clear ih hu hop
        induction g with
        | nil => rfl
        | cons a g ihg =>
          simp only [eraseFirst]
          split
          · next hc => simp [hc.1, this]
          · simp only [List.filter_cons]; split <;> simp [ihg]
      | toTopic m w =>
        simp only [gstep]
        clear ih hu
        induction g with
        | nil => rfl
        | cons a g ihg =>
          simp only [List.map_cons, List.filter_cons]
          have : (if a.name = m then ({ a with st := cstep a.st w } : Obj CS) else a).id = a.id := by
            split <;> rfl
          rw [this]; split <;> simp [ihg]
      | toAll w =>
        simp only [gstep]
        clear ih hu
        induction g with
        | nil => rfl
        | cons a g ihg => simp only [List.map_cons, List.filter_cons]; split <;> simp [ihg]
  have hmid := grun_registered cstep (h1.flatMap pubGateOps) (h2.flatMap pubGateOps) id n
    (some (Conn.init timeout, [])) (pubGate_untouched id h1 hu1) (pubGate_untouched id h2 hu2)
  have hone : (((h1.flatMap pubGateOps) ++ GOp.register id n (some (Conn.init timeout, [])) ::
      (h2.flatMap pubGateOps)).foldl (gstep cstep) [] |>.filter (fun o => o.id = id)).length ≤ 1 := by
    rw [List.foldl_append, List.foldl_cons, cnt _ _ (pubGate_untouched id h2 hu2)]
    simp only [gstep, List.filter_append, List.length_append]
    rw [cnt _ _ (pubGate_untouched id h1 hu1)]
    simp
  have heq : pubGateRun [] (h1 ++ .create id n timeout :: h2 ++ .destroy id n :: h3) =
      (h3.flatMap pubGateOps).foldl (gstep cstep) (eraseFirst id n
        (((h1.flatMap pubGateOps) ++ GOp.register id n (some (Conn.init timeout, [])) ::
          (h2.flatMap pubGateOps)).foldl (gstep cstep) [])) := by
    simp [pubGateRun, List.flatMap_append, pubGateOps, List.foldl_append, gstep]
  rw [heq]
  apply grun_absent cstep _ _ id (pubGate_untouched id h3 hu3)
  exact key _ hone (fun o ho hid => by rw [hmid.2 o ho hid])

example : pubGateRun [] [.create 1 "t" 5, .create 2 "t" 5, .destroy 1 "t"] ≠ [] := by
  simp [pubGateRun, pubGateOps, gstep, eraseFirst]

/-! ## C57 -/

/-- **C57 violated.** Publisher P and subscribers X, Y of topic "t" run on one host.  P has
received X's registration only and announces one local connection; Y's process takes that
announcement as confirmation and tells Y's application 'connected', although P does not know
Y. -/
theorem C57_violated_foreign_confirmation :
    -- the publisher's process: P (object 1) knows X ("x") and announces connections (1, 0)
    (pubGateRun [] [.create 1 "t" 5, .subReg 0 (mkReg "t" "host" "x"), .cycle 1]).map
      (fun o => o.st.map (fun r => (connCounts "host" r.1, r.1.map.map.keys.map Conn.Peer.tid)))
        = [some ((1, 0), ["x"])] ∧
    -- the process of Y receives that announcement
    (subGateRun "host" [] [.create 2 "t" 5, .pubReg 2 (mkReg "t" "host" "p" 1 0)]).map
      (fun o => o.st.map (·.2)) = [some [.connected "p", .update "p"]] := by
  constructor <;> decide +kernel

/-- An `apply` reaching a subscriber comes from a confirmed registration. -/
theorem apply_from_reg (myHost n tid : String) (h2 : List SOp) (now : Int) (p : Conn.Peer)
    (hp : (now, Conn.Op.apply p) ∈ projOps n (h2.flatMap (subGateOps myHost))) (ht : p.tid = tid) :
    ∃ now r, .pubReg now r ∈ h2 ∧ r.topic = n ∧ r.peer.tid = tid ∧
      (if r.peer.host = myHost then r.connLoc > 0 else r.connExt > 0) := by
  induction h2 with
  | nil => cases hp
  | cons op h ih =>
    rw [List.flatMap_cons, projOps_append, List.mem_append] at hp
    rcases hp with hp | hp
    · cases op with
      | create i m t => cases hp
      | destroy i m => cases hp
      | pubReg t rg =>
        simp only [subGateOps] at hp
        split at hp
        · cases hp
        · split at hp
          · next hc =>
            simp only [projOps] at hp
            split at hp
            · next hnn =>
              simp only [List.mem_singleton, Prod.mk.injEq, Conn.Op.apply.injEq] at hp
              obtain ⟨rfl, rfl⟩ := hp
              refine ⟨now, rg, by simp, hnn.symm, ht, ?_⟩
              simp only [confirmed, Bool.or_eq_true, Bool.and_eq_true, beq_iff_eq, bne_iff_ne,
                ne_eq, decide_eq_true_eq] at hc
              rcases hc with ⟨a, b⟩ | ⟨a, b⟩
              · rw [if_pos a]; exact b
              · rw [if_neg a]; exact b
            · cases hp
          · cases hp
      | pubUnreg t rg =>
        simp only [subGateOps] at hp
        split at hp
        · cases hp
        · simp only [projOps] at hp
          split at hp <;> simp at hp
      | cycle t => simp [subGateOps, projOps] at hp
    · obtain ⟨now', r', h1, h2⟩ := ih hp
      exact ⟨now', r', by simp [h1], h2⟩

/-- **C57 (what holds).** A subscriber is told 'connected' only if some publisher of its
topic announced at least one connection on the subscriber's side (same host / other host).
Missing: that the connection is this subscriber. -/
theorem C57_connected_only_if_announced_partial (myHost : String) (id : Nat) (n : String)
    (timeout : Int) (h1 h2 : List SOp) (hu1 : SOp.Untouched id h1) (hu2 : SOp.Untouched id h2) :
    ∀ o ∈ subGateRun myHost [] (h1 ++ .create id n timeout :: h2), o.id = id →
      ∀ s evs, o.st = some (s, evs) → ∀ tid, .connected tid ∈ evs →
        ∃ now r, .pubReg now r ∈ h2 ∧ r.topic = n ∧ r.peer.tid = tid ∧
          (if r.peer.host = myHost then r.connLoc > 0 else r.connExt > 0) := by
  intro o ho hid s evs hst tid hev
  have hg : subGateRun myHost [] (h1 ++ .create id n timeout :: h2) =
      ((h1.flatMap (subGateOps myHost)) ++ GOp.register id n (some (Conn.init timeout, [])) ::
      (h2.flatMap (subGateOps myHost))).foldl (gstep cstep) [] := by
    simp [subGateRun, List.flatMap_append, subGateOps]
  obtain ⟨_, ha⟩ := grun_registered cstep _ _ id n (some (Conn.init timeout, []))
    (subGate_untouched myHost id h1 hu1) (subGate_untouched myHost id h2 hu2)
  rw [hg] at ho
  have := ha o ho hid
  subst this
  simp only at hst
  rw [cstep_foldl] at hst
  obtain ⟨r, hr, hr2⟩ := Option.map_eq_some_iff.1 hst
  simp only [List.nil_append, Prod.mk.injEq] at hr2
  obtain ⟨hr3, hr4⟩ := hr2
  subst hr4
  -- a 'connected' comes from an `apply`
  have ap : ∀ (l : List (Int × Conn.Op)) (s : Conn.State) (r : Conn.State × List Conn.Ev),
      Conn.run s l = some r → .connected tid ∈ r.2 → ∃ now p, (now, Conn.Op.apply p) ∈ l ∧ p.tid = tid := by
    intro l
    induction l with
    | nil => intro s r h hm; cases h; cases hm
    | cons x l ih =>
      intro s r h hm
      simp only [Conn.run, Option.bind_eq_some_iff, Option.map_eq_some_iff] at h
      obtain ⟨r1, h1, r2, h2, h3⟩ := h
      cases h3
      simp only [List.mem_append] at hm
      rcases hm with hm | hm
      · obtain ⟨now, op⟩ := x
        cases op with
        | apply p =>
          refine ⟨now, p, by simp, ?_⟩
          simp only [Conn.step, Conn.applyPeer, Option.map_eq_some_iff] at h1
          obtain ⟨m, _, he⟩ := h1
          cases he
          simp only [Conn.fireConnect] at hm
          split at hm <;> simp at hm
          exact hm.symm
        | remove p =>
          simp only [Conn.step, Conn.removePeer, Option.map_eq_some_iff] at h1
          obtain ⟨m, _, he⟩ := h1
          cases he; cases hm
        | check =>
          simp only [Conn.step, Conn.check, Option.some.injEq] at h1
          subst h1
          split at hm <;> simp at hm
      · obtain ⟨now, p, hp, ht⟩ := ih _ _ h2 hm
        exact ⟨now, p, by simp [hp], ht⟩
  obtain ⟨now, p, hp, ht⟩ := ap _ _ _ hr hev
  exact apply_from_reg myHost n tid h2 now p hp ht

/-! ## C58 -/

/-- **C58.** A subscriber of topic `n`, created at some point of any history: its state and
everything its application observes are those of a subscriber that got exactly the samples
of topic `n` that arrived since its creation, each once, in order of arrival; samples of
other topics and other subscribers have no influence. -/
theorem C58_routing (c : Reader.Config) (id : Nat) (n : String) (h1 h2 : List DOp)
    (hu1 : DOp.Untouched id h1) (hu2 : DOp.Untouched id h2) :
    let g := dataRun c [] (h1 ++ .create id n :: h2)
    (∃ o ∈ g, o.id = id) ∧
    ∀ o ∈ g, o.id = id →
      o = ⟨id, n, Reader.run c Reader.init ((samplesOf n h2).map .sample)⟩ := by
  intro g
  have hg : g = ((h1.flatMap dataOps) ++ .register id n (Reader.init, []) ::
      (h2.flatMap dataOps)).foldl (gstep (rstep c)) [] := by
    simp [g, dataRun, List.flatMap_append, dataOps]
  obtain ⟨he, ha⟩ := grun_registered (rstep c) _ _ id n (Reader.init, [])
    (dataGate_untouched id h1 hu1) (dataGate_untouched id h2 hu2)
  rw [← hg] at he ha
  refine ⟨he, ?_⟩
  intro o ho hid
  rw [ha o ho hid, dataProj, rstep_foldl]
  simp

example :
    let mk (t : String) (k : Int) : Reader.Sample := ⟨t, [], 0, k, 0, k.toNat, .udp⟩
    (dataRun ⟨true, true, true, true⟩ []
      [.create 1 "t", .create 2 "t", .sample "t" (mk "p" 1), .sample "u" (mk "q" 2),
       .create 3 "u", .sample "u" (mk "q" 3)]).map (fun o => (o.id, o.st.2.length))
      = [(1, 1), (2, 1), (3, 1)] := by decide +kernel

/-- **C58 violated (return value).** The return value says whether the *last* subscriber of
the topic took the sample, not whether any did. -/
theorem C58_violated_result_of_last_reader :
    appliedResult [true, false] 10 = false ∧ appliedResult [false, true] 10 = true := by
  decide

end Ecal.Gate
