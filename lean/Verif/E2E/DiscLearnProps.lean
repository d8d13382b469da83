import Verif.E2E.DiscProps

/-! # C106, second part: what is announced is learnt, and what is gone is forgotten -/

namespace Ecal.E2E.Disc

open Ecal.Wire (RegSample RTopic IsMap)
open Ecal.Gate (Obj CS POp SOp GOp gstep cstep eraseFirst)

/-! ## Specification -/

/-- The clock value process `q` reads in a step. -/
def clock (q : Nat) : In → Option Int
  | .collect p now _ _ => if p = q then some now else none
  | .arrive p _ now => if p = q then some now else none
  | _ => none

/-- The clock of process `q` does not go backwards and starts at `t0`. -/
def Mono (q : Nat) (t0 : Int) : List In → Prop
  | [] => True
  | x :: h =>
    match clock q x with
    | some t => t0 ≤ t ∧ Mono q t h
    | none => Mono q t0 h

/-- The publisher `i` of process `A` is neither created nor destroyed. -/
def PubKept (A i : Nat) (h : List In) : Prop :=
  ∀ x ∈ h, (∀ t, x ≠ .newPub A i t) ∧ (∀ t info, x ≠ .delPub A i t info)

/-- The subscriber `j` of process `B` is neither created nor destroyed. -/
def SubKept (B j : Nat) (h : List In) : Prop :=
  ∀ x ∈ h, (∀ t, x ≠ .newSub B j t) ∧ (∀ t info, x ≠ .delSub B j t info)

/-- The publisher was created once and not destroyed. -/
def PubLives (A i : Nat) (topic : Bytes) (h : List In) : Prop :=
  ∃ h1 h2, h = h1 ++ .newPub A i topic :: h2 ∧ PubKept A i h1 ∧ PubKept A i h2

/-- The subscriber was created once and not destroyed. -/
def SubLives (B j : Nat) (topic : Bytes) (h : List In) : Prop :=
  ∃ h1 h2, h = h1 ++ .newSub B j topic :: h2 ∧ SubKept B j h1 ∧ SubKept B j h2

/-- The `k`-th datagram is a registration of the subscriber. -/
def SubDatagram (P : Nat → Proc) (w : World) (k B j : Nat) (topic : Bytes) : Prop :=
  ∃ m, w.net[k]? = some m ∧ m.cmd = 3 ∧ m.hostName = (P B).host ∧ m.processId = (P B).pid ∧
    m.entityId = (P B).stid j ∧ m.topic.hgname = (P B).group ∧ m.topic.tname = topic

/-- The `k`-th datagram is a registration of the publisher that announces a connection with the host
`host`. -/
def PubDatagram (P : Nat → Proc) (w : World) (k A i : Nat) (topic host : Bytes) : Prop :=
  ∃ m, w.net[k]? = some m ∧ m.cmd = 2 ∧ m.hostName = (P A).host ∧ m.processId = (P A).pid ∧
    m.entityId = (P A).ptid i ∧ m.topic.hgname = (P A).group ∧ m.topic.tname = topic ∧
    (host = (P A).host → m.topic.connLoc.toInt > 0) ∧ (host ≠ (P A).host → m.topic.connExt.toInt > 0)

/-- The publisher knows the peer, and its last notification was 'connected'. -/
def PubConnected (w : World) (A i : Nat) (topic : Bytes) (p : Conn.Peer) : Prop :=
  ∃ o ∈ (w.st A).pg, o.id = i ∧ o.name = str topic ∧ ∃ s evs, o.st = some (s, evs) ∧
    p ∈ s.map.map.keys ∧ Conn.lastIsConnected evs = true

/-- The subscriber knows the peer, and its last notification was 'connected'. -/
def SubConnected (w : World) (B j : Nat) (topic : Bytes) (p : Conn.Peer) : Prop :=
  ∃ o ∈ (w.st B).sg, o.id = j ∧ o.name = str topic ∧ ∃ s evs, o.st = some (s, evs) ∧
    p ∈ s.map.map.keys ∧ Conn.lastIsConnected evs = true

/-! ## Histories of the gates -/

/-- The calls on the publisher gate of `q` in a history. -/
def pubHist (P : Nat → Proc) (q : Nat) : World → List In → List POp
  | _, [] => []
  | w, x :: h => pubOps P w q x ++ pubHist P q (step P w x) h

def subHist (P : Nat → Proc) (q : Nat) : World → List In → List SOp
  | _, [] => []
  | w, x :: h => subOps P w q x ++ subHist P q (step P w x) h

theorem pubGateRun_append (g : List (Obj CS)) (a b : List POp) :
    Gate.pubGateRun g (a ++ b) = Gate.pubGateRun (Gate.pubGateRun g a) b := by
  simp [Gate.pubGateRun]

theorem subGateRun_append (H : String) (g : List (Obj CS)) (a b : List SOp) :
    Gate.subGateRun H g (a ++ b) = Gate.subGateRun H (Gate.subGateRun H g a) b := by
  simp [Gate.subGateRun]

theorem run_pg (P : Nat → Proc) (q : Nat) (h : List In) (w : World) :
    ((run P w h).st q).pg = Gate.pubGateRun (w.st q).pg (pubHist P q w h) := by
  induction h generalizing w with
  | nil => rfl
  | cons x h ih =>
    show ((run P (step P w x) h).st q).pg = _
    rw [ih, pubHist, pubGateRun_append]
    rfl

theorem run_sg (P : Nat → Proc) (q : Nat) (h : List In) (w : World) :
    ((run P w h).st q).sg = Gate.subGateRun (str (P q).host) (w.st q).sg (subHist P q w h) := by
  induction h generalizing w with
  | nil => rfl
  | cons x h ih =>
    show ((run P (step P w x) h).st q).sg = _
    rw [ih, subHist, subGateRun_append]
    rfl

theorem pubHist_append (P : Nat → Proc) (q : Nat) (w : World) (a b : List In) :
    pubHist P q w (a ++ b) = pubHist P q w a ++ pubHist P q (run P w a) b := by
  induction a generalizing w with
  | nil => rfl
  | cons x a ih =>
    simp only [List.cons_append, pubHist, ih, List.append_assoc]
    rfl

theorem subHist_append (P : Nat → Proc) (q : Nat) (w : World) (a b : List In) :
    subHist P q w (a ++ b) = subHist P q w a ++ subHist P q (run P w a) b := by
  induction a generalizing w with
  | nil => rfl
  | cons x a ih =>
    simp only [List.cons_append, subHist, ih, List.append_assoc]
    rfl

theorem Mono.weaken {q : Nat} {t0 t1 : Int} (h : List In) (ht : t1 ≤ t0) (hm : Mono q t0 h) :
    Mono q t1 h := by
  induction h with
  | nil => trivial
  | cons x h ih =>
    simp only [Mono] at hm ⊢
    split
    · rename_i t e
      rw [e] at hm
      exact ⟨by have := hm.1; omega, hm.2⟩
    · rename_i e
      rw [e] at hm
      exact ih hm

theorem Mono.append {q : Nat} {t0 : Int} {a b : List In} (hm : Mono q t0 (a ++ b)) :
    Mono q t0 a ∧ ∃ t, t0 ≤ t ∧ Mono q t b ∧ ∀ x ∈ a, ∀ c, clock q x = some c → c ≤ t := by
  induction a generalizing t0 with
  | nil => exact ⟨trivial, t0, Int.le_refl _, hm, by simp⟩
  | cons x a ih =>
    simp only [List.cons_append, Mono] at hm ⊢
    cases e : clock q x with
    | none =>
      rw [e] at hm
      obtain ⟨h1, t, h2, h3, h4⟩ := ih hm
      refine ⟨h1, t, h2, h3, ?_⟩
      intro y hy c hc
      rcases List.mem_cons.1 hy with rfl | hy
      · rw [e] at hc; cases hc
      · exact h4 y hy c hc
    | some t1 =>
      rw [e] at hm
      obtain ⟨h1, t, h2, h3, h4⟩ := ih hm.2
      refine ⟨⟨hm.1, h1⟩, t, Int.le_trans hm.1 h2, h3, ?_⟩
      intro y hy c hc
      rcases List.mem_cons.1 hy with rfl | hy
      · rw [e] at hc; cases hc; exact h2
      · exact h4 y hy c hc

theorem pmono_weaken {t0 t1 : Int} (l : List POp) (ht : t1 ≤ t0) (hm : POp.mono t0 l) : POp.mono t1 l := by
  induction l with
  | nil => trivial
  | cons a l ih => cases a <;> simp only [POp.mono] at hm ⊢ <;> first | exact ih hm | exact ⟨by omega, hm.2⟩

theorem smono_weaken {t0 t1 : Int} (l : List SOp) (ht : t1 ≤ t0) (hm : SOp.mono t0 l) : SOp.mono t1 l := by
  induction l with
  | nil => trivial
  | cons a l ih => cases a <;> simp only [SOp.mono] at hm ⊢ <;> first | exact ih hm | exact ⟨by omega, hm.2⟩

theorem popsOf_cases (Q : Proc) (now : Int) (m : RegSample) :
    popsOf Q now m = [.subReg now (regOf m)] ∨ popsOf Q now m = [.subUnreg now (regOf m)] ∨
    popsOf Q now m = [] := by
  unfold popsOf
  split
  · exact Or.inl rfl
  · exact Or.inr (Or.inl rfl)
  · exact Or.inr (Or.inr rfl)

theorem sopsOf_cases (Q : Proc) (now : Int) (m : RegSample) :
    sopsOf Q now m = [.pubReg now (regOf m)] ∨ sopsOf Q now m = [.pubUnreg now (regOf m)] ∨
    sopsOf Q now m = [] := by
  unfold sopsOf
  split
  · exact Or.inl rfl
  · exact Or.inr (Or.inl rfl)
  · exact Or.inr (Or.inr rfl)

/-- The calls of a step carry the clock value of the step. -/
theorem pubOps_mono (P : Nat → Proc) (w : World) (q : Nat) (x : In) (t0 : Int) (l : List POp)
    (h : match clock q x with | some t => t0 ≤ t ∧ POp.mono t l | none => POp.mono t0 l) :
    POp.mono t0 (pubOps P w q x ++ l) := by
  cases x with
  | newPub p i topic =>
    simp only [clock] at h
    simp only [pubOps]
    split <;> exact h
  | delPub p i topic info =>
    simp only [clock] at h
    simp only [pubOps]
    split <;> exact h
  | collect p now a b =>
    simp only [clock] at h
    simp only [pubOps]
    by_cases hp : p = q
    · rw [if_pos hp] at h
      split
      · exact h
      · exact pmono_weaken l h.1 h.2
    · rw [if_neg hp] at h
      rw [if_neg (fun hx => hp hx.1)]
      exact h
  | arrive p k now =>
    simp only [clock] at h
    simp only [pubOps]
    by_cases hp : p = q
    · rw [if_pos hp] at h ⊢
      simp only at h
      split
      · rename_i m _
        rcases popsOf_cases (P q) now m with e | e | e <;> rw [e]
        · exact h
        · exact h
        · exact pmono_weaken l h.1 h.2
      · exact pmono_weaken l h.1 h.2
    · rw [if_neg hp] at h ⊢
      exact h
  | newSub | delSub | again | other | send | flush => exact h

theorem subOps_mono (P : Nat → Proc) (w : World) (q : Nat) (x : In) (t0 : Int) (l : List SOp)
    (h : match clock q x with | some t => t0 ≤ t ∧ SOp.mono t l | none => SOp.mono t0 l) :
    SOp.mono t0 (subOps P w q x ++ l) := by
  cases x with
  | newSub p i topic =>
    simp only [clock] at h
    simp only [subOps]
    split <;> exact h
  | delSub p i topic info =>
    simp only [clock] at h
    simp only [subOps]
    split <;> exact h
  | collect p now a b =>
    simp only [clock] at h
    simp only [subOps]
    by_cases hp : p = q
    · rw [if_pos hp] at h
      split
      · exact h
      · exact smono_weaken l h.1 h.2
    · rw [if_neg hp] at h
      rw [if_neg (fun hx => hp hx.1)]
      exact h
  | arrive p k now =>
    simp only [clock] at h
    simp only [subOps]
    by_cases hp : p = q
    · rw [if_pos hp] at h ⊢
      simp only at h
      split
      · rename_i m _
        rcases sopsOf_cases (P q) now m with e | e | e <;> rw [e]
        · exact h
        · exact h
        · exact smono_weaken l h.1 h.2
      · exact smono_weaken l h.1 h.2
    · rw [if_neg hp] at h ⊢
      exact h
  | newPub | delPub | again | other | send | flush => exact h

theorem pubHist_mono (P : Nat → Proc) (q : Nat) (h : List In) (w : World) (t0 : Int) (hm : Mono q t0 h) :
    POp.mono t0 (pubHist P q w h) := by
  induction h generalizing w t0 with
  | nil => trivial
  | cons x h ih =>
    simp only [Mono] at hm
    apply pubOps_mono
    cases e : clock q x with
    | none => rw [e] at hm; exact ih _ _ hm
    | some t => rw [e] at hm; exact ⟨hm.1, ih _ _ hm.2⟩

theorem subHist_mono (P : Nat → Proc) (q : Nat) (h : List In) (w : World) (t0 : Int) (hm : Mono q t0 h) :
    SOp.mono t0 (subHist P q w h) := by
  induction h generalizing w t0 with
  | nil => trivial
  | cons x h ih =>
    simp only [Mono] at hm
    apply subOps_mono
    cases e : clock q x with
    | none => rw [e] at hm; exact ih _ _ hm
    | some t => rw [e] at hm; exact ⟨hm.1, ih _ _ hm.2⟩

theorem pubHist_untouched (P : Nat → Proc) (q i : Nat) (h : List In) (w : World) (hk : PubKept q i h) :
    POp.Untouched i (pubHist P q w h) := by
  induction h generalizing w with
  | nil => intro op hop; cases hop
  | cons x h ih =>
    intro op hop
    rcases List.mem_append.1 hop with hop | hop
    · have hx := hk x (by simp)
      cases x with
      | newPub p i' topic =>
        simp only [pubOps] at hop
        split at hop
        · rename_i e
          simp only [List.mem_singleton] at hop
          subst hop e
          constructor
          · intro n t e; cases e; exact hx.1 topic rfl
          · intro n e; cases e
        · cases hop
      | delPub p i' topic info =>
        simp only [pubOps] at hop
        split at hop
        · rename_i e
          simp only [List.mem_singleton] at hop
          subst hop e
          constructor
          · intro n t e; cases e
          · intro n e; cases e; exact hx.2 topic info rfl
        · cases hop
      | collect p now a b =>
        simp only [pubOps] at hop
        split at hop
        · simp only [List.mem_singleton] at hop
          subst hop; simp
        · cases hop
      | arrive p k now =>
        simp only [pubOps] at hop
        split at hop
        · split at hop
          · rename_i m _
            rcases popsOf_cases (P q) now m with e | e | e <;> rw [e] at hop
            · simp only [List.mem_singleton] at hop
              subst hop; simp
            · simp only [List.mem_singleton] at hop
              subst hop; simp
            · cases hop
          · cases hop
        · cases hop
      | newSub | delSub | again | other | send | flush => cases hop
    · exact ih _ (fun y hy => hk y (by simp [hy])) op hop

theorem subHist_untouched (P : Nat → Proc) (q i : Nat) (h : List In) (w : World) (hk : SubKept q i h) :
    SOp.Untouched i (subHist P q w h) := by
  induction h generalizing w with
  | nil => intro op hop; cases hop
  | cons x h ih =>
    intro op hop
    rcases List.mem_append.1 hop with hop | hop
    · have hx := hk x (by simp)
      cases x with
      | newSub p i' topic =>
        simp only [subOps] at hop
        split at hop
        · rename_i e
          simp only [List.mem_singleton] at hop
          subst hop e
          constructor
          · intro n t e; cases e; exact hx.1 topic rfl
          · intro n e; cases e
        · cases hop
      | delSub p i' topic info =>
        simp only [subOps] at hop
        split at hop
        · rename_i e
          simp only [List.mem_singleton] at hop
          subst hop e
          constructor
          · intro n t e; cases e
          · intro n e; cases e; exact hx.2 topic info rfl
        · cases hop
      | collect p now a b =>
        simp only [subOps] at hop
        split at hop
        · simp only [List.mem_singleton] at hop
          subst hop; simp
        · cases hop
      | arrive p k now =>
        simp only [subOps] at hop
        split at hop
        · split at hop
          · rename_i m _
            rcases sopsOf_cases (P q) now m with e | e | e <;> rw [e] at hop
            · simp only [List.mem_singleton] at hop
              subst hop; simp
            · simp only [List.mem_singleton] at hop
              subst hop; simp
            · cases hop
          · cases hop
        · cases hop
      | newPub | delPub | again | other | send | flush => cases hop
    · exact ih _ (fun y hy => hk y (by simp [hy])) op hop

/-! ## What a gate knows after a registration cycle -/

theorem pub_knows (id : Nat) (n : String) (hn : n ≠ "") (timeout t0 now : Int) (h1 h2 : List POp)
    (hu1 : POp.Untouched id h1) (hu2 : POp.Untouched id h2) (hm : POp.mono t0 (h2 ++ [.cycle now])) :
    let g := Gate.pubGateRun [] (h1 ++ .create id n timeout :: h2 ++ [.cycle now])
    (∃ o ∈ g, o.id = id) ∧
    ∀ o ∈ g, o.id = id → o.name = n ∧ ∃ s evs, o.st = some (s, evs) ∧
      (∀ p, p ∈ s.map.map.keys ↔ Gate.SubAlive timeout now n h2 p) ∧
      (Conn.lastIsConnected evs = true ↔ ∃ p, Gate.SubAlive timeout now n h2 p) := by
  intro g
  have hu2' : POp.Untouched id (h2 ++ [.cycle now]) := by
    intro op hop
    rcases List.mem_append.1 hop with h | h
    · exact hu2 op h
    · simp only [List.mem_singleton] at h; subst h; simp
  have hg : g = ((h1.flatMap Gate.pubGateOps) ++ GOp.register id n (some (Conn.init timeout, [])) ::
      ((h2 ++ [POp.cycle now]).flatMap Gate.pubGateOps)).foldl (gstep cstep) [] := by
    simp only [g, Gate.pubGateRun]
    congr 1
    simp [List.flatMap_append, Gate.pubGateOps]
  obtain ⟨he, ha⟩ := Gate.grun_registered cstep _ _ id n (some (Conn.init timeout, []))
    (Gate.pubGate_untouched id h1 hu1) (Gate.pubGate_untouched id _ hu2')
  rw [← hg] at he ha
  refine ⟨he, ?_⟩
  intro o ho hid
  have := ha o ho hid
  subst this
  refine ⟨rfl, ?_⟩
  rw [Gate.cstep_foldl]
  have hmono := Gate.pubProj_mono n _ t0 t0 (Int.le_refl _) hm
  rw [Gate.pubProj_append] at hmono
  obtain ⟨s, evs, hr, hk⟩ := Conn.present_iff_alive timeout t0 now (Gate.pubProj n h2) hmono
  obtain ⟨s', evs', hr', hl⟩ := Conn.C13_last_tells_alive_partial timeout t0 now (Gate.pubProj n h2) hmono
  rw [hr] at hr'
  cases hr'
  have hrr : Conn.run (Conn.init timeout)
      (Gate.projOps n ((h2 ++ [POp.cycle now]).flatMap Gate.pubGateOps)) = some (s, evs) := by
    have := Gate.pubProj_append n h2 [.cycle now]
    unfold Gate.pubProj at this
    rw [this]
    exact hr
  rw [hrr]
  have hal : ∀ p, Conn.Alive timeout now (Gate.pubProj n h2) p ↔ Gate.SubAlive timeout now n h2 p := by
    intro p
    unfold Conn.Alive Gate.SubAlive Conn.lastSeen
    rw [Gate.pubProj_seen n hn]
  refine ⟨s, evs, by simp, ?_, ?_⟩
  · intro p; rw [hk p, hal p]
  · rw [hl]
    constructor
    · rintro ⟨p, hp⟩; exact ⟨p, (hal p).1 hp⟩
    · rintro ⟨p, hp⟩; exact ⟨p, (hal p).2 hp⟩

theorem sub_knows (H : String) (id : Nat) (n : String) (hn : n ≠ "") (timeout t0 now : Int)
    (h1 h2 : List SOp) (hu1 : SOp.Untouched id h1) (hu2 : SOp.Untouched id h2)
    (hm : SOp.mono t0 (h2 ++ [.cycle now])) :
    let g := Gate.subGateRun H [] (h1 ++ .create id n timeout :: h2 ++ [.cycle now])
    (∃ o ∈ g, o.id = id) ∧
    ∀ o ∈ g, o.id = id → o.name = n ∧ ∃ s evs, o.st = some (s, evs) ∧
      (∀ p, p ∈ s.map.map.keys ↔ Gate.PubAlive H timeout now n h2 p) ∧
      (Conn.lastIsConnected evs = true ↔ ∃ p, Gate.PubAlive H timeout now n h2 p) := by
  intro g
  have hu2' : SOp.Untouched id (h2 ++ [.cycle now]) := by
    intro op hop
    rcases List.mem_append.1 hop with h | h
    · exact hu2 op h
    · simp only [List.mem_singleton] at h; subst h; simp
  have hg : g = ((h1.flatMap (Gate.subGateOps H)) ++ GOp.register id n (some (Conn.init timeout, [])) ::
      ((h2 ++ [SOp.cycle now]).flatMap (Gate.subGateOps H))).foldl (gstep cstep) [] := by
    simp only [g, Gate.subGateRun]
    congr 1
    simp [List.flatMap_append, Gate.subGateOps]
  obtain ⟨he, ha⟩ := Gate.grun_registered cstep _ _ id n (some (Conn.init timeout, []))
    (Gate.subGate_untouched H id h1 hu1) (Gate.subGate_untouched H id _ hu2')
  rw [← hg] at he ha
  refine ⟨he, ?_⟩
  intro o ho hid
  have := ha o ho hid
  subst this
  refine ⟨rfl, ?_⟩
  rw [Gate.cstep_foldl]
  have hmono := Gate.subProj_mono H n _ t0 t0 (Int.le_refl _) hm
  rw [Gate.subProj_append] at hmono
  obtain ⟨s, evs, hr, hk⟩ := Conn.present_iff_alive timeout t0 now (Gate.subProj H n h2) hmono
  obtain ⟨s', evs', hr', hl⟩ := Conn.C13_last_tells_alive_partial timeout t0 now (Gate.subProj H n h2) hmono
  rw [hr] at hr'
  cases hr'
  have hrr : Conn.run (Conn.init timeout)
      (Gate.projOps n ((h2 ++ [SOp.cycle now]).flatMap (Gate.subGateOps H))) = some (s, evs) := by
    have := Gate.subProj_append H n h2 [.cycle now]
    unfold Gate.subProj at this
    rw [this]
    exact hr
  rw [hrr]
  have hal : ∀ p, Conn.Alive timeout now (Gate.subProj H n h2) p ↔ Gate.PubAlive H timeout now n h2 p := by
    intro p
    unfold Conn.Alive Gate.PubAlive Conn.lastSeen
    rw [Gate.subProj_seen H n hn]
  refine ⟨s, evs, by simp, ?_, ?_⟩
  · intro p; rw [hk p, hal p]
  · rw [hl]
    constructor
    · rintro ⟨p, hp⟩; exact ⟨p, (hal p).1 hp⟩
    · rintro ⟨p, hp⟩; exact ⟨p, (hal p).2 hp⟩

theorem PubLives.more {A i : Nat} {topic : Bytes} {h h' : List In} (hl : PubLives A i topic h)
    (hk : PubKept A i h') : PubLives A i topic (h ++ h') := by
  obtain ⟨h1, h2, rfl, a, b⟩ := hl
  refine ⟨h1, h2 ++ h', by simp, a, ?_⟩
  intro x hx
  rcases List.mem_append.1 hx with hx | hx
  · exact b x hx
  · exact hk x hx

theorem SubLives.more {B j : Nat} {topic : Bytes} {h h' : List In} (hl : SubLives B j topic h)
    (hk : SubKept B j h') : SubLives B j topic (h ++ h') := by
  obtain ⟨h1, h2, rfl, a, b⟩ := hl
  refine ⟨h1, h2 ++ h', by simp, a, ?_⟩
  intro x hx
  rcases List.mem_append.1 hx with hx | hx
  · exact b x hx
  · exact hk x hx

theorem PubLives.nodel {A i : Nat} {topic : Bytes} {h : List In} (hl : PubLives A i topic h) (t : Bytes)
    (info : RTopic) : In.delPub A i t info ∉ h := by
  obtain ⟨h1, h2, rfl, a, b⟩ := hl
  intro hx
  rcases List.mem_append.1 hx with hx | hx
  · exact (a _ hx).2 t info rfl
  · rcases List.mem_cons.1 hx with hx | hx
    · cases hx
    · exact (b _ hx).2 t info rfl

theorem SubLives.nodel {B j : Nat} {topic : Bytes} {h : List In} (hl : SubLives B j topic h) (t : Bytes)
    (info : RTopic) : In.delSub B j t info ∉ h := by
  obtain ⟨h1, h2, rfl, a, b⟩ := hl
  intro hx
  rcases List.mem_append.1 hx with hx | hx
  · exact (a _ hx).2 t info rfl
  · rcases List.mem_cons.1 hx with hx | hx
    · cases hx
    · exact (b _ hx).2 t info rfl

/-- A publisher that was created once and not destroyed: what it knows after a registration cycle. -/
theorem pub_after_collect (P : Nat → Proc) (A i : Nat) (topic : Bytes) (hne : topic ≠ []) (h1 h2 : List In)
    (hk1 : PubKept A i h1) (hk2 : PubKept A i h2) (t0 now : Int) (iS iP : Nat → RTopic)
    (hm : Mono A t0 (h1 ++ .newPub A i topic :: h2 ++ [.collect A now iS iP]))
    (hout : ((run P {} (h1 ++ .newPub A i topic :: h2)).st A).out = none) :
    let L := pubHist P A (run P {} (h1 ++ [.newPub A i topic])) h2
    let g := ((run P {} (h1 ++ .newPub A i topic :: h2 ++ [.collect A now iS iP])).st A).pg
    (∃ o ∈ g, o.id = i) ∧ (∃ t, POp.mono t (L ++ [.cycle now])) ∧
    ∀ o ∈ g, o.id = i → o.name = str topic ∧ ∃ s evs, o.st = some (s, evs) ∧
      (∀ p, p ∈ s.map.map.keys ↔ Gate.SubAlive (P A).timeout now (str topic) L p) ∧
      (Conn.lastIsConnected evs = true ↔ ∃ p, Gate.SubAlive (P A).timeout now (str topic) L p) := by
  intro L g
  have hop : pubOps P (run P {} (h1 ++ .newPub A i topic :: h2)) A (.collect A now iS iP) = [.cycle now] := by
    simp only [pubOps]
    rw [if_pos ⟨trivial, hout⟩]
  have hlist : h1 ++ In.newPub A i topic :: h2 ++ [In.collect A now iS iP] =
      (h1 ++ [In.newPub A i topic]) ++ (h2 ++ [In.collect A now iS iP]) := by simp
  have hlist2 : (h1 ++ [In.newPub A i topic]) ++ h2 = h1 ++ In.newPub A i topic :: h2 := by simp
  have hrest : pubHist P A (run P {} (h1 ++ [.newPub A i topic])) (h2 ++ [.collect A now iS iP]) =
      L ++ [.cycle now] := by
    rw [pubHist_append, ← run_append, hlist2]
    simp only [pubHist, hop, List.append_nil]
    rfl
  have hhist : pubHist P A {} (h1 ++ .newPub A i topic :: h2 ++ [.collect A now iS iP]) =
      pubHist P A {} h1 ++ .create i (str topic) (P A).timeout :: L ++ [.cycle now] := by
    rw [hlist, pubHist_append, hrest, pubHist_append]
    simp [pubHist, pubOps]
  have hg : g = Gate.pubGateRun [] (pubHist P A {} h1 ++ .create i (str topic) (P A).timeout :: L ++
      [.cycle now]) := by
    rw [← hhist]
    exact run_pg P A _ {}
  have hmono : ∃ t, POp.mono t (L ++ [.cycle now]) := by
    rw [hlist] at hm
    obtain ⟨_, t, _, hm2, _⟩ := hm.append
    have := pubHist_mono P A _ (run P {} (h1 ++ [.newPub A i topic])) t hm2
    rw [hrest] at this
    exact ⟨t, this⟩
  obtain ⟨t, ht⟩ := hmono
  obtain ⟨k1, k2⟩ := pub_knows i (str topic) (fun h => hne (str_ne_empty.1 h)) (P A).timeout t now _ L
    (pubHist_untouched P A i h1 {} hk1) (pubHist_untouched P A i h2 _ hk2) ht
  rw [← hg] at k1 k2
  exact ⟨k1, ⟨t, ht⟩, k2⟩

/-- A subscriber that was created once and not destroyed: what it knows after a registration cycle. -/
theorem sub_after_collect (P : Nat → Proc) (B j : Nat) (topic : Bytes) (hne : topic ≠ []) (h1 h2 : List In)
    (hk1 : SubKept B j h1) (hk2 : SubKept B j h2) (t0 now : Int) (iS iP : Nat → RTopic)
    (hm : Mono B t0 (h1 ++ .newSub B j topic :: h2 ++ [.collect B now iS iP]))
    (hout : ((run P {} (h1 ++ .newSub B j topic :: h2)).st B).out = none) :
    let L := subHist P B (run P {} (h1 ++ [.newSub B j topic])) h2
    let g := ((run P {} (h1 ++ .newSub B j topic :: h2 ++ [.collect B now iS iP])).st B).sg
    (∃ o ∈ g, o.id = j) ∧ (∃ t, SOp.mono t (L ++ [.cycle now])) ∧
    ∀ o ∈ g, o.id = j → o.name = str topic ∧ ∃ s evs, o.st = some (s, evs) ∧
      (∀ p, p ∈ s.map.map.keys ↔ Gate.PubAlive (str (P B).host) (P B).timeout now (str topic) L p) ∧
      (Conn.lastIsConnected evs = true ↔
        ∃ p, Gate.PubAlive (str (P B).host) (P B).timeout now (str topic) L p) := by
  intro L g
  have hop : subOps P (run P {} (h1 ++ .newSub B j topic :: h2)) B (.collect B now iS iP) = [.cycle now] := by
    simp only [subOps]
    rw [if_pos ⟨trivial, hout⟩]
  have hlist : h1 ++ In.newSub B j topic :: h2 ++ [In.collect B now iS iP] =
      (h1 ++ [In.newSub B j topic]) ++ (h2 ++ [In.collect B now iS iP]) := by simp
  have hlist2 : (h1 ++ [In.newSub B j topic]) ++ h2 = h1 ++ In.newSub B j topic :: h2 := by simp
  have hrest : subHist P B (run P {} (h1 ++ [.newSub B j topic])) (h2 ++ [.collect B now iS iP]) =
      L ++ [.cycle now] := by
    rw [subHist_append, ← run_append, hlist2]
    simp only [subHist, hop, List.append_nil]
    rfl
  have hhist : subHist P B {} (h1 ++ .newSub B j topic :: h2 ++ [.collect B now iS iP]) =
      subHist P B {} h1 ++ .create j (str topic) (P B).timeout :: L ++ [.cycle now] := by
    rw [hlist, subHist_append, hrest, subHist_append]
    simp [subHist, subOps]
  have hg : g = Gate.subGateRun (str (P B).host) [] (subHist P B {} h1 ++
      .create j (str topic) (P B).timeout :: L ++ [.cycle now]) := by
    rw [← hhist]
    exact run_sg P B _ {}
  have hmono : ∃ t, SOp.mono t (L ++ [.cycle now]) := by
    rw [hlist] at hm
    obtain ⟨_, t, _, hm2, _⟩ := hm.append
    have := subHist_mono P B _ (run P {} (h1 ++ [.newSub B j topic])) t hm2
    rw [hrest] at this
    exact ⟨t, this⟩
  obtain ⟨t, ht⟩ := hmono
  obtain ⟨k1, k2⟩ := sub_knows (str (P B).host) j (str topic) (fun h => hne (str_ne_empty.1 h)) (P B).timeout
    t now _ L (subHist_untouched P B j h1 {} hk1) (subHist_untouched P B j h2 _ hk2) ht
  rw [← hg] at k1 k2
  exact ⟨k1, ⟨t, ht⟩, k2⟩

/-! ## Seen and not unregistered -/

theorem pmono_append {t : Int} (a b : List POp) (h : POp.mono t (a ++ b)) : ∃ t', t ≤ t' ∧ POp.mono t' b := by
  induction a generalizing t with
  | nil => exact ⟨t, Int.le_refl _, h⟩
  | cons x a ih =>
    cases x <;> simp only [List.cons_append, POp.mono] at h
    case create => exact ih h
    case destroy => exact ih h
    all_goals
      obtain ⟨t', h1, h2⟩ := ih h.2
      exact ⟨t', Int.le_trans h.1 h1, h2⟩

theorem smono_append {t : Int} (a b : List SOp) (h : SOp.mono t (a ++ b)) : ∃ t', t ≤ t' ∧ SOp.mono t' b := by
  induction a generalizing t with
  | nil => exact ⟨t, Int.le_refl _, h⟩
  | cons x a ih =>
    cases x <;> simp only [List.cons_append, SOp.mono] at h
    case create => exact ih h
    case destroy => exact ih h
    all_goals
      obtain ⟨t', h1, h2⟩ := ih h.2
      exact ⟨t', Int.le_trans h.1 h1, h2⟩

theorem pubSeen_stays (n : String) (p : Conn.Peer) (l rest : List POp) (t c : Int)
    (hm : POp.mono c (l ++ rest)) (htc : t ≤ c)
    (hu : ∀ now r, POp.subUnreg now r ∈ l → ¬ (r.topic = n ∧ r.peer = p)) :
    ∃ t', l.foldl (Gate.pubSeen n p) (some t) = some t' ∧ t ≤ t' := by
  induction l generalizing t c with
  | nil => exact ⟨t, rfl, Int.le_refl _⟩
  | cons x l ih =>
    have hu' : ∀ now r, POp.subUnreg now r ∈ l → ¬ (r.topic = n ∧ r.peer = p) :=
      fun now r h => hu now r (by simp [h])
    simp only [List.foldl_cons]
    cases x with
    | create i m tt => exact ih t c hm htc hu'
    | destroy i m => exact ih t c hm htc hu'
    | cycle now => exact ih t now hm.2 (by have := hm.1; omega) hu'
    | subUnreg now r =>
      simp only [Gate.pubSeen]
      rw [if_neg (hu now r (by simp))]
      exact ih t now hm.2 (by have := hm.1; omega) hu'
    | subReg now r =>
      simp only [Gate.pubSeen]
      by_cases e : r.topic = n ∧ r.peer = p
      · rw [if_pos e]
        obtain ⟨t', h1, h2⟩ := ih now now hm.2 (Int.le_refl _) hu'
        exact ⟨t', h1, by have := hm.1; omega⟩
      · rw [if_neg e]
        exact ih t now hm.2 (by have := hm.1; omega) hu'

theorem subSeen_stays (H n : String) (p : Conn.Peer) (l rest : List SOp) (t c : Int)
    (hm : SOp.mono c (l ++ rest)) (htc : t ≤ c)
    (hu : ∀ now r, SOp.pubUnreg now r ∈ l → ¬ (r.topic = n ∧ r.peer = p)) :
    ∃ t', l.foldl (Gate.subSeen H n p) (some t) = some t' ∧ t ≤ t' := by
  induction l generalizing t c with
  | nil => exact ⟨t, rfl, Int.le_refl _⟩
  | cons x l ih =>
    have hu' : ∀ now r, SOp.pubUnreg now r ∈ l → ¬ (r.topic = n ∧ r.peer = p) :=
      fun now r h => hu now r (by simp [h])
    simp only [List.foldl_cons]
    cases x with
    | create i m tt => exact ih t c hm htc hu'
    | destroy i m => exact ih t c hm htc hu'
    | cycle now => exact ih t now hm.2 (by have := hm.1; omega) hu'
    | pubUnreg now r =>
      simp only [Gate.subSeen]
      rw [if_neg (hu now r (by simp))]
      exact ih t now hm.2 (by have := hm.1; omega) hu'
    | pubReg now r =>
      simp only [Gate.subSeen]
      by_cases e : r.topic = n ∧ r.peer = p ∧
        ((p.host = H ∧ r.connLoc > 0) ∨ (p.host ≠ H ∧ r.connExt > 0))
      · rw [if_pos e]
        obtain ⟨t', h1, h2⟩ := ih now now hm.2 (Int.le_refl _) hu'
        exact ⟨t', h1, by have := hm.1; omega⟩
      · rw [if_neg e]
        exact ih t now hm.2 (by have := hm.1; omega) hu'

theorem mem_pubHist (P : Nat → Proc) (q : Nat) (op : POp) (h : List In) (w : World)
    (hop : op ∈ pubHist P q w h) : ∃ ha x hb, h = ha ++ x :: hb ∧ op ∈ pubOps P (run P w ha) q x := by
  induction h generalizing w with
  | nil => cases hop
  | cons x h ih =>
    rcases List.mem_append.1 hop with hop | hop
    · exact ⟨[], x, h, rfl, hop⟩
    · obtain ⟨ha, y, hb, rfl, hy⟩ := ih _ hop
      exact ⟨x :: ha, y, hb, rfl, hy⟩

theorem mem_subHist (P : Nat → Proc) (q : Nat) (op : SOp) (h : List In) (w : World)
    (hop : op ∈ subHist P q w h) : ∃ ha x hb, h = ha ++ x :: hb ∧ op ∈ subOps P (run P w ha) q x := by
  induction h generalizing w with
  | nil => cases hop
  | cons x h ih =>
    rcases List.mem_append.1 hop with hop | hop
    · exact ⟨[], x, h, rfl, hop⟩
    · obtain ⟨ha, y, hb, rfl, hy⟩ := ih _ hop
      exact ⟨x :: ha, y, hb, rfl, hy⟩

theorem pubOps_unreg {P : Nat → Proc} {w : World} {q : Nat} {x : In} {now : Int} {r : Gate.Reg}
    (h : POp.subUnreg now r ∈ pubOps P w q x) :
    ∃ k now' m, delivered w k = some m ∧ POp.subUnreg now r ∈ popsOf (P q) now' m := by
  unfold pubOps at h
  cases x with
  | newPub p i' topic => simp only at h; split at h <;> simp at h
  | delPub p i' topic info => simp only at h; split at h <;> simp at h
  | collect p now a b => simp only at h; split at h <;> simp at h
  | arrive p k now' =>
    simp only at h
    split at h
    · split at h
      · rename_i m hd; exact ⟨k, now', m, hd, h⟩
      · cases h
    · cases h
  | newSub | delSub | again | other | send | flush => cases h

theorem subOps_unreg {P : Nat → Proc} {w : World} {q : Nat} {x : In} {now : Int} {r : Gate.Reg}
    (h : SOp.pubUnreg now r ∈ subOps P w q x) :
    ∃ k now' m, delivered w k = some m ∧ SOp.pubUnreg now r ∈ sopsOf (P q) now' m := by
  unfold subOps at h
  cases x with
  | newSub p i' topic => simp only at h; split at h <;> simp at h
  | delSub p i' topic info => simp only at h; split at h <;> simp at h
  | collect p now a b => simp only at h; split at h <;> simp at h
  | arrive p k now' =>
    simp only at h
    split at h
    · split at h
      · rename_i m hd; exact ⟨k, now', m, hd, h⟩
      · cases h
    · cases h
  | newPub | delPub | again | other | send | flush => cases h

theorem unreg_sub (P : Nat → Proc) (h : List In) (q : Nat) (now now' : Int) (m : RegSample) (r : Gate.Reg)
    (hs : Src P h m) (hr : POp.subUnreg now' r ∈ popsOf (P q) now (Wire.transmitted m)) :
    ∃ B j t info, In.delSub B j t info ∈ h ∧ r.peer = speer (P B) j ∧ r.topic = str t := by
  cases hs with
  | sub h1 h2 B info o e ho =>
    obtain ⟨a, b⟩ := ops_topic (P q) (P B) now (subSample (P B) info o) (Or.inr (Or.inr (Or.inl rfl))) rfl rfl
      rfl
    by_cases ha : Accepts (P q) (P B)
    · rw [(a ha).1, if_pos (by rfl)] at hr; simp at hr
    · rw [(b ha).1] at hr; cases hr
  | pub h1 h2 A info o e ho =>
    obtain ⟨a, b⟩ := ops_topic (P q) (P A) now (pubSample (P A) info o) (Or.inl rfl) rfl rfl rfl
    by_cases ha : Accepts (P q) (P A)
    · rw [(a ha).1, if_neg (by simp [pubSample]), if_neg (by simp [pubSample])] at hr; cases hr
    · rw [(b ha).1] at hr; cases hr
  | subGone B j t info ho hd =>
    obtain ⟨a, b⟩ := ops_topic (P q) (P B) now (subGone (P B) info j t) (Or.inr (Or.inr (Or.inr rfl))) rfl rfl
      rfl
    by_cases ha : Accepts (P q) (P B)
    · rw [(a ha).1, if_neg (by simp [subGone]), if_pos (by rfl)] at hr
      simp only [List.mem_singleton, POp.subUnreg.injEq] at hr
      exact ⟨B, j, t, info, hd, by rw [hr.2]; rfl, by rw [hr.2]; rfl⟩
    · rw [(b ha).1] at hr; cases hr
  | pubGone A i t info hd =>
    obtain ⟨a, b⟩ := ops_topic (P q) (P A) now (pubGone (P A) info i t) (Or.inr (Or.inl rfl)) rfl rfl rfl
    by_cases ha : Accepts (P q) (P A)
    · rw [(a ha).1, if_neg (by simp [pubGone]), if_neg (by simp [pubGone])] at hr; cases hr
    · rw [(b ha).1] at hr; cases hr
  | other m hm =>
    rw [(ops_other (P q) now m hm).1] at hr; cases hr

theorem unreg_pub (P : Nat → Proc) (h : List In) (q : Nat) (now now' : Int) (m : RegSample) (r : Gate.Reg)
    (hs : Src P h m) (hr : SOp.pubUnreg now' r ∈ sopsOf (P q) now (Wire.transmitted m)) :
    ∃ A i t info, In.delPub A i t info ∈ h ∧ r.peer = ppeer (P A) i ∧ r.topic = str t := by
  cases hs with
  | sub h1 h2 B info o e ho =>
    obtain ⟨a, b⟩ := ops_topic (P q) (P B) now (subSample (P B) info o) (Or.inr (Or.inr (Or.inl rfl))) rfl rfl
      rfl
    by_cases ha : Accepts (P q) (P B)
    · rw [(a ha).2, if_neg (by simp [subSample]), if_neg (by simp [subSample])] at hr; cases hr
    · rw [(b ha).2] at hr; cases hr
  | pub h1 h2 A info o e ho =>
    obtain ⟨a, b⟩ := ops_topic (P q) (P A) now (pubSample (P A) info o) (Or.inl rfl) rfl rfl rfl
    by_cases ha : Accepts (P q) (P A)
    · rw [(a ha).2, if_pos (by rfl)] at hr; simp at hr
    · rw [(b ha).2] at hr; cases hr
  | subGone B j t info ho hd =>
    obtain ⟨a, b⟩ := ops_topic (P q) (P B) now (subGone (P B) info j t) (Or.inr (Or.inr (Or.inr rfl))) rfl rfl
      rfl
    by_cases ha : Accepts (P q) (P B)
    · rw [(a ha).2, if_neg (by simp [subGone]), if_neg (by simp [subGone])] at hr; cases hr
    · rw [(b ha).2] at hr; cases hr
  | pubGone A i t info hd =>
    obtain ⟨a, b⟩ := ops_topic (P q) (P A) now (pubGone (P A) info i t) (Or.inr (Or.inl rfl)) rfl rfl rfl
    by_cases ha : Accepts (P q) (P A)
    · rw [(a ha).2, if_neg (by simp [pubGone]), if_pos (by rfl)] at hr
      simp only [List.mem_singleton, SOp.pubUnreg.injEq] at hr
      exact ⟨A, i, t, info, hd, by rw [hr.2]; rfl, by rw [hr.2]; rfl⟩
    · rw [(b ha).2] at hr; cases hr
  | other m hm =>
    rw [(ops_other (P q) now m hm).2] at hr; cases hr

theorem fits_prefix {P : Nat → Proc} {h1 h2 : List In} (hf : ∀ m ∈ (run P {} (h1 ++ h2)).net, Fits m) :
    ∀ m ∈ (run P {} h1).net, Fits m := by
  intro m hm
  apply hf
  rw [run_append]
  obtain ⟨l, hl⟩ := net_grows P (run P {} h1) h2
  rw [hl]
  simp [hm]

/-- A subscriber that is not destroyed is not unregistered anywhere. -/
theorem no_unreg_sub (P : Nat → Proc) (h0 h : List In) (q B j : Nat)
    (hf : ∀ m ∈ (run P {} (h0 ++ h)).net, Fits m)
    (hinj : ∀ B' j', speer (P B') j' = speer (P B) j → B' = B ∧ j' = j)
    (hd : ∀ t info, In.delSub B j t info ∉ h0 ++ h) (now : Int) (r : Gate.Reg)
    (hop : POp.subUnreg now r ∈ pubHist P q (run P {} h0) h) : r.peer ≠ speer (P B) j := by
  obtain ⟨ha, x, hb, rfl, hx⟩ := mem_pubHist P q _ h _ hop
  rw [← run_append] at hx
  have e : h0 ++ (ha ++ x :: hb) = (h0 ++ ha) ++ x :: hb := by simp
  rw [e] at hf hd
  have hf' := fits_prefix hf
  obtain ⟨k, now', m, hdl, hr⟩ := pubOps_unreg hx
  obtain ⟨m0, hs, rfl⟩ := delivered_src P _ _ k m (winv P _ hf').net hf' hdl
  obtain ⟨B', j', t, info, h1, h2, _⟩ := unreg_sub P _ q now' now m0 r hs hr
  intro hp
  rw [h2] at hp
  obtain ⟨rfl, rfl⟩ := hinj B' j' hp
  exact hd t info (List.mem_append_left _ h1)

theorem no_unreg_pub (P : Nat → Proc) (h0 h : List In) (q A i : Nat)
    (hf : ∀ m ∈ (run P {} (h0 ++ h)).net, Fits m)
    (hinj : ∀ A' i', ppeer (P A') i' = ppeer (P A) i → A' = A ∧ i' = i)
    (hd : ∀ t info, In.delPub A i t info ∉ h0 ++ h) (now : Int) (r : Gate.Reg)
    (hop : SOp.pubUnreg now r ∈ subHist P q (run P {} h0) h) : r.peer ≠ ppeer (P A) i := by
  obtain ⟨ha, x, hb, rfl, hx⟩ := mem_subHist P q _ h _ hop
  rw [← run_append] at hx
  have e : h0 ++ (ha ++ x :: hb) = (h0 ++ ha) ++ x :: hb := by simp
  rw [e] at hf hd
  have hf' := fits_prefix hf
  obtain ⟨k, now', m, hdl, hr⟩ := subOps_unreg hx
  obtain ⟨m0, hs, rfl⟩ := delivered_src P _ _ k m (winv P _ hf').net hf' hdl
  obtain ⟨A', i', t, info, h1, h2, _⟩ := unreg_pub P _ q now' now m0 r hs hr
  intro hp
  rw [h2] at hp
  obtain ⟨rfl, rfl⟩ := hinj A' i' hp
  exact hd t info (List.mem_append_left _ h1)

/-! ## Learning -/

/-- **C106 (a publisher learns of a subscriber).** A publisher exists, a registration of a subscriber of its
topic arrives at its process, which listens to the subscriber's process; the subscriber is not destroyed.
Then, whatever else happens to any process, at every registration cycle that follows within the timeout the
publisher knows the subscriber and the application's last notification was 'connected'. -/
theorem C106_publisher_learns (P : Nat → Proc) (A i B j k : Nat) (topic : Bytes) (hne : topic ≠ [])
    (hacc : Accepts (P A) (P B)) (hinj : ∀ B' j', speer (P B') j' = speer (P B) j → B' = B ∧ j' = j)
    (h0 h3 : List In) (t0 t1 t2 : Int) (iS iP : Nat → RTopic)
    (hf : ∀ m ∈ (run P {} (h0 ++ .arrive A k t1 :: h3)).net, Fits m)
    (hl : PubLives A i topic h0) (hk : PubKept A i h3)
    (hd : SubDatagram P (run P {} h0) k B j topic)
    (hdel : ∀ t info, In.delSub B j t info ∉ h0 ++ .arrive A k t1 :: h3)
    (hm : Mono A t0 (h0 ++ .arrive A k t1 :: h3 ++ [.collect A t2 iS iP]))
    (hout : ((run P {} (h0 ++ .arrive A k t1 :: h3)).st A).out = none)
    (ht : t2 - (P A).timeout ≤ t1) :
    PubConnected (run P {} (h0 ++ .arrive A k t1 :: h3 ++ [.collect A t2 iS iP])) A i topic
      (speer (P B) j) := by
  obtain ⟨ha, hb, rfl, hk1, hk2⟩ := hl
  obtain ⟨m, hmk, d1, d2, d3, d4, d5, d6⟩ := hd
  have e1 : ha ++ In.newPub A i topic :: hb ++ In.arrive A k t1 :: h3 =
      ha ++ In.newPub A i topic :: (hb ++ In.arrive A k t1 :: h3) := by simp
  have hkk : PubKept A i (hb ++ In.arrive A k t1 :: h3) := by
    intro x hx
    rcases List.mem_append.1 hx with hx | hx
    · exact hk2 x hx
    · rcases List.mem_cons.1 hx with rfl | hx
      · simp
      · exact hk x hx
  have hm' := hm
  rw [e1] at hm' hout
  obtain ⟨⟨o, ho, hid⟩, ⟨tt, htt⟩, hall⟩ := pub_after_collect P A i topic hne ha
    (hb ++ .arrive A k t1 :: h3) hk1 hkk t0 t2 iS iP hm' hout
  rw [← e1] at ho hall
  obtain ⟨hnm, s, evs, hst, hkeys, hlast⟩ := hall o ho hid
  have e2 : (ha ++ [In.newPub A i topic]) ++ hb = ha ++ In.newPub A i topic :: hb := by simp
  -- the history since the creation
  have hm0 : Fits m := by
    refine fits_prefix hf m (List.mem_of_getElem? hmk)
  have hdl : delivered (run P {} (ha ++ .newPub A i topic :: hb)) k = some (Wire.transmitted m) := by
    unfold delivered
    rw [hmk]
    exact receive_datagram m hm0
  have hops : pubOps P (run P {} (ha ++ .newPub A i topic :: hb)) A (.arrive A k t1) =
      [.subReg t1 (regOf m)] := by
    simp only [pubOps, if_true, hdl]
    rw [((ops_topic (P A) (P B) t1 m (Or.inr (Or.inr (Or.inl d1))) d2 d3 d5).1 hacc).1, if_pos d1]
  have hreg : (regOf m).topic = str topic ∧ (regOf m).peer = speer (P B) j := by
    constructor
    · show str m.topic.tname = _
      rw [d6]
    · show (⟨str m.hostName, m.processId.toInt, str m.entityId⟩ : Conn.Peer) = _
      rw [d2, d3, d4]; rfl
  have hsplit : pubHist P A (run P {} (ha ++ [.newPub A i topic])) (hb ++ .arrive A k t1 :: h3) =
      pubHist P A (run P {} (ha ++ [.newPub A i topic])) hb ++ (.subReg t1 (regOf m) ::
        pubHist P A (run P {} (ha ++ .newPub A i topic :: hb ++ [.arrive A k t1])) h3) := by
    rw [pubHist_append, ← run_append, e2]
    congr 1
    show pubOps P _ A _ ++ pubHist P A _ h3 = _
    rw [hops, run_snoc]
    rfl
  rw [hsplit] at htt hkeys hlast
  have hun : ∀ now r, POp.subUnreg now r ∈
      pubHist P A (run P {} (ha ++ .newPub A i topic :: hb ++ [.arrive A k t1])) h3 →
      ¬ (r.topic = str topic ∧ r.peer = speer (P B) j) := by
    intro now r hop hx
    refine no_unreg_sub P (ha ++ .newPub A i topic :: hb ++ [.arrive A k t1]) h3 A B j ?_ hinj ?_ now r hop
      hx.2
    · rw [List.append_assoc]; exact hf
    · rw [List.append_assoc]; exact hdel
  rw [List.append_assoc] at htt
  obtain ⟨t', _, hmono⟩ := pmono_append _ _ htt
  obtain ⟨u, hu1, hu2⟩ := pubSeen_stays (str topic) (speer (P B) j) _ [.cycle t2] t1 t1 hmono.2
    (Int.le_refl _) hun
  have halive : Gate.SubAlive (P A).timeout t2 (str topic)
      (pubHist P A (run P {} (ha ++ [.newPub A i topic])) hb ++ (.subReg t1 (regOf m) ::
        pubHist P A (run P {} (ha ++ .newPub A i topic :: hb ++ [.arrive A k t1])) h3))
      (speer (P B) j) := by
    refine ⟨u, ?_, by omega⟩
    rw [List.foldl_append, List.foldl_cons]
    have : Gate.pubSeen (str topic) (speer (P B) j)
        ((pubHist P A (run P {} (ha ++ [.newPub A i topic])) hb).foldl
          (Gate.pubSeen (str topic) (speer (P B) j)) none) (.subReg t1 (regOf m)) = some t1 := by
      simp only [Gate.pubSeen]
      rw [if_pos hreg]
    rw [this]
    exact hu1
  exact ⟨o, ho, hid, hnm, s, evs, hst, (hkeys _).2 halive, hlast.2 ⟨_, halive⟩⟩

/-- **C106 (a subscriber learns of a publisher).** The same for a subscriber and a registration of a publisher
that announces a connection with a host that is on the same side. -/
theorem C106_subscriber_learns (P : Nat → Proc) (A i B j k : Nat) (topic : Bytes) (hne : topic ≠ [])
    (hacc : Accepts (P B) (P A)) (hinj : ∀ A' i', ppeer (P A') i' = ppeer (P A) i → A' = A ∧ i' = i)
    (h0 h3 : List In) (t0 t1 t2 : Int) (iS iP : Nat → RTopic)
    (hf : ∀ m ∈ (run P {} (h0 ++ .arrive B k t1 :: h3)).net, Fits m)
    (hl : SubLives B j topic h0) (hk : SubKept B j h3)
    (hd : PubDatagram P (run P {} h0) k A i topic (P B).host)
    (hdel : ∀ t info, In.delPub A i t info ∉ h0 ++ .arrive B k t1 :: h3)
    (hm : Mono B t0 (h0 ++ .arrive B k t1 :: h3 ++ [.collect B t2 iS iP]))
    (hout : ((run P {} (h0 ++ .arrive B k t1 :: h3)).st B).out = none)
    (ht : t2 - (P B).timeout ≤ t1) :
    SubConnected (run P {} (h0 ++ .arrive B k t1 :: h3 ++ [.collect B t2 iS iP])) B j topic
      (ppeer (P A) i) := by
  obtain ⟨ha, hb, rfl, hk1, hk2⟩ := hl
  obtain ⟨m, hmk, d1, d2, d3, d4, d5, d6, d7, d8⟩ := hd
  have e1 : ha ++ In.newSub B j topic :: hb ++ In.arrive B k t1 :: h3 =
      ha ++ In.newSub B j topic :: (hb ++ In.arrive B k t1 :: h3) := by simp
  have hkk : SubKept B j (hb ++ In.arrive B k t1 :: h3) := by
    intro x hx
    rcases List.mem_append.1 hx with hx | hx
    · exact hk2 x hx
    · rcases List.mem_cons.1 hx with rfl | hx
      · simp
      · exact hk x hx
  have hm' := hm
  rw [e1] at hm' hout
  obtain ⟨⟨o, ho, hid⟩, ⟨tt, htt⟩, hall⟩ := sub_after_collect P B j topic hne ha
    (hb ++ .arrive B k t1 :: h3) hk1 hkk t0 t2 iS iP hm' hout
  rw [← e1] at ho hall
  obtain ⟨hnm, s, evs, hst, hkeys, hlast⟩ := hall o ho hid
  have e2 : (ha ++ [In.newSub B j topic]) ++ hb = ha ++ In.newSub B j topic :: hb := by simp
  have hm0 : Fits m := by
    refine fits_prefix hf m (List.mem_of_getElem? hmk)
  have hdl : delivered (run P {} (ha ++ .newSub B j topic :: hb)) k = some (Wire.transmitted m) := by
    unfold delivered
    rw [hmk]
    exact receive_datagram m hm0
  have hops : subOps P (run P {} (ha ++ .newSub B j topic :: hb)) B (.arrive B k t1) =
      [.pubReg t1 (regOf m)] := by
    simp only [subOps, if_true, hdl]
    rw [((ops_topic (P B) (P A) t1 m (Or.inl d1) d2 d3 d5).1 hacc).2, if_pos d1]
  have hreg : (regOf m).topic = str topic ∧ (regOf m).peer = ppeer (P A) i ∧
      (((ppeer (P A) i).host = str (P B).host ∧ (regOf m).connLoc > 0) ∨
       ((ppeer (P A) i).host ≠ str (P B).host ∧ (regOf m).connExt > 0)) := by
    refine ⟨?_, ?_, ?_⟩
    · show str m.topic.tname = _
      rw [d6]
    · show (⟨str m.hostName, m.processId.toInt, str m.entityId⟩ : Conn.Peer) = _
      rw [d2, d3, d4]; rfl
    · by_cases hh : (P B).host = (P A).host
      · exact Or.inl ⟨congrArg str hh.symm, d7 hh⟩
      · exact Or.inr ⟨fun hx => hh (str_inj hx).symm, d8 hh⟩
  have hsplit : subHist P B (run P {} (ha ++ [.newSub B j topic])) (hb ++ .arrive B k t1 :: h3) =
      subHist P B (run P {} (ha ++ [.newSub B j topic])) hb ++ (.pubReg t1 (regOf m) ::
        subHist P B (run P {} (ha ++ .newSub B j topic :: hb ++ [.arrive B k t1])) h3) := by
    rw [subHist_append, ← run_append, e2]
    congr 1
    show subOps P _ B _ ++ subHist P B _ h3 = _
    rw [hops, run_snoc]
    rfl
  rw [hsplit] at htt hkeys hlast
  have hun : ∀ now r, SOp.pubUnreg now r ∈
      subHist P B (run P {} (ha ++ .newSub B j topic :: hb ++ [.arrive B k t1])) h3 →
      ¬ (r.topic = str topic ∧ r.peer = ppeer (P A) i) := by
    intro now r hop hx
    refine no_unreg_pub P (ha ++ .newSub B j topic :: hb ++ [.arrive B k t1]) h3 B A i ?_ hinj ?_ now r hop
      hx.2
    · rw [List.append_assoc]; exact hf
    · rw [List.append_assoc]; exact hdel
  rw [List.append_assoc] at htt
  obtain ⟨t', _, hmono⟩ := smono_append _ _ htt
  obtain ⟨u, hu1, hu2⟩ := subSeen_stays (str (P B).host) (str topic) (ppeer (P A) i) _ [.cycle t2] t1 t1
    hmono.2 (Int.le_refl _) hun
  have halive : Gate.PubAlive (str (P B).host) (P B).timeout t2 (str topic)
      (subHist P B (run P {} (ha ++ [.newSub B j topic])) hb ++ (.pubReg t1 (regOf m) ::
        subHist P B (run P {} (ha ++ .newSub B j topic :: hb ++ [.arrive B k t1])) h3))
      (ppeer (P A) i) := by
    refine ⟨u, ?_, by omega⟩
    rw [List.foldl_append, List.foldl_cons]
    have : Gate.subSeen (str (P B).host) (str topic) (ppeer (P A) i)
        ((subHist P B (run P {} (ha ++ [.newSub B j topic])) hb).foldl
          (Gate.subSeen (str (P B).host) (str topic) (ppeer (P A) i)) none) (.pubReg t1 (regOf m)) =
        some t1 := by
      simp only [Gate.subSeen]
      rw [if_pos hreg]
    rw [this]
    exact hu1
  exact ⟨o, ho, hid, hnm, s, evs, hst, (hkeys _).2 halive, hlast.2 ⟨_, halive⟩⟩

end Ecal.E2E.Disc
