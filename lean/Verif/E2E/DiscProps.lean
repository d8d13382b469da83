import Verif.E2E.Disc
import Verif.E2E.NetProps
import Verif.Wire.RegistrationProps
import Verif.Udp.FrameProps
import Verif.Gate.Props

/-! # C106: publishers and subscribers find each other, from one process to another -/

namespace Ecal.E2E.Disc

open Ecal.Wire (RegSample RTopic IsMap)
open Ecal.Gate (Obj CS POp SOp GOp gstep cstep eraseFirst)

/-! ## Specification -/

/-- A sample that can be serialised: its attributes are a map, its size fits into 32 bits. -/
def Fits (m : RegSample) : Prop := IsMap m.topic.attr ∧ (Wire.serializeReg m).length < 2 ^ 32

/-- Process `Q` listens to process `B`: same (non-empty) host group and another process, or loopback, or
another host group and network mode. -/
def Accepts (Q B : Proc) : Prop :=
  if Q.group ≠ [] ∧ Q.group = (if B.group = [] then B.host else B.group) then
    B.pid ≠ Q.pid ∨ Q.loopback = true
  else Q.network = true

/-- How others know the `j`-th subscriber / the `i`-th publisher of a process. -/
def speer (B : Proc) (j : Nat) : Conn.Peer := ⟨str B.host, B.pid.toInt, str (B.stid j)⟩
def ppeer (A : Proc) (i : Nat) : Conn.Peer := ⟨str A.host, A.pid.toInt, str (A.ptid i)⟩

/-- At some time process `B` had the subscriber `j` of topic `n`. -/
def HadSub (P : Nat → Proc) (h : List In) (B j : Nat) (n : String) : Prop :=
  ∃ h1 h2, h = h1 ++ h2 ∧ ∃ o ∈ ((run P {} h1).st B).sg, o.id = j ∧ o.name = n

/-- At some time process `A` had the publisher `i` of topic `n`, which knew a subscriber for which `f`
holds. -/
def HadPub (P : Nat → Proc) (h : List In) (A i : Nat) (n : String) (f : Conn.Peer → Prop) : Prop :=
  ∃ h1 h2, h = h1 ++ h2 ∧ ∃ o ∈ ((run P {} h1).st A).pg, o.id = i ∧ o.name = n ∧
    ∃ s evs, o.st = some (s, evs) ∧ ∃ p ∈ s.map.map.keys, f p

/-! ## Names and datagrams -/

theorem unstr_str (b : Bytes) : unstr (str b) = b := by
  unfold unstr str
  rw [String.toList_ofList, List.map_map]
  conv => rhs; rw [← List.map_id b]
  apply List.map_congr_left
  intro x _
  simp only [Function.comp, id]
  have hv : (x.toNat).isValidChar := by
    have := x.toNat_lt
    exact Or.inl (by omega)
  have : (Char.ofNat x.toNat).toNat = x.toNat := by
    simp [Char.ofNat, hv, Char.toNat, Char.ofNatAux]
  rw [this]
  simp

theorem str_ne_empty {b : Bytes} : str b = "" ↔ b = [] := by
  constructor
  · intro h
    have := unstr_str b
    rw [h] at this
    simpa [unstr] using this.symm
  · rintro rfl; rfl

theorem receive_datagram (m : RegSample) (hf : Fits m) :
    receive (datagram m) = some (Wire.transmitted m) := by
  unfold receive datagram
  rw [Udp.C23_roundtrip label _ (by decide) (by decide)]
  exact Wire.C28_roundtrip m hf.1 hf.2

/-- Samples of topics arrive complete, as far as the filter and the gates look at them. -/
theorem transmitted_topic (m : RegSample) (h : m.cmd = 2 ∨ m.cmd = 12 ∨ m.cmd = 3 ∨ m.cmd = 13) :
    (Wire.transmitted m).cmd = m.cmd ∧ (Wire.transmitted m).hostName = m.hostName ∧
    (Wire.transmitted m).processId = m.processId ∧ (Wire.transmitted m).entityId = m.entityId ∧
    (Wire.transmitted m).topic = m.topic := by
  unfold Wire.transmitted
  rw [if_neg (by rcases h with h | h | h | h <;> rw [h] <;> decide),
    if_neg (by rcases h with h | h | h | h <;> rw [h] <;> decide),
    if_neg (by rcases h with h | h | h | h <;> rw [h] <;> decide), if_pos h]
  simp

theorem transmitted_cmd (m : RegSample) : (Wire.transmitted m).cmd = m.cmd := by
  unfold Wire.transmitted
  split
  · rfl
  · split
    · rfl
    · split
      · rfl
      · split <;> rfl

theorem toInt_inj {a b : BitVec 32} : a.toInt = b.toInt ↔ a = b :=
  ⟨BitVec.eq_of_toInt_eq, fun h => by rw [h]⟩

/-- The filter lets a topic's sample pass exactly if the process listens to its sender. -/
theorem accept_iff (Q B : Proc) (m : RegSample) (hc : m.cmd = 2 ∨ m.cmd = 12 ∨ m.cmd = 3 ∨ m.cmd = 13)
    (h1 : m.hostName = B.host) (h2 : m.processId = B.pid) (h3 : m.topic.hgname = B.group) :
    Registration.accept (applier Q) (smpOf (Wire.transmitted m)) = true ↔ Accepts Q B := by
  obtain ⟨e1, e2, e3, _, e5⟩ := transmitted_topic m hc
  have hg : Registration.sampleHg (smpOf (Wire.transmitted m)) = str B.group := by
    unfold Registration.sampleHg smpOf
    simp only [e1, e5, h3]
    rcases hc with h | h | h | h <;> rw [h] <;> rfl
  have hm : Registration.isHostGroupMember (applier Q) (smpOf (Wire.transmitted m)) = true ↔
      (Q.group ≠ [] ∧ Q.group = (if B.group = [] then B.host else B.group)) := by
    have hgg : (if str B.group = "" then str B.host else str B.group) =
        str (if B.group = [] then B.host else B.group) := by
      by_cases hb : B.group = []
      · rw [if_pos (str_ne_empty.2 hb), if_pos hb]
      · rw [if_neg (fun h => hb (str_ne_empty.1 h)), if_neg hb]
    unfold Registration.isHostGroupMember
    rw [hg]
    simp only [smpOf, e2, h1, applier, hgg]
    generalize (if B.group = [] then B.host else B.group) = g
    by_cases hq : Q.group = g
    · subst hq
      by_cases hn : Q.group = []
      · rw [if_pos (Or.inl (str_ne_empty.2 hn))]
        simp [hn]
      · have : str Q.group ≠ "" := fun h => hn (str_ne_empty.1 h)
        simp [hn, this]
    · have : str g ≠ str Q.group := fun h => hq (str_inj h).symm
      simp [hq, this]
  have hp : Registration.isSameProcess (applier Q) (smpOf (Wire.transmitted m)) = true ↔ B.pid = Q.pid := by
    simp [Registration.isSameProcess, smpOf, applier, e3, h2, toInt_inj]
  unfold Registration.accept Accepts
  by_cases hmm : Registration.isHostGroupMember (applier Q) (smpOf (Wire.transmitted m)) = true
  · rw [if_pos hmm, if_pos (hm.1 hmm)]
    rw [Bool.or_eq_true, Bool.not_eq_true', ← Bool.not_eq_true, hp]
    rfl
  · rw [if_neg hmm, if_neg (fun h => hmm (hm.2 h))]
    rfl

theorem regOf_transmitted (m : RegSample) (hc : m.cmd = 2 ∨ m.cmd = 12 ∨ m.cmd = 3 ∨ m.cmd = 13) :
    regOf (Wire.transmitted m) = regOf m := by
  obtain ⟨_, e2, e3, e4, e5⟩ := transmitted_topic m hc
  simp [regOf, e2, e3, e4, e5]

/-- The calls on the gates a topic's sample causes. -/
theorem ops_topic (Q B : Proc) (now : Int) (m : RegSample)
    (hc : m.cmd = 2 ∨ m.cmd = 12 ∨ m.cmd = 3 ∨ m.cmd = 13)
    (h1 : m.hostName = B.host) (h2 : m.processId = B.pid) (h3 : m.topic.hgname = B.group) :
    (Accepts Q B → popsOf Q now (Wire.transmitted m) = (if m.cmd = 3 then [.subReg now (regOf m)]
      else if m.cmd = 13 then [.subUnreg now (regOf m)] else []) ∧
      sopsOf Q now (Wire.transmitted m) = (if m.cmd = 2 then [.pubReg now (regOf m)]
      else if m.cmd = 12 then [.pubUnreg now (regOf m)] else [])) ∧
    (¬ Accepts Q B → popsOf Q now (Wire.transmitted m) = [] ∧ sopsOf Q now (Wire.transmitted m) = []) := by
  have ha := accept_iff Q B m hc h1 h2 h3
  have hr := regOf_transmitted m hc
  have hcmd : (smpOf (Wire.transmitted m)).cmd = cmdOf m.cmd := by
    simp [smpOf, transmitted_cmd]
  constructor
  · intro h
    unfold popsOf sopsOf Registration.apply
    rw [if_pos (ha.2 h), hcmd, hr]
    rcases hc with h | h | h | h <;> rw [h] <;> exact ⟨rfl, rfl⟩
  · intro h
    unfold popsOf sopsOf Registration.apply
    rw [if_neg (fun x => h (ha.1 x))]
    exact ⟨rfl, rfl⟩

/-- Other samples do not reach the gates. -/
theorem ops_other (Q : Proc) (now : Int) (m : RegSample) (h : isTopic m = false) :
    popsOf Q now (Wire.transmitted m) = [] ∧ sopsOf Q now (Wire.transmitted m) = [] := by
  have hcmd : (smpOf (Wire.transmitted m)).cmd = cmdOf m.cmd := by
    simp [smpOf, transmitted_cmd]
  simp only [isTopic, decide_eq_false_iff_not, not_or] at h
  obtain ⟨a, b, c, d⟩ := h
  have hx : cmdOf m.cmd ≠ .regPublisher ∧ cmdOf m.cmd ≠ .regSubscriber ∧ cmdOf m.cmd ≠ .unregPublisher ∧
      cmdOf m.cmd ≠ .unregSubscriber := by
    unfold cmdOf
    simp only [if_neg a, if_neg b, if_neg c, if_neg d]
    repeat' split
    all_goals decide
  unfold popsOf sopsOf Registration.apply
  rw [hcmd]
  constructor <;> split <;> grind [Registration.gateTarget]

/-! ## The keys of the connection maps -/

theorem keys_expired (limit : Int) (ns : List (ExpMap.Node Conn.Peer)) (m : AMap Conn.Peer (Unit × Nat))
    (p : Conn.Peer) (h : p ∈ (ExpMap.eraseExpiredLoop limit ns m).2.1.keys) : p ∈ m.keys := by
  induction ns generalizing m with
  | nil => exact h
  | cons n ns ih =>
    simp only [ExpMap.eraseExpiredLoop] at h
    split at h
    · have := ih _ h
      rw [AMap.mem_keys_erase] at this
      exact this.1
    · exact h

theorem keys_step (s s' : Conn.State) (evs : List Conn.Ev) (now : Int) (op : Conn.Op)
    (h : Conn.step s now op = some (s', evs)) (p : Conn.Peer) (hp : p ∈ s'.map.map.keys) :
    p ∈ s.map.map.keys ∨ op = .apply p := by
  cases op with
  | apply q =>
    simp only [Conn.step, Conn.applyPeer, Option.map_eq_some_iff] at h
    obtain ⟨m, hm, he⟩ := h
    cases he
    simp only [ExpMap.assign] at hm
    cases ha : ExpMap.access s.map now () q with
    | none => rw [ha] at hm; cases hm
    | some r =>
      rw [ha] at hm
      simp only at hm
      cases hf : r.1.map.find q with
      | none => rw [hf] at hm; cases hm
      | some v =>
        rw [hf] at hm
        simp only [Option.some.injEq] at hm
        subst hm
        simp only [AMap.mem_keys_set] at hp
        have hsub : ∀ p, p ∈ r.1.map.keys → p ∈ s.map.map.keys ∨ p = q := by
          intro p hp
          unfold ExpMap.access at ha
          cases hq : s.map.map.find q with
          | none =>
            rw [hq] at ha
            simp only [Option.some.injEq] at ha
            subst ha
            simp only [ExpMap.insertRaw, hq, AMap.mem_keys_set] at hp
            rcases hp with hp | hp
            · exact Or.inr hp
            · exact Or.inl hp
          | some w =>
            rw [hq] at ha
            simp only at ha
            cases hu : ExpMap.updateTimestamp s.map now w.2 with
            | none => rw [hu] at ha; cases ha
            | some s2 =>
              rw [hu] at ha
              simp only [Option.some.injEq] at ha
              subst ha
              unfold ExpMap.updateTimestamp at hu
              split at hu
              · cases hu
              · cases hu; exact Or.inl hp
        rcases hp with hp | hp
        · exact Or.inr (by rw [hp])
        · rcases hsub p hp with h | h
          · exact Or.inl h
          · exact Or.inr (by rw [h])
  | remove q =>
    simp only [Conn.step, Conn.removePeer, Option.map_eq_some_iff] at h
    obtain ⟨m, hm, he⟩ := h
    cases he
    left
    unfold ExpMap.erase at hm
    grind [AMap.mem_keys_erase]
  | check =>
    simp only [Conn.step, Conn.check, Option.some.injEq] at h
    left
    have hk : p ∈ (ExpMap.eraseExpired s.map now).1.map.keys := by
      split at h <;> (cases h; exact hp)
    exact keys_expired _ _ _ _ hk

/-! ## Invariants of the gates -/

/-- What a call on the multimap must respect. -/
def GOk (I : String → CS → Prop) : GOp CS (Int × Conn.Op) → Prop
  | .register _ n s0 => I n s0
  | .unregister _ _ => True
  | .toTopic n x => ∀ st, I n st → I n (cstep st x)
  | .toAll x => ∀ n st, I n st → I n (cstep st x)

theorem gstep_inv (I : String → CS → Prop) (g : List (Obj CS)) (op : GOp CS (Int × Conn.Op))
    (hg : ∀ o ∈ g, I o.name o.st) (ho : GOk I op) : ∀ o ∈ gstep cstep g op, I o.name o.st := by
  cases op with
  | register id n s0 =>
    intro o h
    simp only [gstep, List.mem_append, List.mem_singleton] at h
    rcases h with h | h
    · exact hg o h
    · subst h; exact ho
  | unregister id n =>
    have : ∀ g : List (Obj CS), ∀ o ∈ eraseFirst id n g, o ∈ g := by
      intro g
      induction g with
      | nil => intro o h; cases h
      | cons a g ih =>
        intro o h
        simp only [eraseFirst] at h
        split at h
        · exact List.mem_cons_of_mem _ h
        · rcases List.mem_cons.1 h with h | h
          · rw [h]; exact List.mem_cons_self
          · exact List.mem_cons_of_mem _ (ih o h)
    intro o h
    exact hg o (this g o h)
  | toTopic n x =>
    intro o h
    simp only [gstep, List.mem_map] at h
    obtain ⟨a, ha, rfl⟩ := h
    by_cases hn : a.name = n
    · rw [if_pos hn]
      subst hn
      exact ho _ (hg a ha)
    · rw [if_neg hn]
      exact hg a ha
  | toAll x =>
    intro o h
    simp only [gstep, List.mem_map] at h
    obtain ⟨a, ha, rfl⟩ := h
    exact ho _ _ (hg a ha)

theorem grun_inv (I : String → CS → Prop) (ops : List (GOp CS (Int × Conn.Op))) (g : List (Obj CS))
    (hg : ∀ o ∈ g, I o.name o.st) (ho : ∀ op ∈ ops, GOk I op) :
    ∀ o ∈ ops.foldl (gstep cstep) g, I o.name o.st := by
  induction ops generalizing g with
  | nil => exact hg
  | cons a ops ih =>
    exact ih _ (gstep_inv I g a hg (ho a (by simp))) (fun op h => ho op (by simp [h]))

/-- All peers an object knows satisfy `G`, and its name is a name. -/
def Keys (G : String → Conn.Peer → Prop) (n : String) (st : CS) : Prop :=
  (∃ b, n = str b) ∧ ∀ s evs, st = some (s, evs) → ∀ p ∈ s.map.map.keys, G n p

theorem keys_cstep (G : String → Conn.Peer → Prop) (n : String) (st : CS) (x : Int × Conn.Op)
    (h : Keys G n st) (hx : ∀ p, x.2 = .apply p → G n p) : Keys G n (cstep st x) := by
  refine ⟨h.1, ?_⟩
  intro s evs he p hp
  unfold cstep at he
  rw [Option.bind_eq_some_iff] at he
  obtain ⟨r, hr, he⟩ := he
  rw [Option.map_eq_some_iff] at he
  obtain ⟨r2, hs, he⟩ := he
  cases he
  rcases keys_step _ _ _ _ _ hs p hp with h1 | h1
  · exact h.2 r.1 r.2 hr p h1
  · exact hx p h1

theorem keys_init (G : String → Conn.Peer → Prop) (b : Bytes) (t : Int) :
    Keys G (str b) (some (Conn.init t, [])) := by
  refine ⟨⟨b, rfl⟩, ?_⟩
  intro s evs he p hp
  cases he
  cases hp

theorem pubGate_inv (G : String → Conn.Peer → Prop) (ops : List POp) (g : List (Obj CS))
    (hg : ∀ o ∈ g, Keys G o.name o.st)
    (hc : ∀ i n t, POp.create i n t ∈ ops → ∃ b, n = str b)
    (hr : ∀ now r, POp.subReg now r ∈ ops → G r.topic r.peer) :
    ∀ o ∈ Gate.pubGateRun g ops, Keys G o.name o.st := by
  apply grun_inv _ _ _ hg
  intro op hop
  obtain ⟨a, ha, hop⟩ := List.mem_flatMap.1 hop
  cases a with
  | create i n t =>
    simp only [Gate.pubGateOps, List.mem_singleton] at hop
    subst hop
    obtain ⟨b, rfl⟩ := hc i n t ha
    exact keys_init G b t
  | destroy i n =>
    simp only [Gate.pubGateOps, List.mem_singleton] at hop
    subst hop; trivial
  | subReg now r =>
    simp only [Gate.pubGateOps] at hop
    split at hop
    · cases hop
    · simp only [List.mem_singleton] at hop
      subst hop
      intro st hst
      exact keys_cstep G _ _ _ hst (fun p hp => by cases hp; exact hr now r ha)
  | subUnreg now r =>
    simp only [Gate.pubGateOps] at hop
    split at hop
    · cases hop
    · simp only [List.mem_singleton] at hop
      subst hop
      intro st hst
      exact keys_cstep G _ _ _ hst (fun p hp => by cases hp)
  | cycle now =>
    simp only [Gate.pubGateOps, List.mem_singleton] at hop
    subst hop
    intro n st hst
    exact keys_cstep G _ _ _ hst (fun p hp => by cases hp)

theorem subGate_inv (G : String → Conn.Peer → Prop) (H : String) (ops : List SOp) (g : List (Obj CS))
    (hg : ∀ o ∈ g, Keys G o.name o.st)
    (hc : ∀ i n t, SOp.create i n t ∈ ops → ∃ b, n = str b)
    (hr : ∀ now r, SOp.pubReg now r ∈ ops → Gate.confirmed H r = true → G r.topic r.peer) :
    ∀ o ∈ Gate.subGateRun H g ops, Keys G o.name o.st := by
  apply grun_inv _ _ _ hg
  intro op hop
  obtain ⟨a, ha, hop⟩ := List.mem_flatMap.1 hop
  cases a with
  | create i n t =>
    simp only [Gate.subGateOps, List.mem_singleton] at hop
    subst hop
    obtain ⟨b, rfl⟩ := hc i n t ha
    exact keys_init G b t
  | destroy i n =>
    simp only [Gate.subGateOps, List.mem_singleton] at hop
    subst hop; trivial
  | pubReg now r =>
    simp only [Gate.subGateOps] at hop
    split at hop
    · cases hop
    · split at hop
      · rename_i hcf
        simp only [List.mem_singleton] at hop
        subst hop
        intro st hst
        exact keys_cstep G _ _ _ hst (fun p hp => by cases hp; exact hr now r ha hcf)
      · cases hop
  | pubUnreg now r =>
    simp only [Gate.subGateOps] at hop
    split at hop
    · cases hop
    · simp only [List.mem_singleton] at hop
      subst hop
      intro st hst
      exact keys_cstep G _ _ _ hst (fun p hp => by cases hp)
  | cycle now =>
    simp only [Gate.subGateOps, List.mem_singleton] at hop
    subst hop
    intro n st hst
    exact keys_cstep G _ _ _ hst (fun p hp => by cases hp)

/-! ## Where samples come from -/

/-- Every sample under way is the registration or unregistration of a publisher or subscriber the process
had, or concerns no topic. -/
inductive Src (P : Nat → Proc) (h : List In) : RegSample → Prop
  | sub (h1 h2 : List In) (B : Nat) (info : RTopic) (o : Obj CS) (e : h = h1 ++ h2)
      (ho : o ∈ ((run P {} h1).st B).sg) : Src P h (subSample (P B) info o)
  | pub (h1 h2 : List In) (A : Nat) (info : RTopic) (o : Obj CS) (e : h = h1 ++ h2)
      (ho : o ∈ ((run P {} h1).st A).pg) : Src P h (pubSample (P A) info o)
  | subGone (B j : Nat) (topic : Bytes) (info : RTopic) (ho : HadSub P h B j (str topic))
      (hd : In.delSub B j topic info ∈ h) : Src P h (subGone (P B) info j topic)
  | pubGone (A i : Nat) (topic : Bytes) (info : RTopic)
      (hd : In.delPub A i topic info ∈ h) : Src P h (pubGone (P A) info i topic)
  | other (m : RegSample) (hm : isTopic m = false) : Src P h m

theorem HadSub.more {P : Nat → Proc} {h : List In} {B j : Nat} {n : String} (hs : HadSub P h B j n)
    (x : List In) : HadSub P (h ++ x) B j n := by
  obtain ⟨h1, h2, rfl, ho⟩ := hs
  exact ⟨h1, h2 ++ x, by simp, ho⟩

theorem HadPub.more {P : Nat → Proc} {h : List In} {A i : Nat} {n : String} {f : Conn.Peer → Prop}
    (hs : HadPub P h A i n f) (x : List In) : HadPub P (h ++ x) A i n f := by
  obtain ⟨h1, h2, rfl, ho⟩ := hs
  exact ⟨h1, h2 ++ x, by simp, ho⟩

theorem Src.more {P : Nat → Proc} {h : List In} {m : RegSample} (hs : Src P h m) (x : List In) :
    Src P (h ++ x) m := by
  cases hs with
  | sub h1 h2 B info o e ho => exact .sub h1 (h2 ++ x) B info o (by simp [e]) ho
  | pub h1 h2 A info o e ho => exact .pub h1 (h2 ++ x) A info o (by simp [e]) ho
  | subGone B j t info ho hd => exact .subGone B j t info (ho.more x) (by simp [hd])
  | pubGone A i t info hd => exact .pubGone A i t info (by simp [hd])
  | other m hm => exact .other m hm

/-- What a publisher of process `q` may know. -/
def PKnown (P : Nat → Proc) (h : List In) (q : Nat) (n : String) (p : Conn.Peer) : Prop :=
  ∃ B j, Accepts (P q) (P B) ∧ p = speer (P B) j ∧ HadSub P h B j n

/-- What a subscriber of process `q` may know. -/
def SKnown (P : Nat → Proc) (h : List In) (q : Nat) (n : String) (p : Conn.Peer) : Prop :=
  ∃ A i, Accepts (P q) (P A) ∧ p = ppeer (P A) i ∧
    HadPub P h A i n (fun p' => p'.host = str (P A).host ↔ (P A).host = (P q).host)

/-- The invariant. -/
structure WInv (P : Nat → Proc) (h : List In) (w : World) : Prop where
  net : ∀ m ∈ w.net, Src P h m
  out : ∀ q l, (w.st q).out = some l → ∀ m ∈ l, Src P h m
  pending : ∀ q, ∀ m ∈ (w.st q).pending, Src P h m
  pg : ∀ q, ∀ o ∈ (w.st q).pg, Keys (PKnown P h q) o.name o.st
  sg : ∀ q, ∀ o ∈ (w.st q).sg, Keys (SKnown P h q) o.name o.st

theorem Keys.imp {G G' : String → Conn.Peer → Prop} {n : String} {st : CS} (h : Keys G n st)
    (hi : ∀ n p, G n p → G' n p) : Keys G' n st :=
  ⟨h.1, fun s evs he p hp => hi n p (h.2 s evs he p hp)⟩

theorem PKnown.more {P : Nat → Proc} {h : List In} {q : Nat} {n : String} {p : Conn.Peer}
    (hk : PKnown P h q n p) (x : List In) : PKnown P (h ++ x) q n p := by
  obtain ⟨B, j, a, b, c⟩ := hk
  exact ⟨B, j, a, b, c.more x⟩

theorem SKnown.more {P : Nat → Proc} {h : List In} {q : Nat} {n : String} {p : Conn.Peer}
    (hk : SKnown P h q n p) (x : List In) : SKnown P (h ++ x) q n p := by
  obtain ⟨A, i, a, b, c⟩ := hk
  exact ⟨A, i, a, b, c.more x⟩

theorem run_snoc (P : Nat → Proc) (w : World) (h : List In) (x : In) :
    run P w (h ++ [x]) = step P (run P w h) x := by
  simp [run]

theorem run_append (P : Nat → Proc) (w : World) (h1 h2 : List In) :
    run P w (h1 ++ h2) = run P (run P w h1) h2 := by
  simp [run]

/-- A count above zero that went through 32 bits was above zero. -/
theorem count_pos (c : Int) (h : (BitVec.ofInt 32 c).toInt > 0) : c ≠ 0 := by
  rintro rfl
  revert h; decide

theorem counts_loc (A : Proc) (o : Obj CS) (h : (counts A o).1 ≠ 0) :
    ∃ s evs, o.st = some (s, evs) ∧ ∃ p ∈ s.map.map.keys, p.host = str A.host := by
  unfold counts at h
  cases hs : o.st with
  | none => rw [hs] at h; exact absurd rfl h
  | some r =>
    rw [hs] at h
    refine ⟨r.1, r.2, rfl, ?_⟩
    simp only [Gate.connCounts] at h
    cases hf : r.1.map.map.filter (fun e => e.1.host == str A.host) with
    | nil => rw [hf] at h; exact absurd rfl h
    | cons e es =>
      have he : e ∈ r.1.map.map.filter (fun e => e.1.host == str A.host) := by rw [hf]; simp
      rw [List.mem_filter] at he
      exact ⟨e.1, List.mem_map.2 ⟨e, he.1, rfl⟩, by simpa using he.2⟩

theorem counts_ext (A : Proc) (o : Obj CS) (h : (counts A o).2 ≠ 0) :
    ∃ s evs, o.st = some (s, evs) ∧ ∃ p ∈ s.map.map.keys, p.host ≠ str A.host := by
  unfold counts at h
  cases hs : o.st with
  | none => rw [hs] at h; exact absurd rfl h
  | some r =>
    rw [hs] at h
    refine ⟨r.1, r.2, rfl, ?_⟩
    simp only [Gate.connCounts] at h
    apply Classical.byContradiction
    intro hn
    apply h
    have : r.1.map.map.filter (fun e => e.1.host == str A.host) = r.1.map.map := by
      rw [List.filter_eq_self]
      intro e he
      apply Classical.byContradiction
      intro hx
      exact hn ⟨e.1, List.mem_map.2 ⟨e, he, rfl⟩, by simpa using hx⟩
    rw [this]
    omega

/-- A sample that arrives and is a subscriber's registration for the gate came from a subscriber. -/
theorem arrived_sub (P : Nat → Proc) (h : List In) (q : Nat) (now now' : Int) (m : RegSample) (r : Gate.Reg)
    (hn : ∀ h1 h2, h = h1 ++ h2 → ∀ B, ∀ o ∈ ((run P {} h1).st B).sg, ∃ b, o.name = str b)
    (hs : Src P h m) (hr : POp.subReg now' r ∈ popsOf (P q) now (Wire.transmitted m)) :
    PKnown P h q r.topic r.peer := by
  cases hs with
  | sub h1 h2 B info o e ho =>
    obtain ⟨a, b⟩ := ops_topic (P q) (P B) now (subSample (P B) info o) (Or.inr (Or.inr (Or.inl rfl))) rfl rfl
      rfl
    by_cases ha : Accepts (P q) (P B)
    · rw [(a ha).1, if_pos (by rfl)] at hr
      simp only [List.mem_singleton, POp.subReg.injEq] at hr
      obtain ⟨b, hb⟩ := hn h1 h2 e B o ho
      refine ⟨B, o.id, ha, ?_, h1, h2, e, o, ho, rfl, ?_⟩
      · rw [hr.2]; rfl
      · rw [hr.2]
        show o.name = str (unstr o.name)
        rw [hb, unstr_str]
    · rw [(b ha).1] at hr; cases hr
  | pub h1 h2 A info o e ho =>
    obtain ⟨a, b⟩ := ops_topic (P q) (P A) now (pubSample (P A) info o) (Or.inl rfl) rfl rfl rfl
    by_cases ha : Accepts (P q) (P A)
    · rw [(a ha).1, if_neg (by simp [pubSample]), if_neg (by simp [pubSample])] at hr; cases hr
    · rw [(b ha).1] at hr; cases hr
  | subGone B j t info ho hd =>
    obtain ⟨a, b⟩ := ops_topic (P q) (P B) now (subGone (P B) info j t) (Or.inr (Or.inr (Or.inr rfl))) rfl rfl
      rfl
    by_cases ha : Accepts (P q) (P B)
    · rw [(a ha).1, if_neg (by simp [subGone]), if_pos (by rfl)] at hr
      simp at hr
    · rw [(b ha).1] at hr; cases hr
  | pubGone A i t info hd =>
    obtain ⟨a, b⟩ := ops_topic (P q) (P A) now (pubGone (P A) info i t) (Or.inr (Or.inl rfl)) rfl rfl rfl
    by_cases ha : Accepts (P q) (P A)
    · rw [(a ha).1, if_neg (by simp [pubGone]), if_neg (by simp [pubGone])] at hr; cases hr
    · rw [(b ha).1] at hr; cases hr
  | other m hm =>
    rw [(ops_other (P q) now m hm).1] at hr; cases hr

/-- The same for publishers, whose registration must be confirmed. -/
theorem arrived_pub (P : Nat → Proc) (h : List In) (q : Nat) (now now' : Int) (m : RegSample) (r : Gate.Reg)
    (hn : ∀ h1 h2, h = h1 ++ h2 → ∀ A, ∀ o ∈ ((run P {} h1).st A).pg, ∃ b, o.name = str b)
    (hs : Src P h m) (hr : SOp.pubReg now' r ∈ sopsOf (P q) now (Wire.transmitted m))
    (hc : Gate.confirmed (str (P q).host) r = true) :
    SKnown P h q r.topic r.peer := by
  cases hs with
  | sub h1 h2 B info o e ho =>
    obtain ⟨a, b⟩ := ops_topic (P q) (P B) now (subSample (P B) info o) (Or.inr (Or.inr (Or.inl rfl))) rfl rfl
      rfl
    by_cases ha : Accepts (P q) (P B)
    · rw [(a ha).2, if_neg (by simp [subSample]), if_neg (by simp [subSample])] at hr; cases hr
    · rw [(b ha).2] at hr; cases hr
  | pub h1 h2 A info o e ho =>
    obtain ⟨a, b⟩ := ops_topic (P q) (P A) now (pubSample (P A) info o) (Or.inl rfl) rfl rfl rfl
    by_cases ha : Accepts (P q) (P A)
    · rw [(a ha).2, if_pos (by rfl)] at hr
      simp only [List.mem_singleton, SOp.pubReg.injEq] at hr
      obtain ⟨b, hb⟩ := hn h1 h2 e A o ho
      rw [hr.2] at hc ⊢
      refine ⟨A, o.id, ha, rfl, h1, h2, e, o, ho, rfl, ?_, ?_⟩
      · show o.name = str (unstr o.name)
        rw [hb, unstr_str]
      · simp only [Gate.confirmed, Bool.or_eq_true, Bool.and_eq_true, beq_iff_eq, bne_iff_ne,
          decide_eq_true_eq] at hc
        rcases hc with ⟨c1, c2⟩ | ⟨c1, c2⟩
        · obtain ⟨s, evs, e1, p, e2, e3⟩ := counts_loc (P A) o (count_pos _ c2)
          exact ⟨s, evs, e1, p, e2, iff_of_true e3 (str_inj c1)⟩
        · obtain ⟨s, evs, e1, p, e2, e3⟩ := counts_ext (P A) o (count_pos _ c2)
          exact ⟨s, evs, e1, p, e2, iff_of_false e3 (fun hx => c1 (congrArg str hx))⟩
    · rw [(b ha).2] at hr; cases hr
  | subGone B j t info ho hd =>
    obtain ⟨a, b⟩ := ops_topic (P q) (P B) now (subGone (P B) info j t) (Or.inr (Or.inr (Or.inr rfl))) rfl rfl
      rfl
    by_cases ha : Accepts (P q) (P B)
    · rw [(a ha).2, if_neg (by simp [subGone]), if_neg (by simp [subGone])] at hr; cases hr
    · rw [(b ha).2] at hr; cases hr
  | pubGone A i t info hd =>
    obtain ⟨a, b⟩ := ops_topic (P q) (P A) now (pubGone (P A) info i t) (Or.inr (Or.inl rfl)) rfl rfl rfl
    by_cases ha : Accepts (P q) (P A)
    · rw [(a ha).2, if_neg (by simp [pubGone]), if_pos (by rfl)] at hr; simp at hr
    · rw [(b ha).2] at hr; cases hr
  | other m hm =>
    rw [(ops_other (P q) now m hm).2] at hr; cases hr

theorem pubOps_create {P : Nat → Proc} {w : World} {q : Nat} {x : In} {i : Nat} {n : String} {t : Int}
    (h : POp.create i n t ∈ pubOps P w q x) : ∃ b, n = str b := by
  unfold pubOps at h
  cases x with
  | newPub p i' topic =>
    simp only at h
    split at h
    · simp only [List.mem_singleton, POp.create.injEq] at h; exact ⟨topic, h.2.1⟩
    · cases h
  | delPub p i' topic info => simp only at h; split at h <;> simp at h
  | collect p now a b => simp only at h; split at h <;> simp at h
  | arrive p k now =>
    simp only at h
    split at h
    · split at h
      · unfold popsOf at h; split at h <;> simp at h
      · cases h
    · cases h
  | newSub | delSub | again | other | send | flush => cases h

theorem subOps_create {P : Nat → Proc} {w : World} {q : Nat} {x : In} {i : Nat} {n : String} {t : Int}
    (h : SOp.create i n t ∈ subOps P w q x) : ∃ b, n = str b := by
  unfold subOps at h
  cases x with
  | newSub p i' topic =>
    simp only at h
    split at h
    · simp only [List.mem_singleton, SOp.create.injEq] at h; exact ⟨topic, h.2.1⟩
    · cases h
  | delSub p i' topic info => simp only at h; split at h <;> simp at h
  | collect p now a b => simp only at h; split at h <;> simp at h
  | arrive p k now =>
    simp only at h
    split at h
    · split at h
      · unfold sopsOf at h; split at h <;> simp at h
      · cases h
    · cases h
  | newPub | delPub | again | other | send | flush => cases h

theorem pubOps_reg {P : Nat → Proc} {w : World} {q : Nat} {x : In} {now : Int} {r : Gate.Reg}
    (h : POp.subReg now r ∈ pubOps P w q x) :
    ∃ k now' m, delivered w k = some m ∧ POp.subReg now r ∈ popsOf (P q) now' m := by
  unfold pubOps at h
  cases x with
  | newPub p i' topic => simp only at h; split at h <;> simp at h
  | delPub p i' topic info => simp only at h; split at h <;> simp at h
  | collect p now a b => simp only at h; split at h <;> simp at h
  | arrive p k now' =>
    simp only at h
    split at h
    · split at h
      · rename_i m hd; exact ⟨k, now', m, hd, h⟩
      · cases h
    · cases h
  | newSub | delSub | again | other | send | flush => cases h

theorem subOps_reg {P : Nat → Proc} {w : World} {q : Nat} {x : In} {now : Int} {r : Gate.Reg}
    (h : SOp.pubReg now r ∈ subOps P w q x) :
    ∃ k now' m, delivered w k = some m ∧ SOp.pubReg now r ∈ sopsOf (P q) now' m := by
  unfold subOps at h
  cases x with
  | newSub p i' topic => simp only at h; split at h <;> simp at h
  | delSub p i' topic info => simp only at h; split at h <;> simp at h
  | collect p now a b => simp only at h; split at h <;> simp at h
  | arrive p k now' =>
    simp only at h
    split at h
    · split at h
      · rename_i m hd; exact ⟨k, now', m, hd, h⟩
      · cases h
    · cases h
  | newPub | delPub | again | other | send | flush => cases h

/-- The names in the gates are names. -/
theorem names_ok (P : Nat → Proc) (h : List In) (q : Nat) :
    (∀ o ∈ ((run P {} h).st q).pg, ∃ b, o.name = str b) ∧
    (∀ o ∈ ((run P {} h).st q).sg, ∃ b, o.name = str b) := by
  have key : ∀ (h : List In) (w : World),
      (∀ o ∈ (w.st q).pg, Keys (fun _ _ => True) o.name o.st) →
      (∀ o ∈ (w.st q).sg, Keys (fun _ _ => True) o.name o.st) →
      (∀ o ∈ ((run P w h).st q).pg, Keys (fun _ _ => True) o.name o.st) ∧
      (∀ o ∈ ((run P w h).st q).sg, Keys (fun _ _ => True) o.name o.st) := by
    intro h
    induction h with
    | nil => intro w a b; exact ⟨a, b⟩
    | cons x h ih =>
      intro w a b
      exact ih (step P w x)
        (pubGate_inv _ _ _ a (fun i n t hx => pubOps_create hx) (fun _ _ _ => trivial))
        (subGate_inv _ _ _ _ b (fun i n t hx => subOps_create hx) (fun _ _ _ _ => trivial))
  obtain ⟨a, b⟩ := key h {} (by intro o ho; cases ho) (by intro o ho; cases ho)
  exact ⟨fun o ho => (a o ho).1, fun o ho => (b o ho).1⟩

theorem delivered_src (P : Nat → Proc) (h : List In) (w : World) (k : Nat) (m : RegSample)
    (hn : ∀ m ∈ w.net, Src P h m) (hf : ∀ m ∈ w.net, Fits m) (hd : delivered w k = some m) :
    ∃ m0, Src P h m0 ∧ m = Wire.transmitted m0 := by
  unfold delivered at hd
  rw [Option.bind_eq_some_iff] at hd
  obtain ⟨m0, h0, hd⟩ := hd
  have hm0 := List.mem_of_getElem? h0
  rw [receive_datagram m0 (hf m0 hm0)] at hd
  cases hd
  exact ⟨m0, hn m0 hm0, rfl⟩

theorem WInv.step {P : Nat → Proc} {h : List In} (x : In) (hi : WInv P h (run P {} h))
    (hf : ∀ m ∈ (run P {} h).net, Fits m) : WInv P (h ++ [x]) (run P {} (h ++ [x])) := by
  have hsub : ∀ q, ∀ o ∈ ((run P {} (h ++ [x])).st q).sg, ∀ info,
      Src P (h ++ [x]) (subSample (P q) info o) :=
    fun q o ho info => .sub (h ++ [x]) [] q info o (by simp) ho
  have hpub : ∀ q, ∀ o ∈ ((run P {} (h ++ [x])).st q).pg, ∀ info,
      Src P (h ++ [x]) (pubSample (P q) info o) :=
    fun q o ho info => .pub (h ++ [x]) [] q info o (by simp) ho
  rw [run_snoc] at hsub hpub ⊢
  constructor
  · intro m hm
    simp only [Disc.step, net'] at hm
    cases x with
    | send p =>
      simp only at hm
      split at hm
      · rename_i l hl
        rcases List.mem_append.1 hm with hm | hm
        · exact (hi.net m hm).more _
        · exact (hi.out p l hl m hm).more _
      · exact (hi.net m hm).more _
    | flush p =>
      simp only at hm
      split at hm
      · rename_i l hl
        simp only [List.mem_append] at hm
        rcases hm with hm | hm | hm
        · exact (hi.net m hm).more _
        · exact (hi.out p l hl m hm).more _
        · exact (hi.pending p m hm).more _
      · exact (hi.net m hm).more _
    | _ => exact (hi.net m hm).more _
  · intro q l hl m hm
    simp only [Disc.step, out'] at hl
    cases x with
    | collect p now a b =>
      simp only at hl
      split at hl
      · cases hl
        simp only [List.mem_append, List.mem_map] at hm
        rcases hm with ⟨o, ho, rfl⟩ | ⟨o, ho, rfl⟩
        · exact hsub q o ho _
        · exact hpub q o ho _
      · exact (hi.out q l hl m hm).more _
    | send p =>
      simp only at hl
      split at hl
      · rw [Option.map_eq_some_iff] at hl
        obtain ⟨l', _, rfl⟩ := hl
        cases hm
      · exact (hi.out q l hl m hm).more _
    | flush p =>
      simp only at hl
      split at hl
      · cases hl
      · exact (hi.out q l hl m hm).more _
    | _ => exact (hi.out q l hl m hm).more _
  · intro q m hm
    simp only [Disc.step, pending'] at hm
    cases x with
    | delPub p i topic info =>
      simp only at hm
      split at hm
      · rename_i hc
        rcases List.mem_append.1 hm with hm | hm
        · exact (hi.pending q m hm).more _
        · rw [List.mem_singleton] at hm
          subst hm
          rw [← hc.1]
          exact .pubGone p i topic info (by simp)
      · exact (hi.pending q m hm).more _
    | delSub p j topic info =>
      simp only at hm
      split at hm
      · rename_i hc
        rcases List.mem_append.1 hm with hm | hm
        · exact (hi.pending q m hm).more _
        · rw [List.mem_singleton] at hm
          subst hm
          obtain ⟨hc1, hc2⟩ := hc
          subst hc1
          simp only [present, List.any_eq_true, decide_eq_true_eq] at hc2
          obtain ⟨o, ho, h1, h2⟩ := hc2
          exact .subGone p j topic info ⟨h, [.delSub p j topic info], rfl, o, ho, h1, h2⟩ (by simp)
      · exact (hi.pending q m hm).more _
    | again p i info =>
      simp only at hm
      split at hm
      · rcases List.mem_append.1 hm with hm | hm
        · exact (hi.pending q m hm).more _
        · obtain ⟨o, ho, rfl⟩ := List.mem_map.1 hm
          exact .pub h [.again p i info] q info o rfl (List.mem_filter.1 ho).1
      · exact (hi.pending q m hm).more _
    | other p m' =>
      simp only at hm
      split at hm
      · rename_i hc
        rcases List.mem_append.1 hm with hm | hm
        · exact (hi.pending q m hm).more _
        · rw [List.mem_singleton] at hm
          subst hm
          exact .other m hc.2
      · exact (hi.pending q m hm).more _
    | flush p =>
      simp only at hm
      split at hm
      · cases hm
      · exact (hi.pending q m hm).more _
    | _ => exact (hi.pending q m hm).more _
  · intro q
    apply pubGate_inv
    · intro o ho
      exact (hi.pg q o ho).imp (fun n p hk => hk.more _)
    · intro i n t hx; exact pubOps_create hx
    · intro now r hr
      obtain ⟨k, now', m, hd, hr⟩ := pubOps_reg hr
      obtain ⟨m0, hs, rfl⟩ := delivered_src P h _ k m hi.net hf hd
      exact (arrived_sub P h q now' now m0 r (fun h1 h2 _ B => (names_ok P h1 B).2) hs hr).more _
  · intro q
    apply subGate_inv
    · intro o ho
      exact (hi.sg q o ho).imp (fun n p hk => hk.more _)
    · intro i n t hx; exact subOps_create hx
    · intro now r hr hc
      obtain ⟨k, now', m, hd, hr⟩ := subOps_reg hr
      obtain ⟨m0, hs, rfl⟩ := delivered_src P h _ k m hi.net hf hd
      exact (arrived_pub P h q now' now m0 r (fun h1 h2 _ B => (names_ok P h1 B).1) hs hr hc).more _

theorem net_grows (P : Nat → Proc) (w : World) (h : List In) : ∃ l, (run P w h).net = w.net ++ l := by
  induction h generalizing w with
  | nil => exact ⟨[], by simp [run]⟩
  | cons x h ih =>
    obtain ⟨l, hl⟩ := ih (Disc.step P w x)
    have : ∃ l', (Disc.step P w x).net = w.net ++ l' := by
      simp only [Disc.step, net']
      cases x with
      | send p =>
        simp only
        split
        · exact ⟨_, rfl⟩
        · exact ⟨[], by simp⟩
      | flush p =>
        simp only
        split
        · exact ⟨_, rfl⟩
        · exact ⟨[], by simp⟩
      | _ => exact ⟨[], by simp⟩
    obtain ⟨l', hl'⟩ := this
    refine ⟨l' ++ l, ?_⟩
    show (run P (Disc.step P w x) h).net = _
    rw [hl, hl', List.append_assoc]

theorem winv (P : Nat → Proc) (h : List In) (hf : ∀ m ∈ (run P {} h).net, Fits m) :
    WInv P h (run P {} h) := by
  have key : ∀ (h2 h1 : List In), WInv P h1 (run P {} h1) → (∀ m ∈ (run P {} (h1 ++ h2)).net, Fits m) →
      WInv P (h1 ++ h2) (run P {} (h1 ++ h2)) := by
    intro h2
    induction h2 with
    | nil => intro h1 a _; rw [List.append_nil]; exact a
    | cons x h2 ih =>
      intro h1 a b
      have e : h1 ++ x :: h2 = (h1 ++ [x]) ++ h2 := by simp
      rw [e] at b ⊢
      refine ih (h1 ++ [x]) (WInv.step x a ?_) b
      intro m hm
      apply b
      rw [List.append_assoc, run_append]
      obtain ⟨l, hl⟩ := net_grows P (run P {} h1) ([x] ++ h2)
      rw [hl]
      simp [hm]
  refine key h [] ?_ hf
  constructor
  · intro m hm; cases hm
  · intro q l hl; cases hl
  · intro q m hm; cases hm
  · intro q o ho; cases ho
  · intro q o ho; cases ho

/-! ## Nobody knows more than there was -/

/-- **C106 (publishers know only subscribers).** In any history, every peer a publisher of topic `n` knows is
a subscriber that some process had for the same topic `n`, in a process this one listens to: host name,
process id and topic id are those of the subscriber. -/
theorem C106_publisher_knows_subscribers (P : Nat → Proc) (h : List In)
    (hf : ∀ m ∈ (run P {} h).net, Fits m) (q : Nat) (o : Obj CS) (ho : o ∈ ((run P {} h).st q).pg)
    (s : Conn.State) (evs : List Conn.Ev) (hs : o.st = some (s, evs)) (p : Conn.Peer)
    (hp : p ∈ s.map.map.keys) :
    ∃ B j, Accepts (P q) (P B) ∧ p = speer (P B) j ∧ HadSub P h B j o.name :=
  ((winv P h hf).pg q o ho).2 s evs hs p hp

/-- **C106 (subscribers know only publishers that know a subscriber).** In any history, every peer a
subscriber of topic `n` knows is a publisher that some process `A` had for topic `n`, in a process this one
listens to, and that publisher knew a subscriber of topic `n` of a process `B` that `A` listens to: one on
`A`'s host if `A` is on the host of this subscriber, one on another host if not.  Missing for the full claim:
that it is this subscriber the publisher knew (C57). -/
theorem C106_subscriber_knows_connected_publishers_partial (P : Nat → Proc) (h : List In)
    (hf : ∀ m ∈ (run P {} h).net, Fits m) (q : Nat) (o : Obj CS) (ho : o ∈ ((run P {} h).st q).sg)
    (s : Conn.State) (evs : List Conn.Ev) (hs : o.st = some (s, evs)) (p : Conn.Peer)
    (hp : p ∈ s.map.map.keys) :
    ∃ A i B j, Accepts (P q) (P A) ∧ p = ppeer (P A) i ∧ Accepts (P A) (P B) ∧
      HadPub P h A i o.name (fun p' => p' = speer (P B) j) ∧ HadSub P h B j o.name ∧
      ((P B).host = (P A).host ↔ (P A).host = (P q).host) := by
  obtain ⟨A, i, ha, hpp, h1, h2, he, o', ho', hid, hnm, s', evs', hs', p', hp', hh⟩ :=
    ((winv P h hf).sg q o ho).2 s evs hs p hp
  have hf1 : ∀ m ∈ (run P {} h1).net, Fits m := by
    intro m hm
    apply hf
    rw [he, run_append]
    obtain ⟨l, hl⟩ := net_grows P (run P {} h1) h2
    rw [hl]
    simp [hm]
  obtain ⟨B, j, hb, hpj, hsub⟩ := C106_publisher_knows_subscribers P h1 hf1 A o' ho' s' evs' hs' p' hp'
  subst hpj
  refine ⟨A, i, B, j, ha, hpp, hb, ⟨h1, h2, he, o', ho', hid, hnm, s', evs', hs', _, hp', rfl⟩, ?_, ?_⟩
  · rw [he, ← hnm]; exact hsub.more h2
  · constructor
    · intro e; exact hh.1 (congrArg str e)
    · intro e; exact str_inj (hh.2 e)

/-- The layer numbers of a registration mean what the protocol says; every other number is ignored. -/
theorem C106_layer_numbers (t : BitVec 32) :
    (ltype t = .udp ↔ t.toNat = 1) ∧ (ltype t = .shm ↔ t.toNat = 4) ∧ (ltype t = .tcp ↔ t.toNat = 5) := by
  have e : ∀ n : Nat, n < 2 ^ 32 → (t = BitVec.ofNat 32 n ↔ t.toNat = n) := by
    intro n hn
    rw [← BitVec.toNat_inj, BitVec.toNat_ofNat, Nat.mod_eq_of_lt hn]
  have e1 : t = 1 ↔ t.toNat = 1 := e 1 (by decide)
  have e4 : t = 4 ↔ t.toNat = 4 := e 4 (by decide)
  have e5 : t = 5 ↔ t.toNat = 5 := e 5 (by decide)
  unfold ltype
  by_cases h1 : t = 1
  · have := e1.1 h1
    rw [if_pos h1]; simp; omega
  · rw [if_neg h1]
    by_cases h4 : t = 4
    · have := e4.1 h4
      rw [if_pos h4]; simp; omega
    · rw [if_neg h4]
      by_cases h5 : t = 5
      · have := e5.1 h5
        rw [if_pos h5]; simp; omega
      · rw [if_neg h5]; simp
        rw [e1] at h1; rw [e4] at h4; rw [e5] at h5
        exact ⟨h1, h4, h5⟩

end Ecal.E2E.Disc
