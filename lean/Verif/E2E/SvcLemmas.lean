import Verif.E2E.Svc
import Verif.E2E.DiscProps
import Verif.Service.TargetsProps

/-! # Clients and servers on a network: specification and lemmas for C109 -/

namespace Ecal.E2E.Svc

open Ecal.Wire (RegSample RService IsMap)
open Ecal.Service
open Ecal.E2E.Disc (Fits receive_datagram str_ne_empty transmitted_cmd toInt_inj)

/-! ## Specification -/

/-- Process `Q` gets the registrations of servers of process `B`: the host group of `Q` is the host of `B`, and `B` is
another process or loopback is on; or it is not, and network mode is on. -/
def Hears (Q B : Proc) : Prop :=
  if Q.group ≠ [] ∧ B.host = Q.group then B.pid ≠ Q.pid ∨ Q.loopback = true else Q.network = true

/-- All enabled protocols of the server have a port. -/
def Complete (B : Proc) (j : Nat) : Prop := (B.v0 = true → B.port0 j ≠ 0) ∧ (B.v1 = true → B.port1 j ≠ 0)

/-- At some time process `B` had the server `j` of the service `name`. -/
def HadServer (P : Nat → Proc) (h : List In) (B j : Nat) (name : Bytes) : Prop :=
  ∃ h1 h2, h = h1 ++ h2 ∧ (j, name) ∈ ((run P (init P) h1).st B).servers

/-- The session connects to the server `j` of `B` with a protocol this server speaks on that port. -/
def ConnectsTo (B : Proc) (j : Nat) (x : Targets.Session) : Prop :=
  x.hosts = [str B.host, str B.host ++ ".local"] ∧
  if B.v1 = true then x.protocol = 1 ∧ x.port = (B.port1 j).toNat
  else x.protocol = 0 ∧ x.port = if B.v0 = true then (B.port0 j).toNat else 0

/-- The name under which clients keep the server. -/
def serverKey (B : Proc) (j : Nat) (name : Bytes) : String :=
  str name ++ ":" ++ str (B.sid j) ++ "@" ++ toString B.pid.toInt ++ "@" ++ str B.host

/-- The `k`-th datagram is a registration of the server `j` of the service `name` of process `B`. -/
def ServerDatagram (P : Nat → Proc) (w : World) (k B j : Nat) (name : Bytes) : Prop :=
  ∃ info, w.net[k]? = some (regSample (P B) info j name)

/-- The clock of process `q` at a step. -/
def clock (q : Nat) : In → Option Int
  | .arrive p _ now => if p = q then some now else none
  | _ => none

/-- The clock of process `q` does not go back. -/
def Mono (q : Nat) (h : List In) : Prop := (h.filterMap (clock q)).Pairwise (· ≤ ·)

/-- Ids of servers contain no colon and host names no at sign. -/
def PlainNames (P : Nat → Proc) : Prop :=
  (∀ B j, ':' ∉ (str ((P B).sid j)).toList) ∧ ∀ B, '@' ∉ (str (P B).host).toList

/-- Servers differ in their id, their process id or their host. -/
def DistinctIds (P : Nat → Proc) : Prop :=
  ∀ B j B' j', (P B).sid j = (P B').sid j' → (P B).pid = (P B').pid → (P B).host = (P B').host → B = B' ∧ j = j'

/-! ## Samples -/

theorem transmitted_service (m : RegSample) (h : m.cmd = 5) :
    (Wire.transmitted m).cmd = 5 ∧ (Wire.transmitted m).hostName = m.hostName ∧
    (Wire.transmitted m).processId = m.processId ∧ (Wire.transmitted m).entityId = m.entityId ∧
    (Wire.transmitted m).service = m.service := by
  unfold Wire.transmitted
  rw [if_neg (by rw [h]; decide), if_pos (Or.inl h)]
  exact ⟨h, rfl, rfl, rfl, rfl⟩

theorem regSample_cmd (B : Proc) (info : RService) (j : Nat) (name : Bytes) :
    (regSample B info j name).cmd = 5 := by
  unfold regSample
  split
  · rfl
  · split <;> rfl

theorem regSample_complete {B : Proc} {j : Nat} (hc : Complete B j) (info : RService) (name : Bytes) :
    regSample B info j name =
      { cmd := 5, entityId := B.sid j, processId := B.pid, hostName := B.host,
        service := { info with version := 1, sname := name,
                               portV0 := (tcp0 B j).setWidth 32, portV1 := (tcp1 B j).setWidth 32 } } := by
  unfold regSample
  rw [if_neg, if_neg]
  · rintro ⟨h1, h2⟩
    rw [tcp1, if_pos h1] at h2
    exact hc.2 h1 h2
  · rintro ⟨h1, h2⟩
    rw [tcp0, if_pos h1] at h2
    exact hc.1 h1 h2

theorem regSample_incomplete {B : Proc} {j : Nat} (hc : ¬ Complete B j) (info : RService) (name : Bytes) :
    regSample B info j name = { cmd := 5 } := by
  unfold regSample
  by_cases h0 : B.v0 = true ∧ tcp0 B j = 0
  · rw [if_pos h0]
  · rw [if_neg h0]
    by_cases h1 : B.v1 = true ∧ tcp1 B j = 0
    · rw [if_pos h1]
    · exfalso
      apply hc
      refine ⟨fun hv hp => h0 ⟨hv, ?_⟩, fun hv hp => h1 ⟨hv, ?_⟩⟩
      · rw [tcp0, if_pos hv, hp]
      · rw [tcp1, if_pos hv, hp]

theorem width16 (x : BitVec 16) : (x.setWidth 32).toNat % 2 ^ 16 = x.toNat := by
  have := x.isLt
  simp only [BitVec.toNat_setWidth]
  omega

/-- The registration of a server as the client gate keeps it. -/
def entry (B : Proc) (j : Nat) (name : Bytes) : Targets.Reg :=
  { sname := str name, sid := str (B.sid j), pid := B.pid.toInt, hname := str B.host, version := 1,
    portV0 := (tcp0 B j).toNat, portV1 := (tcp1 B j).toNat }

/-- What the client gate reads of the registration of a complete server. -/
theorem regOf_regSample {B : Proc} {j : Nat} (hc : Complete B j) (info : RService) (name : Bytes) :
    regOf (Wire.transmitted (regSample B info j name)) = entry B j name := by
  obtain ⟨_, e2, e3, e4, e5⟩ := transmitted_service _ (regSample_cmd B info j name)
  unfold regOf
  rw [e2, e3, e4, e5, regSample_complete hc]
  simp only [width16]
  rfl

theorem connectsTo {B : Proc} {j : Nat} (hc : Complete B j) (r : Targets.Reg) (h1 : r.hname = str B.host)
    (h2 : r.version = 1) (h3 : r.portV0 = (tcp0 B j).toNat) (h4 : r.portV1 = (tcp1 B j).toNat) :
    ConnectsTo B j (Targets.connectTo r) := by
  unfold ConnectsTo Targets.connectTo
  simp only [h1, h2, h3, h4, tcp0, tcp1]
  by_cases hv : B.v1 = true
  · have := hc.2 hv
    have hn : (B.port1 j).toNat ≠ 0 := fun h => this (BitVec.eq_of_toNat_eq (by simpa using h))
    simp [hv, hn]
  · simp only [hv]
    by_cases hv0 : B.v0 = true <;> simp [hv0]

/-- The filter lets the registration of a server pass exactly if the process hears its sender. -/
theorem accept_iff (Q B : Proc) (m : RegSample) (hc : m.cmd = 5) (h1 : m.hostName = B.host)
    (h2 : m.processId = B.pid) :
    Registration.accept (applier Q) (Disc.smpOf (Wire.transmitted m)) = true ↔ Hears Q B := by
  obtain ⟨e1, e2, e3, _, _⟩ := transmitted_service m hc
  have hg : Registration.sampleHg (Disc.smpOf (Wire.transmitted m)) = "" := by
    unfold Registration.sampleHg Disc.smpOf
    simp only [e1]
    rfl
  have hm : Registration.isHostGroupMember (applier Q) (Disc.smpOf (Wire.transmitted m)) = true ↔
      (Q.group ≠ [] ∧ B.host = Q.group) := by
    unfold Registration.isHostGroupMember
    rw [hg]
    simp only [Disc.smpOf, e2, h1, applier, if_true]
    by_cases hq : B.host = Q.group
    · rw [hq]
      by_cases hn : Q.group = []
      · rw [if_pos (Or.inl (str_ne_empty.2 hn))]
        simp [hn]
      · have : str Q.group ≠ "" := fun h => hn (str_ne_empty.1 h)
        simp [hn, this]
    · have : str B.host ≠ str Q.group := fun h => hq (str_inj h)
      simp [hq, this]
  have hp : Registration.isSameProcess (applier Q) (Disc.smpOf (Wire.transmitted m)) = true ↔ B.pid = Q.pid := by
    simp [Registration.isSameProcess, Disc.smpOf, applier, e3, h2, toInt_inj]
  unfold Registration.accept Hears
  by_cases hmm : Registration.isHostGroupMember (applier Q) (Disc.smpOf (Wire.transmitted m)) = true
  · rw [if_pos hmm, if_pos (hm.1 hmm)]
    rw [Bool.or_eq_true, Bool.not_eq_true', ← Bool.not_eq_true, hp]
    rfl
  · rw [if_neg hmm, if_neg (fun h => hmm (hm.2 h))]
    rfl

theorem gateOps_other (Q : Proc) (now : Int) (m : RegSample) (h : m.cmd ≠ 5) :
    gateOps Q now (Wire.transmitted m) = [] := by
  have hcmd : (Disc.smpOf (Wire.transmitted m)).cmd = Disc.cmdOf m.cmd := by
    simp [Disc.smpOf, transmitted_cmd]
  have hx : Disc.cmdOf m.cmd ≠ .regService := by
    unfold Disc.cmdOf
    rw [if_neg h]
    repeat' split
    all_goals decide
  unfold gateOps
  rw [if_neg]
  unfold Registration.apply
  rw [hcmd]
  split
  · intro h'
    have h'' := Option.some.inj h'
    revert hx h''
    generalize Disc.cmdOf m.cmd = c
    cases c <;> simp [Registration.gateTarget]
  · simp

theorem gateOps_service (Q B : Proc) (now : Int) (m : RegSample) (h : m.cmd = 5) (h1 : m.hostName = B.host)
    (h2 : m.processId = B.pid) (hh : Hears Q B) :
    gateOps Q now (Wire.transmitted m) = [.register now (regOf (Wire.transmitted m))] := by
  have hcmd : (Disc.smpOf (Wire.transmitted m)).cmd = Disc.cmdOf m.cmd := by
    simp [Disc.smpOf, transmitted_cmd]
  unfold gateOps
  rw [if_pos]
  unfold Registration.apply
  rw [if_pos ((accept_iff Q B m h h1 h2).2 hh), hcmd, h]
  rfl

theorem gateOps_cases (Q : Proc) (now : Int) (m : RegSample) :
    gateOps Q now (Wire.transmitted m) = [] ∨
    (m.cmd = 5 ∧ Registration.accept (applier Q) (Disc.smpOf (Wire.transmitted m)) = true ∧
      gateOps Q now (Wire.transmitted m) = [.register now (regOf (Wire.transmitted m))]) := by
  by_cases h : m.cmd = 5
  · by_cases ha : Registration.accept (applier Q) (Disc.smpOf (Wire.transmitted m)) = true
    · right
      refine ⟨h, ha, ?_⟩
      have hcmd : (Disc.smpOf (Wire.transmitted m)).cmd = Disc.cmdOf m.cmd := by
        simp [Disc.smpOf, transmitted_cmd]
      unfold gateOps
      rw [if_pos]
      unfold Registration.apply
      rw [if_pos ha, hcmd, h]
      rfl
    · left
      unfold gateOps
      rw [if_neg]
      unfold Registration.apply
      rw [if_neg ha]
      simp
  · exact Or.inl (gateOps_other Q now m h)

/-! ## Runs -/

theorem run_snoc (P : Nat → Proc) (w : World) (h : List In) (x : In) :
    run P w (h ++ [x]) = step P (run P w h) x := by
  simp [run, List.foldl_append]

theorem run_append (P : Nat → Proc) (w : World) (h1 h2 : List In) :
    run P w (h1 ++ h2) = run P (run P w h1) h2 := by
  simp [run, List.foldl_append]

theorem net_grows (P : Nat → Proc) (w : World) (h : List In) : ∃ l, (run P w h).net = w.net ++ l := by
  induction h generalizing w with
  | nil => exact ⟨[], by simp [run]⟩
  | cons x h ih =>
    obtain ⟨l, hl⟩ := ih (step P w x)
    have : ∃ l', (step P w x).net = w.net ++ l' := by
      simp only [Svc.step]
      cases x with
      | send p =>
        simp only [net']
        split
        · exact ⟨_, rfl⟩
        · exact ⟨[], by simp⟩
      | flush p =>
        simp only [net']
        split
        · exact ⟨_, rfl⟩
        · exact ⟨[], by simp⟩
      | _ => exact ⟨[], by simp [net']⟩
    obtain ⟨l', hl'⟩ := this
    refine ⟨l' ++ l, ?_⟩
    show (run P (step P w x) h).net = _
    rw [hl, hl', List.append_assoc]

theorem fits_prefix {P : Nat → Proc} {w : World} {h1 h2 : List In}
    (hf : ∀ m ∈ (run P w (h1 ++ h2)).net, Fits m) : ∀ m ∈ (run P w h1).net, Fits m := by
  intro m hm
  apply hf
  rw [run_append]
  obtain ⟨l, hl⟩ := net_grows P (run P w h1) h2
  rw [hl]
  simp [hm]

/-- The operations on the client of process `q`. -/
def clientHist (P : Nat → Proc) (q : Nat) : World → List In → List Targets.Step
  | _, [] => []
  | w, x :: h => clientOps P w q x ++ clientHist P q (step P w x) h

theorem clientHist_append (P : Nat → Proc) (q : Nat) (w : World) (a b : List In) :
    clientHist P q w (a ++ b) = clientHist P q w a ++ clientHist P q (run P w a) b := by
  induction a generalizing w with
  | nil => rfl
  | cons x a ih => simp [clientHist, ih, run]

theorem trun_append (s : Targets.State) (a b : List Targets.Step) :
    Targets.run s (a ++ b) = (Targets.run s a).bind (fun s => Targets.run s b) := by
  induction a generalizing s with
  | nil => rfl
  | cons e a ih =>
    show (match Targets.step s e with | none => none | some s => Targets.run s (a ++ b)) =
      ((match Targets.step s e with | none => none | some s => Targets.run s a) : Option Targets.State).bind _
    cases Targets.step s e with
    | none => rfl
    | some s' => exact ih s'

/-- The client of the network is the client of the model of one client, fed with what arrives. -/
theorem run_client (P : Nat → Proc) (q : Nat) (h : List In) (w : World) :
    ((run P w h).st q).client = (w.st q).client.bind (fun s => Targets.run s (clientHist P q w h)) := by
  induction h generalizing w with
  | nil => cases hc : (w.st q).client <;> simp [run, clientHist, Targets.run, hc]
  | cons x h ih =>
    show ((run P (step P w x) h).st q).client = _
    rw [ih]
    simp only [Svc.step, clientHist]
    cases (w.st q).client with
    | none => rfl
    | some s =>
      simp only [Option.bind_some]
      rw [trun_append]

/-! ## Where samples come from -/

/-- A sample with the command of a server's registration was made for a server that existed. -/
def Src (P : Nat → Proc) (h : List In) (m : RegSample) : Prop :=
  m.cmd = 5 → ∃ B j name info, HadServer P h B j name ∧ m = regSample (P B) info j name

theorem HadServer.more {P : Nat → Proc} {h : List In} {B j : Nat} {name : Bytes} (hs : HadServer P h B j name)
    (x : List In) : HadServer P (h ++ x) B j name := by
  obtain ⟨h1, h2, rfl, hm⟩ := hs
  exact ⟨h1, h2 ++ x, by simp, hm⟩

theorem Src.more {P : Nat → Proc} {h : List In} {m : RegSample} (hs : Src P h m) (x : List In) :
    Src P (h ++ x) m := by
  intro hc
  obtain ⟨B, j, name, info, h1, h2⟩ := hs hc
  exact ⟨B, j, name, info, h1.more x, h2⟩

structure WInv (P : Nat → Proc) (h : List In) (w : World) : Prop where
  net     : ∀ m ∈ w.net, Src P h m
  out     : ∀ q l, (w.st q).out = some l → ∀ m ∈ l, Src P h m
  pending : ∀ q, ∀ m ∈ (w.st q).pending, Src P h m

theorem WInv.step {P : Nat → Proc} {h : List In} (x : In) (hi : WInv P h (run P (init P) h)) :
    WInv P (h ++ [x]) (run P (init P) (h ++ [x])) := by
  have hnet : ∀ m ∈ (run P (init P) h).net, Src P (h ++ [x]) m := fun m hm => (hi.net m hm).more _
  have hout : ∀ q l, ((run P (init P) h).st q).out = some l → ∀ m ∈ l, Src P (h ++ [x]) m :=
    fun q l hl m hm => (hi.out q l hl m hm).more _
  have hpen : ∀ q, ∀ m ∈ ((run P (init P) h).st q).pending, Src P (h ++ [x]) m :=
    fun q m hm => (hi.pending q m hm).more _
  rw [run_snoc]
  constructor
  · intro m hm
    simp only [Svc.step] at hm
    cases x with
    | send p =>
      simp only [net'] at hm
      split at hm
      · rename_i l hl
        rcases List.mem_append.1 hm with hm | hm
        · exact hnet m hm
        · exact hout p l hl m hm
      · exact hnet m hm
    | flush p =>
      simp only [net'] at hm
      split at hm
      · rename_i l hl
        rcases List.mem_append.1 hm with hm | hm
        · exact hnet m hm
        · rcases List.mem_append.1 hm with hm | hm
          · exact hout p l hl m hm
          · exact hpen p m hm
      · exact hnet m hm
    | _ => exact hnet m hm
  · intro q l hl m hm
    simp only [Svc.step] at hl
    cases x with
    | collect p info =>
      simp only [out'] at hl
      split at hl
      · cases hl
        obtain ⟨s, hs, rfl⟩ := List.mem_map.1 hm
        intro _
        exact ⟨q, s.1, s.2, info s.1, ⟨h, [.collect p info], rfl, hs⟩, rfl⟩
      · exact hout q l hl m hm
    | send p =>
      simp only [out'] at hl
      split at hl
      · obtain ⟨l', hl', he⟩ := Option.map_eq_some_iff.1 hl
        subst he
        cases hm
      · exact hout q l hl m hm
    | flush p =>
      simp only [out'] at hl
      split at hl
      · cases hl
      · exact hout q l hl m hm
    | _ => exact hout q l hl m hm
  · intro q m hm
    simp only [Svc.step] at hm
    cases x with
    | delServer p j info =>
      simp only [pending'] at hm
      split at hm
      · rcases List.mem_append.1 hm with hm | hm
        · exact hpen q m hm
        · obtain ⟨s, _, rfl⟩ := List.mem_map.1 hm
          intro hc
          exact absurd hc (by simp [goneSample])
      · exact hpen q m hm
    | other p m' =>
      simp only [pending'] at hm
      split at hm
      · rename_i hc
        rcases List.mem_append.1 hm with hm | hm
        · exact hpen q m hm
        · simp only [List.mem_singleton] at hm
          subst hm
          intro h5
          have := hc.2
          simp [isService, h5] at this
      · exact hpen q m hm
    | flush p =>
      simp only [pending'] at hm
      split at hm
      · cases hm
      · exact hpen q m hm
    | _ => exact hpen q m hm

theorem winv (P : Nat → Proc) (h : List In) : WInv P h (run P (init P) h) := by
  have key : ∀ (h2 h1 : List In), WInv P h1 (run P (init P) h1) → WInv P (h1 ++ h2) (run P (init P) (h1 ++ h2)) := by
    intro h2
    induction h2 with
    | nil => intro h1 a; rw [List.append_nil]; exact a
    | cons x h2 ih =>
      intro h1 a
      have e : h1 ++ x :: h2 = (h1 ++ [x]) ++ h2 := by simp
      rw [e]
      exact ih (h1 ++ [x]) (WInv.step x a)
  refine key h [] ⟨?_, ?_, ?_⟩
  · intro m hm; cases hm
  · intro q l hl; cases hl
  · intro q m hm; cases hm

theorem delivered_fits {w : World} (hf : ∀ m ∈ w.net, Fits m) {k : Nat} {m : RegSample}
    (hd : delivered w k = some m) : ∃ m0 : RegSample, w.net[k]? = some m0 ∧ m = Wire.transmitted m0 := by
  unfold delivered at hd
  cases hk : w.net[k]? with
  | none => rw [hk] at hd; cases hd
  | some m0 =>
    rw [hk] at hd
    simp only [Option.bind_some] at hd
    rw [receive_datagram m0 (hf m0 (List.mem_of_getElem? hk))] at hd
    exact ⟨m0, rfl, (Option.some.inj hd).symm⟩

/-! ## What arrives at the client gate -/

/-- What arrived: nothing named, or the registration of a complete server that is heard. -/
def Arrived (P : Nat → Proc) (h : List In) (q : Nat) (r : Targets.Reg) : Prop :=
  (r.sname = "" ∧ r.sid = "" ∧ r.hname = "") ∨ ∃ B j name, HadServer P h B j name ∧ Complete (P B) j ∧ Hears (P q) (P B) ∧
    r = entry (P B) j name

theorem arrived_one (P : Nat → Proc) (h : List In) (q : Nat) (x : In) (now : Int) (r : Targets.Reg)
    (hf : ∀ m ∈ (run P (init P) h).net, Fits m)
    (hr : Targets.Step.register now r ∈ clientOps P (run P (init P) h) q x) :
    clock q x = some now ∧ Arrived P h q r := by
  cases x with
  | arrive p k t =>
    simp only [clientOps] at hr
    split at hr
    · rename_i hp
      subst hp
      cases hd : delivered (run P (init P) h) k with
      | none => rw [hd] at hr; cases hr
      | some m =>
        rw [hd] at hr
        simp only at hr
        obtain ⟨m0, hk, rfl⟩ := delivered_fits hf hd
        rcases gateOps_cases (P p) t m0 with h0 | ⟨h5, ha, h0⟩
        · rw [h0] at hr; cases hr
        · rw [h0] at hr
          simp only [List.mem_singleton, Targets.Step.register.injEq] at hr
          obtain ⟨rfl, rfl⟩ := hr
          refine ⟨by simp [clock], ?_⟩
          obtain ⟨B, j, name, info, hs, rfl⟩ := (winv P h).net m0 (List.mem_of_getElem? hk) h5
          by_cases hc : Complete (P B) j
          · right
            have e := regSample_complete hc info name
            refine ⟨B, j, name, hs, hc, (accept_iff (P p) (P B) _ h5 ?_ ?_).1 ha, regOf_regSample hc info name⟩
            · rw [e]
            · rw [e]
          · left
            rw [regSample_incomplete hc]
            exact ⟨rfl, rfl, rfl⟩
    · cases hr
  | collect p info => simp only [clientOps] at hr; split at hr <;> simp at hr
  | setHost p s => simp only [clientOps] at hr; split at hr <;> simp at hr
  | call p a b => simp only [clientOps] at hr; split at hr <;> simp at hr
  | newServer p j n => cases hr
  | delServer p j n => cases hr
  | other p m => cases hr
  | send p => cases hr
  | flush p => cases hr

theorem Arrived.more {P : Nat → Proc} {h : List In} {q : Nat} {r : Targets.Reg} (ha : Arrived P h q r)
    (x : List In) : Arrived P (h ++ x) q r := by
  rcases ha with ha | ⟨B, j, name, h1, h2⟩
  · exact .inl ha
  · exact .inr ⟨B, j, name, h1.more x, h2⟩

theorem mem_regsOf {es : List Targets.Step} {p : Int × Targets.Reg} :
    p ∈ Targets.regsOf es ↔ Targets.Step.register p.1 p.2 ∈ es := by
  induction es with
  | nil => simp [Targets.regsOf]
  | cons e es ih =>
    cases e with
    | register now r =>
      simp only [Targets.regsOf, List.mem_cons, ih, Targets.Step.register.injEq]
      constructor
      · rintro (rfl | h)
        · exact .inl ⟨rfl, rfl⟩
        · exact .inr h
      · rintro (⟨h1, h2⟩ | h)
        · exact .inl (Prod.ext h1 h2)
        · exact .inr h
    | _ => simp [Targets.regsOf, ih]

theorem clientHist_snoc (P : Nat → Proc) (q : Nat) (w : World) (h : List In) (x : In) :
    clientHist P q w (h ++ [x]) = clientHist P q w h ++ clientOps P (run P w h) q x := by
  rw [clientHist_append]; simp [clientHist]

theorem arrived_all (P : Nat → Proc) (q : Nat) (h : List In) (hf : ∀ m ∈ (run P (init P) h).net, Fits m) :
    ∀ p ∈ Targets.regsOf (clientHist P q (init P) h), Arrived P h q p.2 := by
  suffices H : ∀ n, ∀ h : List In, h.length = n → (∀ m ∈ (run P (init P) h).net, Fits m) →
      ∀ p ∈ Targets.regsOf (clientHist P q (init P) h), Arrived P h q p.2 from H _ h rfl hf
  intro n
  induction n with
  | zero =>
    intro h hn _ p hp
    rw [List.length_eq_zero_iff] at hn
    subst hn
    cases hp
  | succ n ih =>
    intro h hn hf p hp
    rcases List.eq_nil_or_concat h with h0 | ⟨h', x, h0⟩
    · subst h0; cases hp
    · rw [List.concat_eq_append] at h0
      subst h0
      have hn' : h'.length = n := by simpa using hn
      rw [clientHist_snoc, Targets.regsOf_append] at hp
      rcases List.mem_append.1 hp with hp | hp
      · exact (ih h' hn' (fits_prefix hf) p hp).more _
      · exact ((arrived_one P h' q x p.1 p.2 (fits_prefix hf) (mem_regsOf.1 hp)).2).more _

theorem clientOps_times (P : Nat → Proc) (w : World) (q : Nat) (x : In) :
    (Targets.regsOf (clientOps P w q x)).map Prod.fst = [] ∨
    (Targets.regsOf (clientOps P w q x)).map Prod.fst = (clock q x).toList := by
  cases x with
  | arrive p k t =>
    simp only [clientOps, clock]
    split
    · cases hd : delivered w k with
      | none => exact .inl rfl
      | some m =>
        simp only [gateOps]
        split
        · exact .inr rfl
        · exact .inl rfl
    · exact .inl rfl
  | collect p info => simp only [clientOps]; split <;> exact .inl rfl
  | setHost p s => simp only [clientOps]; split <;> exact .inl rfl
  | call p a b => simp only [clientOps]; split <;> exact .inl rfl
  | newServer p j n => exact .inl rfl
  | delServer p j n => exact .inl rfl
  | other p m => exact .inl rfl
  | send p => exact .inl rfl
  | flush p => exact .inl rfl

theorem times_sub (P : Nat → Proc) (q : Nat) (h : List In) (w : World) :
    ((Targets.regsOf (clientHist P q w h)).map Prod.fst).Sublist (h.filterMap (clock q)) := by
  induction h generalizing w with
  | nil => simp [clientHist, Targets.regsOf]
  | cons x h ih =>
    simp only [clientHist, Targets.regsOf_append, List.map_append]
    have hcat : (x :: h).filterMap (clock q) = (clock q x).toList ++ h.filterMap (clock q) := by
      rw [List.filterMap_cons]
      cases clock q x <;> rfl
    rw [hcat]
    apply List.Sublist.append _ (ih _)
    rcases clientOps_times P w q x with h0 | h0
    · rw [h0]; simp
    · rw [h0]
      exact List.Sublist.refl _

theorem ordered (P : Nat → Proc) (q : Nat) (h : List In) (w : World) (hm : Mono q h) :
    Targets.Ordered (Targets.regsOf (clientHist P q w h)) := by
  have := List.Pairwise.sublist (times_sub P q h w) hm
  exact List.pairwise_map.1 this

theorem mem_clientHist (P : Nat → Proc) (q : Nat) (op : Targets.Step) (h : List In) (w : World)
    (ho : op ∈ clientHist P q w h) : ∃ a x c, h = a ++ x :: c ∧ op ∈ clientOps P (run P w a) q x := by
  induction h generalizing w with
  | nil => cases ho
  | cons x h ih =>
    rcases List.mem_append.1 ho with ho | ho
    · exact ⟨[], x, h, rfl, ho⟩
    · obtain ⟨a, y, c, rfl, hy⟩ := ih _ ho
      exact ⟨x :: a, y, c, rfl, hy⟩

/-- Where a registration in the client gate came from. -/
theorem reg_arrived (P : Nat → Proc) (q : Nat) (h : List In) (hf : ∀ m ∈ (run P (init P) h).net, Fits m)
    (p : Int × Targets.Reg) (hp : p ∈ Targets.regsOf (clientHist P q (init P) h)) :
    ∃ a k c, h = a ++ .arrive q k p.1 :: c ∧ ∃ m0, (run P (init P) a).net[k]? = some m0 ∧ m0.cmd = 5 ∧
      p.2 = regOf (Wire.transmitted m0) := by
  obtain ⟨a, x, c, rfl, ho⟩ := mem_clientHist P q _ h _ (mem_regsOf.1 hp)
  have hfa := fits_prefix hf
  cases x with
  | arrive p' k t =>
    simp only [clientOps] at ho
    split at ho
    · rename_i hq
      subst hq
      cases hd : delivered (run P (init P) a) k with
      | none => rw [hd] at ho; cases ho
      | some m =>
        rw [hd] at ho
        simp only at ho
        obtain ⟨m0, hk, rfl⟩ := delivered_fits hfa hd
        rcases gateOps_cases (P p') t m0 with h0 | ⟨h5, _, h0⟩
        · rw [h0] at ho; cases ho
        · rw [h0] at ho
          simp only [List.mem_singleton, Targets.Step.register.injEq] at ho
          obtain ⟨ht, hr⟩ := ho
          exact ⟨a, k, c, by rw [ht], m0, hk, h5, hr⟩
    · cases ho
  | collect p info => simp only [clientOps] at ho; split at ho <;> simp at ho
  | setHost p s => simp only [clientOps] at ho; split at ho <;> simp at ho
  | call p a b => simp only [clientOps] at ho; split at ho <;> simp at ho
  | newServer p j n => cases ho
  | delServer p j n => cases ho
  | other p m => cases ho
  | send p => cases ho
  | flush p => cases ho

/-! ## The host filter -/

theorem incrementBy_host (s s' : Targets.State) (m : String) (n : Nat)
    (h : Targets.incrementBy s m n = some s') : s'.host = s.host := by
  induction n generalizing s with
  | zero => cases h; rfl
  | succ n ih =>
    simp only [Targets.incrementBy] at h
    cases hi : Targets.increment s m with
    | none => rw [hi] at h; cases h
    | some s1 =>
      rw [hi] at h
      rw [ih s1 h]
      simp only [Targets.increment] at hi
      grind

theorem step_host (s s' : Targets.State) (e : Targets.Step) (h : Targets.step s e = some s')
    (hn : ∀ x, e ≠ .setHost x) : s'.host = s.host := by
  cases e with
  | register now r =>
    simp only [Targets.step, Targets.register] at h
    split at h
    · cases h
    · cases h; rfl
  | setHost x => exact absurd rfl (hn x)
  | cycle => simp only [Targets.step] at h; cases h; rfl
  | call m acc =>
    simp only [Targets.step] at h
    split at h
    · cases h; rfl
    · simp only [Targets.call] at h
      cases hi : Targets.incrementBy (Targets.check s) m
          ((Targets.targets (Targets.check s)).filter (fun t => acc t.1)).length with
      | none => rw [hi] at h; cases h
      | some s1 =>
        rw [hi] at h
        cases h
        have := incrementBy_host _ _ _ _ hi
        exact this

theorem run_host (Q : String → Prop) (es : List Targets.Step) (s s' : Targets.State)
    (h : Targets.run s es = some s') (h0 : Q s.host)
    (hq : ∀ x, Targets.Step.setHost x ∈ es → Q (if x = "*" then "" else x)) : Q s'.host := by
  induction es generalizing s with
  | nil => cases h; exact h0
  | cons e es ih =>
    simp only [Targets.run] at h
    cases hs : Targets.step s e with
    | none => rw [hs] at h; cases h
    | some s1 =>
      rw [hs] at h
      refine ih s1 h ?_ (fun x hx => hq x (List.mem_cons_of_mem _ hx))
      by_cases he : ∃ x, e = .setHost x
      · obtain ⟨x, rfl⟩ := he
        simp only [Targets.step, Option.some.injEq] at hs
        subst hs
        exact hq x List.mem_cons_self
      · rw [step_host s s1 e hs (fun x hx => he ⟨x, hx⟩)]
        exact h0

theorem mem_setHost (P : Nat → Proc) (q : Nat) (x : String) (h : List In) (w : World)
    (hm : Targets.Step.setHost x ∈ clientHist P q w h) : In.setHost q x ∈ h := by
  obtain ⟨a, y, c, rfl, ho⟩ := mem_clientHist P q _ h _ hm
  clear hm
  cases y with
  | arrive p' k t =>
    simp only [clientOps] at ho
    split at ho
    · split at ho
      · simp only [gateOps] at ho
        split at ho <;> simp at ho
      · cases ho
    · cases ho
  | collect p info => simp only [clientOps] at ho; split at ho <;> simp at ho
  | setHost p s =>
    simp only [clientOps] at ho
    split at ho
    · rename_i hp
      subst hp
      simp only [List.mem_singleton, Targets.Step.setHost.injEq] at ho
      subst ho
      simp
    · cases ho
  | call p a b => simp only [clientOps] at ho; split at ho <;> simp at ho
  | newServer p j n => cases ho
  | delServer p j n => cases ho
  | other p m => cases ho
  | send p => cases ho
  | flush p => cases ho

end Ecal.E2E.Svc
