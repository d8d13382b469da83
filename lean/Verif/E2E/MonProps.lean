import Verif.E2E.Mon
import Verif.E2E.DiscFindProps
import Verif.Mon.ListingProps

/-! # C113: what a monitoring application sees is what there is -/

namespace Ecal.E2E.Disc.MonNet

open Ecal.Wire (RegSample RTopic)
open Ecal.E2E.Disc (Proc World In PSt Fits Accepts Src applier smpOf delivered receive_datagram transmitted_topic transmitted_cmd
  accept_iff winv delivered_src names_ok pubSample subSample pubGone subGone run_append net_grows)
open Ecal.Gate (Obj CS)
open Ecal.Mon (Ident Entity MOp Kind)

/-! ## Specification -/

/-- The network part of a history. -/
def netOf (h : List MIn) : List In := h.filterMap (fun x => match x with | .net x => some x | .look _ _ => none)

/-- The topic id of a publisher or subscriber. -/
def tid (Q : Proc) : Side → Nat → Bytes
  | .pub => Q.ptid
  | .sub => Q.stid

/-- The publishers or subscribers of a process. -/
def objects (s : PSt) : Side → List (Obj CS)
  | .pub => s.pg
  | .sub => s.sg

/-- The identity under which the `i`-th publisher or subscriber of a process is to be listed. -/
def entity (Q : Proc) (side : Side) (i : Nat) (topic : Bytes) : Ident :=
  ⟨chars Q.host, chars topic, chars (tid Q side i), Q.pid.toNat⟩

/-- At some time process `A` had the `i`-th publisher or subscriber, of this topic. -/
def Had (P : Nat → Proc) (h : List In) (side : Side) (A i : Nat) (topic : Bytes) : Prop :=
  ∃ h1 h2, h = h1 ++ h2 ∧ ∃ o ∈ objects ((Disc.run P {} h1).st A) side, o.id = i ∧ o.name = str topic

/-- The destruction of the `i`-th publisher or subscriber of process `A`. -/
def destruction (side : Side) (A i : Nat) (topic : Bytes) (info : RTopic) : In :=
  match side with
  | .pub => .delPub A i topic info
  | .sub => .delSub A i topic info

/-- The sample says command `c` about this publisher or subscriber. -/
def Says (P : Nat → Proc) (side : Side) (A i : Nat) (topic : Bytes) (c : Nat) (m : RegSample) : Prop :=
  m.cmd.toNat = c ∧ m.hostName = (P A).host ∧ m.processId = (P A).pid ∧ m.entityId = tid (P A) side i ∧
    m.topic.hgname = (P A).group ∧ m.topic.tname = topic

/-- The `k`-th datagram announces it. -/
def Announces (P : Nat → Proc) (w : World) (side : Side) (k A i : Nat) (topic : Bytes) : Prop :=
  ∃ m, w.net[k]? = some m ∧ Says P side A i topic (match side with | .pub => 2 | .sub => 3) m

/-- The `k`-th datagram withdraws it. -/
def Withdraws (P : Nat → Proc) (w : World) (side : Side) (k A i : Nat) (topic : Bytes) : Prop :=
  ∃ m, w.net[k]? = some m ∧ Says P side A i topic (match side with | .pub => 12 | .sub => 13) m

/-- The clock process `q` reads. -/
def clock (q : Nat) : MIn → Option Int
  | .net x => Disc.clock q x
  | .look p now => if p = q then some now else none

/-- The clock of process `q` starts at `t0`, does not go backwards and ends at `t1`. -/
def Mono (q : Nat) (t0 t1 : Int) : List MIn → Prop
  | [] => t0 ≤ t1
  | x :: h =>
    match clock q x with
    | some t => t0 ≤ t ∧ Mono q t t1 h
    | none => Mono q t0 t1 h

/-! ## Lemmas -/

theorem chars_inj {a b : Bytes} : chars a = chars b ↔ a = b := by
  constructor
  · intro h
    apply str_inj
    exact String.toList_inj.1 h
  · rintro rfl; rfl

theorem chars_append (a b : Bytes) : chars (a ++ b) = chars a ++ chars b := by
  unfold chars str
  simp

theorem run_netOf (P : Nat → Proc) (h : List MIn) : ∀ w, mrunW P w h = Disc.run P w (netOf h) := by
  induction h with
  | nil => intro w; rfl
  | cons x h ih =>
    intro w
    cases x with
    | net x => exact ih _
    | look q now => exact ih _

theorem netOf_append (a b : List MIn) : netOf (a ++ b) = netOf a ++ netOf b := by simp [netOf]

theorem monHist_append (P : Nat → Proc) (pass : Bytes → Bool) (side : Side) (q : Nat) (a b : List MIn) :
    ∀ w, monHist P pass side q w (a ++ b) = monHist P pass side q w a ++ monHist P pass side q (mrunW P w a) b := by
  induction a with
  | nil => intro w; rfl
  | cons x a ih => intro w; simp only [List.cons_append, monHist, ih, List.append_assoc]; rfl

theorem monHist_split {P : Nat → Proc} {pass : Bytes → Bool} {side : Side} {q : Nat} (h : List MIn) :
    ∀ w l1 op l2, monHist P pass side q w h = l1 ++ op :: l2 →
      ∃ ha x hb, h = ha ++ x :: hb ∧ monEv P pass side q (mrunW P w ha) x = some op ∧
        monHist P pass side q (mrunW P w (ha ++ [x])) hb = l2 := by
  induction h with
  | nil => intro w l1 op l2 h; cases l1 <;> simp [monHist] at h
  | cons x h ih =>
    intro w l1 op l2 hh
    simp only [monHist] at hh
    cases he : monEv P pass side q w x with
    | none =>
      rw [he] at hh
      simp only [Option.toList_none, List.nil_append] at hh
      obtain ⟨ha, y, hb, rfl, h1, h2⟩ := ih _ _ _ _ hh
      exact ⟨x :: ha, y, hb, rfl, h1, h2⟩
    | some o =>
      rw [he] at hh
      simp only [Option.toList_some, List.cons_append, List.nil_append] at hh
      cases l1 with
      | nil =>
        simp only [List.nil_append, List.cons.injEq] at hh
        exact ⟨[], x, h, rfl, by rw [← hh.1]; exact he, hh.2⟩
      | cons o' l1 =>
        simp only [List.cons_append, List.cons.injEq] at hh
        obtain ⟨ha, y, hb, rfl, h1, h2⟩ := ih _ _ _ _ hh.2
        exact ⟨x :: ha, y, hb, rfl, h1, h2⟩

theorem monEv_clock {P : Nat → Proc} {pass : Bytes → Bool} {side : Side} {q : Nat} {w : World} {x : MIn} {p : Int × MOp}
    (h : monEv P pass side q w x = some p) : clock q x = some p.1 := by
  cases x with
  | look p' now =>
    simp only [monEv] at h
    simp only [clock]
    split at h
    · rename_i hp; cases h; rw [if_pos hp]
    · cases h
  | net x =>
    cases x with
    | arrive p' k now =>
      simp only [monEv] at h
      simp only [clock, Disc.clock]
      split at h
      · rename_i hp
        rw [Option.bind_eq_some_iff] at h
        obtain ⟨m, -, hm⟩ := h
        rw [Option.map_eq_some_iff] at hm
        obtain ⟨o, -, rfl⟩ := hm
        rw [if_pos hp]
      · cases h
    | _ => simp [monEv] at h

theorem Mono.le {q : Nat} {t1 : Int} (h : List MIn) : ∀ t0, Mono q t0 t1 h → t0 ≤ t1 := by
  induction h with
  | nil => intro t0 h; exact h
  | cons x h ih =>
    intro t0 hm
    simp only [Mono] at hm
    split at hm
    · exact Int.le_trans hm.1 (ih _ hm.2)
    · exact ih _ hm

theorem monotone_weaken {t0 t1 : Int} (l : List (Int × MOp)) (ht : t1 ≤ t0) (hm : Mon.Monotone t0 l) : Mon.Monotone t1 l := by
  cases l with
  | nil => trivial
  | cons p l => exact ⟨Int.le_trans ht hm.1, hm.2⟩

theorem monHist_mono (P : Nat → Proc) (pass : Bytes → Bool) (side : Side) (q : Nat) (t1 : Int) (h : List MIn) :
    ∀ w t0, Mono q t0 t1 h → Mon.Monotone t0 (monHist P pass side q w h) ∧ ∀ p ∈ monHist P pass side q w h, p.1 ≤ t1 := by
  induction h with
  | nil => intro w t0 _; exact ⟨trivial, by simp [monHist]⟩
  | cons x h ih =>
    intro w t0 hm
    simp only [Mono] at hm
    simp only [monHist]
    cases he : monEv P pass side q w x with
    | none =>
      simp only [Option.toList_none, List.nil_append]
      split at hm
      · obtain ⟨a, b⟩ := ih (mstep P w x) _ hm.2
        exact ⟨monotone_weaken _ hm.1 a, b⟩
      · exact ih _ _ hm
    | some p =>
      have hc := monEv_clock he
      rw [hc] at hm
      simp only at hm
      obtain ⟨a, b⟩ := ih (mstep P w x) _ hm.2
      simp only [Option.toList_some, List.cons_append, List.nil_append]
      refine ⟨⟨hm.1, a⟩, ?_⟩
      intro p' hp'
      rw [List.mem_cons] at hp'
      rcases hp' with rfl | hp'
      · exact Mono.le h _ hm.2
      · exact b p' hp'

/-- What `GetMonitoring` shows, in terms of the history. -/
theorem seen_iff (P : Nat → Proc) (pass : Bytes → Bool) (side : Side) (q : Nat) (timeout t0 now : Int) (h : List MIn)
    (hm : Mono q t0 now h) :
    ∃ l, seen P pass side q timeout h now = some l ∧ ∀ e, e ∈ l ↔
      ∃ ha x hb r, h = ha ++ x :: hb ∧ monEv P pass side q (mrunW P {} ha) x = some (r, .register e) ∧ now - timeout ≤ r ∧
        ∀ hc y hd, hb = hc ++ y :: hd → ∀ p, monEv P pass side q (mrunW P {} (ha ++ x :: hc)) y = some p →
          (∀ f, p.2 = .register f → Mon.key side.kind f.ident ≠ Mon.key side.kind e.ident) ∧
          (∀ i, p.2 = .unregister i → Mon.key side.kind i ≠ Mon.key side.kind e.ident) := by
  obtain ⟨a, b⟩ := monHist_mono P pass side q now h {} t0 hm
  obtain ⟨s, hs, hl⟩ := Mon.C45_listing_iff side.kind timeout t0 now _ a b (Mono.le h _ hm)
  refine ⟨Mon.listing s now, by unfold seen; rw [hs]; rfl, fun e => ?_⟩
  rw [hl e]
  constructor
  · rintro ⟨h1, r, h2, he, hr, hc⟩
    obtain ⟨ha, x, hb, rfl, hx, hb2⟩ := monHist_split h _ _ _ _ he
    refine ⟨ha, x, hb, r, rfl, hx, hr, ?_⟩
    rintro hc' y hd rfl p hp
    refine hc p ?_
    rw [← hb2, monHist_append]
    have e1 : mrunW P (mrunW P {} (ha ++ [x])) hc' = mrunW P {} (ha ++ x :: hc') := by simp [mrunW]
    rw [e1, monHist, hp]
    simp
  · rintro ⟨ha, x, hb, r, rfl, hx, hr, hc⟩
    refine ⟨monHist P pass side q {} ha, r, monHist P pass side q (mrunW P {} (ha ++ [x])) hb, ?_, hr, ?_⟩
    · rw [monHist_append, monHist, hx]
      have : mstep P (mrunW P {} ha) x = mrunW P {} (ha ++ [x]) := by simp [mrunW]
      rw [this]
      simp
    · intro p hp
      obtain ⟨l1, l2, hl⟩ := List.append_of_mem hp
      obtain ⟨hc', y, hd, rfl, hy, -⟩ := monHist_split hb _ _ _ _ hl
      refine hc hc' y hd rfl p ?_
      have e1 : mrunW P (mrunW P {} (ha ++ [x])) hc' = mrunW P {} (ha ++ x :: hc') := by simp [mrunW]
      rw [← e1]
      exact hy

theorem fits_prefix {P : Nat → Proc} {a b : List MIn} (hf : ∀ m ∈ (Disc.run P {} (netOf (a ++ b))).net, Fits m) :
    ∀ m ∈ (Disc.run P {} (netOf a)).net, Fits m := by
  rw [netOf_append] at hf
  exact Disc.fits_prefix hf

/-- A step that changes a table is the arrival of a datagram that was sent. -/
theorem monEv_arrive {P : Nat → Proc} {pass : Bytes → Bool} {side : Side} {q : Nat} {ha : List MIn} {x : MIn} {r : Int} {o : MOp}
    (hf : ∀ m ∈ (Disc.run P {} (netOf ha)).net, Fits m) (ho : o ≠ .snapshot)
    (h : monEv P pass side q (mrunW P {} ha) x = some (r, o)) :
    ∃ k m, x = .net (.arrive q k r) ∧ (Disc.run P {} (netOf ha)).net[k]? = some m ∧
      Src P (netOf ha) m ∧ monOp (P q) pass side k (Wire.transmitted m) = some o := by
  cases x with
  | look p now =>
    simp only [monEv] at h
    split at h
    · cases h; exact absurd rfl ho
    · cases h
  | net x =>
    cases x with
    | arrive p k now =>
      simp only [monEv] at h
      split at h
      · rename_i hp
        subst hp
        rw [Option.bind_eq_some_iff] at h
        obtain ⟨m, hm, h⟩ := h
        rw [Option.map_eq_some_iff] at h
        obtain ⟨o', ho', he⟩ := h
        simp only [Prod.mk.injEq] at he
        obtain ⟨rfl, rfl⟩ := he
        rw [run_netOf] at hm
        unfold delivered at hm
        rw [Option.bind_eq_some_iff] at hm
        obtain ⟨m0, h0, hd⟩ := hm
        have hm0 := List.mem_of_getElem? h0
        rw [receive_datagram m0 (hf m0 hm0)] at hd
        cases hd
        exact ⟨k, m0, rfl, h0, (winv P _ hf).net m0 hm0, ho'⟩
      · cases h
    | _ => simp [monEv] at h

theorem reg_topic (side : Side) : side.reg = 2 ∨ side.reg = 12 ∨ side.reg = 3 ∨ side.reg = 13 := by cases side <;> decide
theorem unreg_topic (side : Side) : side.unreg = 2 ∨ side.unreg = 12 ∨ side.unreg = 3 ∨ side.unreg = 13 := by
  cases side <;> decide
theorem unreg_ne_reg (side : Side) : side.unreg ≠ side.reg := by cases side <;> decide

theorem identOf_transmitted {m : RegSample} (hc : m.cmd = 2 ∨ m.cmd = 12 ∨ m.cmd = 3 ∨ m.cmd = 13) :
    identOf (Wire.transmitted m) = identOf m := by
  obtain ⟨-, e2, e3, e4, e5⟩ := transmitted_topic m hc
  simp [identOf, e2, e3, e4, e5]

/-- The call a sample of a topic causes. -/
theorem monOp_topic (Q B : Proc) (pass : Bytes → Bool) (side : Side) (k : Nat) (m : RegSample)
    (hc : m.cmd = side.reg ∨ m.cmd = side.unreg)
    (h1 : m.hostName = B.host) (h2 : m.processId = B.pid) (h3 : m.topic.hgname = B.group) :
    (Accepts Q B → monOp Q pass side k (Wire.transmitted m) =
      if m.cmd = side.reg then (if pass m.topic.tname then some (.register ⟨identOf m, k⟩) else none)
      else some (.unregister (identOf m))) ∧
    (¬ Accepts Q B → monOp Q pass side k (Wire.transmitted m) = none) := by
  have hc' : m.cmd = 2 ∨ m.cmd = 12 ∨ m.cmd = 3 ∨ m.cmd = 13 := by
    rcases hc with h | h <;> rw [h]
    · exact reg_topic side
    · exact unreg_topic side
  have ha := accept_iff Q B m hc' h1 h2 h3
  obtain ⟨e1, -, -, -, e5⟩ := transmitted_topic m hc'
  constructor
  · intro h
    unfold monOp
    rw [if_neg (by rw [ha.2 h]; simp), e1, e5, identOf_transmitted hc']
    rcases hc with hc | hc
    · rw [if_pos hc, if_pos hc]
    · have hne : m.cmd ≠ side.reg := by rw [hc]; exact unreg_ne_reg side
      rw [if_neg hne, if_pos hc, if_neg hne]
  · intro h
    unfold monOp
    rw [if_pos]
    cases hx : Registration.accept (applier Q) (smpOf (Wire.transmitted m)) with
    | false => rfl
    | true => exact absurd (ha.1 hx) h

theorem monOp_cmd {Q : Proc} {pass : Bytes → Bool} {side : Side} {k : Nat} {m : RegSample} {o : MOp}
    (h : monOp Q pass side k (Wire.transmitted m) = some o) : m.cmd = side.reg ∨ m.cmd = side.unreg := by
  unfold monOp at h
  rw [transmitted_cmd] at h
  split at h
  · cases h
  · split at h
    · rename_i hc; exact .inl hc
    · split at h
      · rename_i hc; exact .inr hc
      · cases h

theorem toNat_reg (side : Side) (c : BitVec 32) :
    c.toNat = (match side with | .pub => 2 | .sub => 3) ↔ c = side.reg := by
  cases side <;> exact ⟨fun h => BitVec.eq_of_toNat_eq (by rw [h]; rfl), fun h => by rw [h]; rfl⟩

theorem toNat_unreg (side : Side) (c : BitVec 32) :
    c.toNat = (match side with | .pub => 12 | .sub => 13) ↔ c = side.unreg := by
  cases side <;> exact ⟨fun h => BitVec.eq_of_toNat_eq (by rw [h]; rfl), fun h => by rw [h]; rfl⟩

/-- Where a sample of a topic comes from. -/
theorem src_says (P : Nat → Proc) (h : List In) (side : Side) (m : RegSample) (hs : Src P h m)
    (hc : m.cmd = side.reg ∨ m.cmd = side.unreg) :
    ∃ A i topic, Says P side A i topic m.cmd.toNat m ∧ (m.cmd = side.reg → Had P h side A i topic) ∧
      (m.cmd = side.unreg → ∃ info, destruction side A i topic info ∈ h) := by
  cases hs with
  | sub h1 h2 B info o e ho =>
    cases side with
    | pub => rcases hc with hc | hc <;> simp [subSample, Side.reg, Side.unreg] at hc
    | sub =>
      obtain ⟨b, hb⟩ := (names_ok P h1 B).2 o ho
      refine ⟨B, o.id, b, ⟨rfl, rfl, rfl, rfl, rfl, ?_⟩, fun _ => ⟨h1, h2, e, o, ho, rfl, hb⟩, ?_⟩
      · show Disc.unstr o.name = b
        rw [hb, Disc.unstr_str]
      · intro hx; simp [subSample, Side.unreg] at hx
  | pub h1 h2 A info o e ho =>
    cases side with
    | sub => rcases hc with hc | hc <;> simp [pubSample, Side.reg, Side.unreg] at hc
    | pub =>
      obtain ⟨b, hb⟩ := (names_ok P h1 A).1 o ho
      refine ⟨A, o.id, b, ⟨rfl, rfl, rfl, rfl, rfl, ?_⟩, fun _ => ⟨h1, h2, e, o, ho, rfl, hb⟩, ?_⟩
      · show Disc.unstr o.name = b
        rw [hb, Disc.unstr_str]
      · intro hx; simp [pubSample, Side.unreg] at hx
  | subGone B j t info ho hd =>
    cases side with
    | pub => rcases hc with hc | hc <;> simp [subGone, Side.reg, Side.unreg] at hc
    | sub =>
      refine ⟨B, j, t, ⟨rfl, rfl, rfl, rfl, rfl, rfl⟩, ?_, fun _ => ⟨info, hd⟩⟩
      intro hx; simp [subGone, Side.reg] at hx
  | pubGone A i t info hd =>
    cases side with
    | sub => rcases hc with hc | hc <;> simp [pubGone, Side.reg, Side.unreg] at hc
    | pub =>
      refine ⟨A, i, t, ⟨rfl, rfl, rfl, rfl, rfl, rfl⟩, ?_, fun _ => ⟨info, hd⟩⟩
      intro hx; simp [pubGone, Side.reg] at hx
  | other m hm =>
    simp only [Disc.isTopic, decide_eq_false_iff_not, not_or] at hm
    cases side <;> rcases hc with hc | hc <;> simp only [Side.reg, Side.unreg] at hc <;> simp_all

theorem identOf_says {P : Nat → Proc} {side : Side} {A i : Nat} {topic : Bytes} {c : Nat} {m : RegSample}
    (h : Says P side A i topic c m) : identOf m = entity (P A) side i topic := by
  obtain ⟨-, h1, h2, h3, -, h5⟩ := h
  simp [identOf, entity, h1, h2, h3, h5]

/-- A registration that reaches the table. -/
theorem reg_source {P : Nat → Proc} {pass : Bytes → Bool} {side : Side} {q : Nat} {ha : List MIn} {x : MIn} {r : Int} {e : Entity}
    (hf : ∀ m ∈ (Disc.run P {} (netOf ha)).net, Fits m)
    (h : monEv P pass side q (mrunW P {} ha) x = some (r, .register e)) :
    x = .net (.arrive q e.data r) ∧ ∃ A i topic, Announces P (Disc.run P {} (netOf ha)) side e.data A i topic ∧
      Accepts (P q) (P A) ∧ pass topic = true ∧ e.ident = entity (P A) side i topic ∧ Had P (netOf ha) side A i topic := by
  obtain ⟨k, m, rfl, hk, hs, ho⟩ := monEv_arrive (o := .register e) hf nofun h
  have hc := monOp_cmd ho
  obtain ⟨A, i, topic, hsay, hh, -⟩ := src_says P _ side m hs hc
  obtain ⟨h0, h1, h2, h3, h4, h5⟩ := hsay
  obtain ⟨a, b⟩ := monOp_topic (P q) (P A) pass side k m hc h1 h2 h4
  by_cases hacc : Accepts (P q) (P A)
  · rw [a hacc] at ho
    by_cases hreg : m.cmd = side.reg
    · rw [if_pos hreg] at ho
      split at ho
      · rename_i hp
        simp only [Option.some.injEq, MOp.register.injEq] at ho
        subst ho
        refine ⟨rfl, A, i, topic, ⟨m, hk, ?_, h1, h2, h3, h4, h5⟩, hacc, by rw [← h5]; exact hp,
          identOf_says ⟨h0, h1, h2, h3, h4, h5⟩, hh hreg⟩
        rw [toNat_reg]; exact hreg
      · cases ho
    · rw [if_neg hreg] at ho; simp at ho
  · rw [b hacc] at ho; cases ho

/-- An unregistration that reaches the table. -/
theorem unreg_source {P : Nat → Proc} {pass : Bytes → Bool} {side : Side} {q : Nat} {ha : List MIn} {x : MIn} {r : Int} {j : Ident}
    (hf : ∀ m ∈ (Disc.run P {} (netOf ha)).net, Fits m)
    (h : monEv P pass side q (mrunW P {} ha) x = some (r, .unregister j)) :
    ∃ A i topic info, destruction side A i topic info ∈ netOf ha ∧ j = entity (P A) side i topic := by
  obtain ⟨k, m, rfl, hk, hs, ho⟩ := monEv_arrive (o := .unregister j) hf nofun h
  have hc := monOp_cmd ho
  obtain ⟨A, i, topic, hsay, -, hd⟩ := src_says P _ side m hs hc
  have hsay' := hsay
  obtain ⟨h0, h1, h2, h3, h4, h5⟩ := hsay
  obtain ⟨a, b⟩ := monOp_topic (P q) (P A) pass side k m hc h1 h2 h4
  by_cases hacc : Accepts (P q) (P A)
  · rw [a hacc] at ho
    by_cases hreg : m.cmd = side.reg
    · rw [if_pos hreg] at ho
      split at ho <;> simp at ho
    · rw [if_neg hreg] at ho
      simp only [Option.some.injEq, MOp.unregister.injEq] at ho
      obtain ⟨info, hi⟩ := hd (hc.resolve_left hreg)
      exact ⟨A, i, topic, info, hi, by rw [← ho]; exact identOf_says hsay'⟩
  · rw [b hacc] at ho; cases ho

/-- The arrival of an announcement or withdrawal. -/
theorem ev_of_says {P : Nat → Proc} {pass : Bytes → Bool} {side : Side} {q : Nat} {ha : List MIn} {k A i : Nat} {topic : Bytes}
    {m : RegSample} {c : Nat} (t : Int)
    (hf : ∀ m ∈ (Disc.run P {} (netOf ha)).net, Fits m) (hk : (Disc.run P {} (netOf ha)).net[k]? = some m)
    (hs : Says P side A i topic c m) (hc : m.cmd = side.reg ∨ m.cmd = side.unreg) (hacc : Accepts (P q) (P A)) :
    monEv P pass side q (mrunW P {} ha) (.net (.arrive q k t)) =
      (if m.cmd = side.reg then (if pass topic then some (t, .register ⟨entity (P A) side i topic, k⟩) else none)
       else some (t, .unregister (entity (P A) side i topic))) := by
  have hi := identOf_says hs
  obtain ⟨-, h1, h2, h3, h4, h5⟩ := hs
  have := (monOp_topic (P q) (P A) pass side k m hc h1 h2 h4).1 hacc
  simp only [monEv, if_true]
  rw [run_netOf]
  unfold delivered
  rw [hk, Option.bind_some, receive_datagram m (hf m (List.mem_of_getElem? hk)), Option.bind_some, this, hi, h5]
  by_cases hreg : m.cmd = side.reg
  · rw [if_pos hreg, if_pos hreg]
    by_cases hp : pass topic = true
    · rw [if_pos hp, if_pos hp]; rfl
    · rw [if_neg hp, if_neg hp]; rfl
  · rw [if_neg hreg, if_neg hreg]; rfl

/-! ## C113 -/

/-- **C113 (only what there was).** Whatever happened, everything `GetMonitoring` lists is a publisher (subscriber) some process had,
in a process the own one listens to and of a topic the filter lets pass, with the host name, process id, topic name and topic id it
had; the content of the entry is that of one of its announcements, which arrived not longer ago than the timeout. -/
theorem C113_only_existing (P : Nat → Proc) (pass : Bytes → Bool) (side : Side) (q : Nat) (timeout t0 now : Int) (h : List MIn)
    (hf : ∀ m ∈ (Disc.run P {} (netOf h)).net, Fits m) (hm : Mono q t0 now h) :
    ∃ l, seen P pass side q timeout h now = some l ∧ ∀ e ∈ l, ∃ A i topic, e.ident = entity (P A) side i topic ∧
      Accepts (P q) (P A) ∧ pass topic = true ∧ Had P (netOf h) side A i topic ∧
      ∃ ha t hb, h = ha ++ .net (.arrive q e.data t) :: hb ∧ now - timeout ≤ t ∧
        Announces P (Disc.run P {} (netOf ha)) side e.data A i topic := by
  obtain ⟨l, hl, he⟩ := seen_iff P pass side q timeout t0 now h hm
  refine ⟨l, hl, fun e hel => ?_⟩
  obtain ⟨ha, x, hb, r, rfl, hx, hr, -⟩ := (he e).1 hel
  obtain ⟨rfl, A, i, topic, h1, h2, h3, h4, h5⟩ := reg_source (fits_prefix hf) hx
  refine ⟨A, i, topic, h4, h2, h3, ?_, ha, r, hb, rfl, hr, h1⟩
  obtain ⟨a, b, e1, e2⟩ := h5
  exact ⟨a, b ++ netOf (.net (.arrive q e.data r) :: hb), by rw [netOf_append, e1]; simp, e2⟩

/-- **C113 (one entry each).** No publisher (subscriber) is listed with two different contents. -/
theorem C113_listed_once (P : Nat → Proc) (pass : Bytes → Bool) (side : Side) (q : Nat) (timeout t0 now : Int) (h : List MIn)
    (hm : Mono q t0 now h) (l : List Entity) (hl : seen P pass side q timeout h now = some l) (e f : Entity)
    (he : e ∈ l) (hf : f ∈ l) (hef : e.ident = f.ident) : e = f := by
  obtain ⟨l', hl', hiff⟩ := seen_iff P pass side q timeout t0 now h hm
  rw [hl] at hl'
  cases hl'
  obtain ⟨ha, x, hb, r, e1, hx, -, hc⟩ := (hiff e).1 he
  obtain ⟨ha', x', hb', r', e1', hx', -, hc'⟩ := (hiff f).1 hf
  rw [e1] at e1'
  rcases List.append_eq_append_iff.1 e1' with ⟨as, ea, eb⟩ | ⟨as, ea, eb⟩
  · cases as with
    | nil =>
      simp only [List.append_nil] at ea
      simp only [List.nil_append, List.cons.injEq] at eb
      rw [ea, ← eb.1, hx] at hx'
      simp only [Option.some.injEq, Prod.mk.injEq, MOp.register.injEq] at hx'
      exact hx'.2
    | cons y as =>
      simp only [List.cons_append, List.cons.injEq] at eb
      obtain ⟨rfl, eb⟩ := eb
      have := (hc as x' hb' eb (r', .register f) (by rw [← ea]; exact hx')).1 f rfl
      rw [hef] at this
      exact absurd rfl this
  · cases as with
    | nil =>
      simp only [List.append_nil] at ea
      simp only [List.nil_append, List.cons.injEq] at eb
      rw [← ea, eb.1, hx] at hx'
      simp only [Option.some.injEq, Prod.mk.injEq, MOp.register.injEq] at hx'
      exact hx'.2
    | cons y as =>
      simp only [List.cons_append, List.cons.injEq] at eb
      obtain ⟨rfl, eb⟩ := eb
      have := (hc' as x hb eb (r, .register e) (by rw [← ea]; exact hx)).1 e rfl
      rw [hef] at this
      exact absurd rfl this

/-- The last step of a history that changes the entry of a key. -/
theorem last_hit (P : Nat → Proc) (pass : Bytes → Bool) (side : Side) (q : Nat) (x : List Char) (hb : List MIn) :
    ∀ ha : List MIn,
      (∀ hc y hd, hb = hc ++ y :: hd → ∀ p, monEv P pass side q (mrunW P {} (ha ++ hc)) y = some p → ¬ Mon.Hits side.kind x p.2) ∨
      ∃ hc y hd p, hb = hc ++ y :: hd ∧ monEv P pass side q (mrunW P {} (ha ++ hc)) y = some p ∧ Mon.Hits side.kind x p.2 ∧
        ∀ hc' y' hd', hd = hc' ++ y' :: hd' → ∀ p', monEv P pass side q (mrunW P {} (ha ++ hc ++ y :: hc')) y' = some p' →
          ¬ Mon.Hits side.kind x p'.2 := by
  induction hb with
  | nil => intro ha; left; intro hc y hd h; cases hc <;> cases h
  | cons z hb ih =>
    intro ha
    rcases ih (ha ++ [z]) with hno | ⟨hc, y, hd, p, e, h1, h2, h3⟩
    · cases hz : monEv P pass side q (mrunW P {} ha) z with
      | none =>
        left
        intro hc y hd he p hp
        cases hc with
        | nil =>
          simp only [List.nil_append, List.cons.injEq] at he
          rw [List.append_nil, ← he.1, hz] at hp
          cases hp
        | cons z' hc =>
          simp only [List.cons_append, List.cons.injEq] at he
          obtain ⟨rfl, he⟩ := he
          exact hno hc y hd he p (by simpa using hp)
      | some p =>
        by_cases hh : Mon.Hits side.kind x p.2
        · right
          refine ⟨[], z, hb, p, rfl, by rw [List.append_nil]; exact hz, hh, ?_⟩
          intro hc' y' hd' he p' hp'
          exact hno hc' y' hd' he p' (by simpa using hp')
        · left
          intro hc y hd he p' hp
          cases hc with
          | nil =>
            simp only [List.nil_append, List.cons.injEq] at he
            rw [List.append_nil, ← he.1, hz] at hp
            cases hp
            exact hh
          | cons z' hc =>
            simp only [List.cons_append, List.cons.injEq] at he
            obtain ⟨rfl, he⟩ := he
            exact hno hc y hd he p' (by simpa using hp)
    · right
      exact ⟨z :: hc, y, hd, p, by rw [e]; rfl, by simpa using h1, h2, fun hc' y' hd' he p' hp' => h3 hc' y' hd' he p' (by simpa using hp')⟩

theorem Mono.tail {q : Nat} {t1 : Int} (a b : List MIn) : ∀ t0, Mono q t0 t1 (a ++ b) → ∃ t, t0 ≤ t ∧ Mono q t t1 b := by
  induction a with
  | nil => intro t0 h; exact ⟨t0, Int.le_refl _, h⟩
  | cons x a ih =>
    intro t0 h
    simp only [List.cons_append, Mono] at h
    split at h
    · obtain ⟨t, h1, h2⟩ := ih _ h.2
      exact ⟨t, Int.le_trans h.1 h1, h2⟩
    · exact ih _ h

theorem key_entity (Q : Proc) (side : Side) (i : Nat) (topic : Bytes) :
    Mon.key side.kind (entity Q side i topic) = chars (topic ++ tid Q side i) := by
  rw [chars_append]
  cases side <;> rfl

/-- **C113 (what is announced is listed).** A publisher (subscriber) of a process the own one listens to, of a topic the filter lets
pass, which was announced here not longer ago than the timeout and was not destroyed, is listed; the content is that of its latest
announcement that arrived.  Condition: no other publisher (subscriber) that was ever announced or destroyed has the same
concatenation of topic name and topic id, and the names of hosts, processes and topics identify it.  Missing for the full claim: see
`C113_violated_hidden` and `C113_violated_ghost`. -/
theorem C113_announced_is_listed_partial (P : Nat → Proc) (pass : Bytes → Bool) (side : Side) (q : Nat) (timeout t0 now : Int)
    (h ha hb : List MIn) (A i k : Nat) (topic : Bytes) (t : Int)
    (hf : ∀ m ∈ (Disc.run P {} (netOf h)).net, Fits m) (hm : Mono q t0 now h)
    (he : h = ha ++ .net (.arrive q k t) :: hb) (ht : now - timeout ≤ t)
    (hann : Announces P (Disc.run P {} (netOf ha)) side k A i topic) (hacc : Accepts (P q) (P A)) (hpass : pass topic = true)
    (hdel : ∀ tp info, destruction side A i tp info ∉ netOf h)
    (hkeys : ∀ A' i' topic', (Had P (netOf h) side A' i' topic' ∨ ∃ info, destruction side A' i' topic' info ∈ netOf h) →
      topic' ++ tid (P A') side i' = topic ++ tid (P A) side i → A' = A ∧ i' = i ∧ topic' = topic) :
    ∃ l, seen P pass side q timeout h now = some l ∧ ∃ e ∈ l, e.ident = entity (P A) side i topic ∧
      ∃ hc t' hd, h = hc ++ .net (.arrive q e.data t') :: hd ∧ ha.length ≤ hc.length ∧
        Announces P (Disc.run P {} (netOf hc)) side e.data A i topic := by
  obtain ⟨l, hl, hiff⟩ := seen_iff P pass side q timeout t0 now h hm
  refine ⟨l, hl, ?_⟩
  obtain ⟨m, hk, hsay⟩ := hann
  have hreg : m.cmd = side.reg := (toNat_reg side m.cmd).1 hsay.1
  have hfa : ∀ m ∈ (Disc.run P {} (netOf ha)).net, Fits m := by rw [he] at hf; exact fits_prefix hf
  have hev := ev_of_says (pass := pass) (q := q) t hfa hk hsay (.inl hreg) hacc
  rw [if_pos hreg, if_pos hpass] at hev
  have hnohit : ∀ (p : Int × MOp), ¬ Mon.Hits side.kind (Mon.key side.kind (entity (P A) side i topic)) p.2 →
      (∀ f, p.2 = .register f → Mon.key side.kind f.ident ≠ Mon.key side.kind (entity (P A) side i topic)) ∧
      (∀ j, p.2 = .unregister j → Mon.key side.kind j ≠ Mon.key side.kind (entity (P A) side i topic)) := by
    intro p hp
    constructor
    · intro f hf hx; rw [hf] at hp; exact hp hx
    · intro j hj hx; rw [hj] at hp; exact hp hx
  rcases last_hit P pass side q (Mon.key side.kind (entity (P A) side i topic)) hb (ha ++ [.net (.arrive q k t)]) with
    hno | ⟨hc, y, hd, p, e1, h1, h2, h3⟩
  · refine ⟨⟨entity (P A) side i topic, k⟩, (hiff _).2 ⟨ha, _, hb, t, he, hev, ht, ?_⟩, rfl, ha, t, hb, he, Nat.le_refl _, m, hk, hsay⟩
    · intro hc y hd e1 p hp
      exact hnohit p (hno hc y hd e1 p (by simpa using hp))
  · have e2 : h = (ha ++ [.net (.arrive q k t)] ++ hc) ++ y :: hd := by rw [he, e1]; simp
    have hfb : ∀ m ∈ (Disc.run P {} (netOf (ha ++ [.net (.arrive q k t)] ++ hc))).net, Fits m := by rw [e2] at hf; exact fits_prefix hf
    have hmore : ∀ x ∈ netOf (ha ++ [.net (.arrive q k t)] ++ hc), x ∈ netOf h := by
      intro x hx; rw [e2, netOf_append]; exact List.mem_append_left _ hx
    obtain ⟨r, o⟩ := p
    cases o with
    | snapshot => exact absurd h2 id
    | unregister j =>
      exfalso
      obtain ⟨A', i', tp, info, hd', hj⟩ := unreg_source hfb h1
      simp only [Mon.Hits] at h2
      rw [hj, key_entity, key_entity, chars_inj] at h2
      obtain ⟨rfl, rfl, rfl⟩ := hkeys A' i' tp (.inr ⟨info, hmore _ hd'⟩) h2
      exact hdel _ _ (hmore _ hd')
    | register f =>
      obtain ⟨rfl, A', i', tp, hA, -, -, hid, hh⟩ := reg_source hfb h1
      simp only [Mon.Hits] at h2
      rw [hid, key_entity, key_entity, chars_inj] at h2
      have hhad : Had P (netOf h) side A' i' tp := by
        obtain ⟨a, b, e3, e4⟩ := hh
        exact ⟨a, b ++ netOf (.net (.arrive q f.data r) :: hd), by rw [e2, netOf_append, e3]; simp, e4⟩
      obtain ⟨rfl, rfl, rfl⟩ := hkeys A' i' tp (.inl hhad) h2
      have hr : t ≤ r := by
        rw [e2] at hm
        have e4 : (ha ++ [.net (.arrive q k t)] ++ hc) ++ MIn.net (.arrive q f.data r) :: hd =
            ha ++ (.net (.arrive q k t) :: (hc ++ .net (.arrive q f.data r) :: hd)) := by simp
        rw [e4] at hm
        obtain ⟨t1, -, hm1⟩ := Mono.tail _ _ _ hm
        simp only [Mono, clock, Disc.clock, if_true] at hm1
        obtain ⟨t2, h12, hm2⟩ := Mono.tail _ _ _ hm1.2
        simp only [Mono, clock, Disc.clock, if_true] at hm2
        omega
      refine ⟨f, (hiff f).2 ⟨_, _, hd, r, e2, h1, by omega, ?_⟩, hid, ha ++ [.net (.arrive q k t)] ++ hc, r, hd, e2, ?_, hA⟩
      · intro hc' y' hd' e5 p' hp'
        rw [hid]
        exact hnohit p' (h3 hc' y' hd' e5 p' hp')
      · simp

/-- **C113 (what is gone is not listed).** If every announcement of a publisher (subscriber) that arrived is older than the timeout or
was followed by the arrival of its withdrawal, it is not listed. -/
theorem C113_gone_not_listed (P : Nat → Proc) (pass : Bytes → Bool) (side : Side) (q : Nat) (timeout t0 now : Int)
    (h : List MIn) (A i : Nat) (topic : Bytes)
    (hf : ∀ m ∈ (Disc.run P {} (netOf h)).net, Fits m) (hm : Mono q t0 now h)
    (hinj : ∀ A' i', (P A').host = (P A).host → (P A').pid = (P A).pid → tid (P A') side i' = tid (P A) side i → A' = A ∧ i' = i)
    (hold : ∀ ha k t hb, h = ha ++ .net (.arrive q k t) :: hb → Announces P (Disc.run P {} (netOf ha)) side k A i topic →
      t < now - timeout ∨ ∃ hc k' t' hd, hb = hc ++ .net (.arrive q k' t') :: hd ∧
        Withdraws P (Disc.run P {} (netOf (ha ++ .net (.arrive q k t) :: hc))) side k' A i topic) :
    ∃ l, seen P pass side q timeout h now = some l ∧ ∀ e ∈ l, e.ident ≠ entity (P A) side i topic := by
  obtain ⟨l, hl, hiff⟩ := seen_iff P pass side q timeout t0 now h hm
  refine ⟨l, hl, ?_⟩
  intro e hel hid
  obtain ⟨ha, x, hb, r, he, hx, hr, hc⟩ := (hiff e).1 hel
  have hfa : ∀ m ∈ (Disc.run P {} (netOf ha)).net, Fits m := by rw [he] at hf; exact fits_prefix hf
  obtain ⟨rfl, A', i', tp, hA, hacc, -, hid', -⟩ := reg_source hfa hx
  rw [hid'] at hid
  simp only [entity, Ident.mk.injEq, chars_inj] at hid
  obtain ⟨e1, rfl, e3, e4⟩ := hid
  obtain ⟨rfl, rfl⟩ := hinj A' i' e1 (BitVec.eq_of_toNat_eq e4) e3
  rcases hold ha e.data r hb he hA with h1 | ⟨hc', k', t', hd, e5, m, hk, hsay⟩
  · omega
  · have hun : m.cmd = side.unreg := (toNat_unreg side m.cmd).1 hsay.1
    have e6 : h = (ha ++ MIn.net (.arrive q e.data r) :: hc') ++ MIn.net (.arrive q k' t') :: hd := by rw [he, e5]; simp
    have hfb : ∀ m ∈ (Disc.run P {} (netOf (ha ++ MIn.net (.arrive q e.data r) :: hc'))).net, Fits m := by
      rw [e6] at hf; exact fits_prefix hf
    have hev := ev_of_says (pass := pass) (q := q) t' hfb hk hsay (.inr hun) hacc
    rw [if_neg (by rw [hun]; exact unreg_ne_reg side)] at hev
    have := (hc hc' _ hd e5 _ hev).2 _ rfl
    rw [hid'] at this
    exact this rfl

/-! ## A run -/

/-- Two processes; a publisher of topic `t` in process 0 and a subscriber in process 1 are announced to process 2. -/
def exH : List MIn :=
  [.net (.newPub 0 1 [116]), .net (.newSub 1 2 [116]), .net (.collect 0 0 Disc.noInfo Disc.noInfo), .net (.flush 0),
   .net (.collect 1 0 Disc.noInfo Disc.noInfo), .net (.flush 1), .net (.arrive 2 0 1), .look 2 2, .net (.arrive 2 1 3)]

def all : Bytes → Bool := fun _ => true

example : (seen Disc.exP all .pub 2 10 exH 4).map (fun l => l.map (fun e => (e.ident.name, e.ident.id, e.data))) =
      some [(['t'], ['p', 'p'], 0)] ∧
    (seen Disc.exP all .sub 2 10 exH 4).map (fun l => l.map (fun e => (e.ident.name, e.ident.id, e.data))) =
      some [(['t'], ['s', 's', 's'], 1)] ∧
    (seen Disc.exP all .pub 2 10 exH 12).map (fun l => l.length) = some 0 := by decide +kernel

example : Mono 2 0 4 exH := by simp [Mono, exH, clock, Disc.clock]

/-- The hypotheses of `C113_announced_is_listed_partial` about the arriving datagram. -/
example : exH = exH.take 6 ++ .net (.arrive 2 0 1) :: exH.drop 7 ∧
    (Disc.run Disc.exP {} (netOf (exH.take 6))).net.map (fun m => (m.cmd, m.topic.tname, m.entityId)) =
      [(2, [116], [112, 112]), (3, [116], [115, 115, 115])] ∧
    (∀ tp info, destruction .pub 0 1 tp info ∉ netOf exH) :=
  ⟨rfl, by decide +kernel, by intro tp info; simp [destruction, netOf, exH]⟩

example : Announces Disc.exP (Disc.run Disc.exP {} (netOf (exH.take 6))) .pub 0 0 1 [116] ∧ Accepts (Disc.exP 2) (Disc.exP 0) :=
  ⟨⟨_, rfl, by unfold Says; decide +kernel⟩, by simp [Accepts, Disc.exP]⟩

/-- Violated: **a living publisher is hidden by another one** that has the same concatenation of topic name and id (here `t` with
id `pp`, and `tp` with id `p`): after both were announced, only the second is listed. -/
theorem C113_violated_hidden :
    let h := [MIn.net (.newPub 0 1 [116]), .net (.newPub 0 0 [116, 112]), .net (.collect 0 0 Disc.noInfo Disc.noInfo), .net (.flush 0),
      .net (.arrive 2 0 1), .net (.arrive 2 1 2)]
    ((Disc.run Disc.exP {} (netOf h)).st 0).pg.length = 2 ∧ (Disc.run Disc.exP {} (netOf h)).net.length = 2 ∧
    (seen Disc.exP all .pub 2 10 h 3).map (fun l => l.map (fun e => (e.ident.name, e.ident.id))) =
      some [(['t', 'p'], ['p'])] := by decide +kernel

/-- Violated: **a destroyed publisher is listed** when its announcement arrives after its withdrawal (until the timeout). -/
theorem C113_violated_ghost :
    let h := [MIn.net (.newPub 0 1 [116]), .net (.collect 0 0 Disc.noInfo Disc.noInfo), .net (.flush 0), .net (.delPub 0 1 [116] {}),
      .net (.collect 0 1 Disc.noInfo Disc.noInfo), .net (.flush 0), .net (.arrive 2 1 2), .net (.arrive 2 0 3)]
    ((Disc.run Disc.exP {} (netOf h)).st 0).pg.length = 0 ∧
    (seen Disc.exP all .pub 2 10 h 4).map (fun l => l.map (fun e => (e.ident.name, e.ident.id))) =
      some [(['t'], ['p', 'p'])] := by decide +kernel

end Ecal.E2E.Disc.MonNet
