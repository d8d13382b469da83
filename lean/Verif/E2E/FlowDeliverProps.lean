import Verif.E2E.FlowDeliver
import Verif.Reader.Props

/-! # Property C111: a known subscriber gets the message -/

namespace Ecal.E2E.Flow

open Ecal.Wire (RegSample RTopic)
open Ecal.E2E.Disc (Proc)

/-! ## Inputs -/

/-- A copy in order. -/
def CopyOk (c : Names × Reader.Sample) : Prop := c.1.Ok ∧ Small c ∧ c.2.tid = str c.1.tid ∧ InRange c.2

theorem arrival_pos (rc : Reader.Config) (hs : Bytes → Bool) (r : Rcv) (n : Names) (s : Reader.Sample) (i : E2E.In)
    (hi : arrival n s = some i) (hc : CopyOk (n, s)) (hh : hs n.topic = true) (ha : r.armed = true) :
    ∃ r', E2E.step rc hs n.topic r i = some r' ∧ r'.rd = (Reader.step rc r.rd (.sample s)).1 ∧
      r'.evs = r.evs ++ (Reader.step rc r.rd (.sample s)).2 := by
  obtain ⟨hn, hsm, ht, hr⟩ := hc
  unfold arrival at hi
  split at hi
  · next hlay =>
    injection hi with hi
    subst hi
    obtain ⟨p1, p2⟩ := datagram_parsed n hn s hsm.1
    have hf := fromWire_copy n s ht hr (udpSample n s) rfl rfl rfl rfl rfl
    rw [hlay] at hf
    simp only [E2E.step, Udp.rx, ha, Bool.not_true, Bool.false_eq_true, if_false, p1, hh, if_true,
      List.nil_append, List.foldl_cons, List.foldl_nil]
    unfold subApply
    rw [p2]
    simp only [show (udpSample n s).cmd = 1 from rfl, show (udpSample n s).tname = n.topic from rfl,
      show (udpSample n s).payload = s.payload from rfl, and_self, if_true, hf]
    exact ⟨_, rfl, rfl, rfl⟩
  · next hlay =>
    split at hi
    · next msg hmsg =>
      injection hi with hi
      subst hi
      obtain ⟨hdr, q1, q2, q3, q4, q5, q6, q7, _, _⟩ :=
        Wire.C31_received _ _ _ _ _ _ _ _ r.hdr hn.1 hn.2.2.2 hsm.2 hmsg
      have hf := fromWire_copy n s ht hr hdr q3 q4 q5 q6 q7
      rw [hlay] at hf
      simp only [E2E.step, q1, q2, hf, if_true]
      exact ⟨_, rfl, rfl, rfl⟩
    · cases hi
  · injection hi with hi
    subst hi
    simp only [E2E.step]
    exact ⟨_, rfl, rfl, rfl⟩

/-- A datagram is taken by all subscribers. -/
theorem take_udp {C : Cfg} {w : World} {p j : Nat} {b : Sub} {e : Udp.Ev} {x : Udp.Rx}
    (h : Udp.rx (has w p) { armed := w.armed p } e = some x) : ∃ b', take C w p j b (.udp e) = some b' := by
  unfold take
  simp only [E2E.step, h]
  exact ⟨_, rfl⟩

theorem input_take {C : Cfg} {w w' : World} {p j : Nat} {i : E2E.In} {b : Sub} (h : input C w p j i = some w')
    (hb : w.sub p j = some b) : ∃ b', take C w p j b i = some b' ∧ w'.sub p j = some b' := by
  unfold input at h
  split at h
  · next e =>
    split at h
    · cases h
    · next x hx =>
      simp only [Option.some.injEq] at h
      subst h
      obtain ⟨b', hb'⟩ := take_udp (C := C) (j := j) (b := b) hx
      exact ⟨b', hb', by simp [hb, hb']⟩
  · rw [hb] at h
    simp only at h
    split at h
    · cases h
    · next b' hb' =>
      simp only [Option.some.injEq] at h
      subst h
      exact ⟨b', hb', by simp⟩

theorem input_fwd {C : Cfg} {w w' : World} {p j : Nat} {i : E2E.In} (h : input C w p j i = some w')
    (q j' : Nat) (b : Sub) (hb : w.sub q j' = some b) :
    w'.sub q j' = some b ∨ ∃ b', w'.sub q j' = some b' ∧ q = p ∧ take C w p j' b i = some b' ∧
      (j' = j ∨ ∃ e, i = .udp e) := by
  by_cases hj : q = p ∧ j' = j
  · obtain ⟨rfl, rfl⟩ := hj
    obtain ⟨b', h1, h2⟩ := input_take h hb
    exact .inr ⟨b', h2, rfl, h1, .inl rfl⟩
  · unfold input at h
    split at h
    · next e =>
      split at h
      · cases h
      · next x hx =>
        simp only [Option.some.injEq] at h
        subst h
        by_cases hq : q = p
        · subst hq
          obtain ⟨b', hb'⟩ := take_udp (C := C) (j := j') (b := b) hx
          exact .inr ⟨b', by simp [hb, hb'], rfl, hb', .inr ⟨e, rfl⟩⟩
        · exact .inl (by simp [hq, hb])
    · split at h
      · simp only [Option.some.injEq] at h; subst h; exact .inl hb
      · split at h
        · cases h
        · simp only [Option.some.injEq] at h
          subst h
          left
          simp only
          rw [if_neg hj]
          exact hb

/-! ## The subscriber -/

/-- The subscriber saw only samples for which `Q` holds. -/
structure SubQ (C : Cfg) (Q : Names × Reader.Sample → Prop) (p j : Nat) (b : Sub) (a : List Reader.Op) : Prop where
  rd    : b.rcv.rd = (Reader.run (C.rc p j) Reader.init a).1
  evs   : b.rcv.evs = (Reader.run (C.rc p j) Reader.init a).2
  calm  : Reader.Steady a
  from_ : ∀ s ∈ Reader.arrivals a, ∃ n, Q (n, s) ∧ n.topic = b.topic

theorem SubQ.call {C : Cfg} {Q : Names × Reader.Sample → Prop} {p j : Nat} {b b' : Sub} {a : List Reader.Op}
    (hb : SubQ C Q p j b a) (op : Reader.Op) (e1 : b'.rcv.rd = (Reader.step (C.rc p j) b.rcv.rd op).1)
    (e2 : b'.rcv.evs = b.rcv.evs ++ (Reader.step (C.rc p j) b.rcv.rd op).2) (e3 : b'.topic = b.topic)
    (h1 : (∀ ids, op ≠ .setId ids) ∧ op ≠ .stop)
    (hop : ∀ s, op = .sample s → ∃ n, Q (n, s) ∧ n.topic = b.topic) : SubQ C Q p j b' (a ++ [op]) := by
  refine ⟨?_, ?_, ?_, ?_⟩
  · rw [e1, reader_run_snoc, hb.rd]
  · rw [e2, reader_run_snoc, hb.rd, hb.evs]
  · intro o ho
    rcases List.mem_append.1 ho with ho | ho
    · exact hb.calm o ho
    · simp only [List.mem_singleton] at ho; subst ho; exact h1
  · intro s hs
    rw [e3]
    rcases (arrivals_snoc _ _ _).1 hs with hs | hs
    · exact hb.from_ s hs
    · exact hop s hs

theorem SubQ.still {C : Cfg} {Q : Names × Reader.Sample → Prop} {p j : Nat} {b b' : Sub} {a : List Reader.Op}
    (hb : SubQ C Q p j b a) (e1 : b'.rcv.rd = b.rcv.rd) (e2 : b'.rcv.evs = b.rcv.evs)
    (e3 : b'.topic = b.topic) : SubQ C Q p j b' a :=
  ⟨by rw [e1]; exact hb.rd, by rw [e2]; exact hb.evs, hb.calm, by rw [e3]; exact hb.from_⟩

theorem fix_delSub {C : Cfg} {x : Disc.In} {p i : Nat} {t : Bytes} {info : RTopic} :
    fix C x = .delSub p i t info ↔ x = .delSub p i t info := by
  cases x <;> simp [fix]

/-- One step at a calm subscriber. -/
theorem sub_step {C : Cfg} {P : Nat → Proc} {Q : Names × Reader.Sample → Prop} {w w' : World} {x : In} {B j : Nat}
    {b : Sub} {a : List Reader.Op} (h : step C P w x = some w') (hb : w.sub B j = some b)
    (hx : ∀ t, x ≠ .disc (.newSub B j t)) (hx2 : ∀ t info, x ≠ .disc (.delSub B j t info)) (hc : Calm B j x)
    (hn : ∀ c ∈ w.net, CopyOk c) (hQ : ∀ j' k, x = .arrive B j' k → ∀ c, w.net[k]? = some c → Q c)
    (hq : SubQ C Q B j b a) : ∃ b' a', w'.sub B j = some b' ∧ b'.topic = b.topic ∧ SubQ C Q B j b' a' := by
  cases x with
  | disc y =>
    simp only [step, Option.some.injEq] at h
    subst h
    refine ⟨b, a, ?_, rfl, hq⟩
    show sub' C w (fix C y) B j = some b
    unfold sub'
    split
    · next p' j' t he =>
      rw [fix_newSub] at he
      rw [if_neg]
      · exact hb
      · rintro ⟨rfl, rfl⟩; exact hx t (by rw [he])
    · next p' j' t info he =>
      rw [fix_delSub] at he
      rw [hb]
      simp only [Option.map_some, Option.some.injEq]
      rw [if_neg]
      rintro ⟨rfl, rfl, _⟩; exact hx2 t info (by rw [he])
    · exact hb
  | send p i m =>
    rcases send_cases h with ⟨_, rfl⟩ | ⟨b0, _, _, _, _, e, _⟩
    · exact ⟨b, a, hb, rfl, hq⟩
    · exact ⟨b, a, by rw [e]; exact hb, rfl, hq⟩
  | arrive p j' k =>
    rcases arriveAt_cases h with rfl | ⟨n, s, i, hk, hi, hl, hin⟩
    · exact ⟨b, a, hb, rfl, hq⟩
    · rcases input_fwd hin B j b hb with h1 | ⟨b', h1, rfl, h2, h3⟩
      · exact ⟨b, a, h1, rfl, hq⟩
      · obtain ⟨r, hr, rfl⟩ := take_some h2
        have hok := hn _ (List.mem_of_getElem? hk)
        have hl' : s.layer = .udp ∨ s.layer = .tcp ∨ b.topic = n.topic := by
          rcases hl with hl | hl | hl
          · exact .inl hl
          · exact .inr (.inl hl)
          · rcases h3 with rfl | ⟨e, rfl⟩
            · rw [hb] at hl
              simp only [Option.map_some, Option.some.injEq] at hl
              exact .inr (.inr hl)
            · unfold arrival at hi
              split at hi
              · next hlay => exact .inl hlay
              · split at hi <;> cases hi
              · cases hi
        rcases arrival_take _ _ _ _ _ n s i hi hok.1 hok.2.1 hok.2.2.1 hok.2.2.2 hl' hr with ⟨e1, e2⟩ | ⟨htop, e1, e2⟩
        · exact ⟨_, a, h1, rfl, hq.still e1 e2 (by rfl)⟩
        · refine ⟨_, a ++ [.sample s], h1, rfl, hq.call (.sample s) e1 e2 (by rfl) ⟨by simp, by simp⟩ ?_⟩
          intro s' hs'
          injection hs' with hs'
          subst hs'
          exact ⟨n, hQ j' k rfl _ hk, htop.symm⟩
  | noise p j' i =>
    rcases input_fwd h B j b hb with h1 | ⟨b', h1, rfl, h2, h3⟩
    · exact ⟨b, a, h1, rfl, hq⟩
    · obtain ⟨c1, c2⟩ := hc j' i rfl
      have hj : j = j' := by
        rcases h3 with h3 | ⟨e, rfl⟩
        · exact h3
        · exact absurd rfl (c1 e)
      obtain ⟨r, hr, rfl⟩ := take_some h2
      rcases c2 hj.symm with rfl | rfl | rfl <;> simp only [E2E.step, Option.some.injEq] at hr <;> subst hr
      · exact ⟨_, a ++ [.read], h1, rfl, hq.call .read (by rfl) (by rfl) (by rfl) ⟨by simp, by simp⟩ (by simp)⟩
      · exact ⟨_, a ++ [.addCb], h1, rfl, hq.call .addCb (by rfl) (by rfl) (by rfl) ⟨by simp, by simp⟩ (by simp)⟩
      · exact ⟨_, a ++ [.remCb], h1, rfl, hq.call .remCb (by rfl) (by rfl) (by rfl) ⟨by simp, by simp⟩ (by simp)⟩

theorem sub_run {C : Cfg} {P : Nat → Proc} {Q : Names × Reader.Sample → Prop} {B j : Nat} (h : List In)
    (w w' : World) (hr : run C P w h = some w') (hk : Disc.SubKept B j (found C h)) (hc : ∀ x ∈ h, Calm B j x)
    (hn : ∀ c ∈ w'.net, CopyOk c)
    (hQ : ∀ h1 j' k h2, h = h1 ++ .arrive B j' k :: h2 → ∀ w1, run C P w h1 = some w1 →
      ∀ c, w1.net[k]? = some c → Q c)
    (b : Sub) (a : List Reader.Op) (hb : w.sub B j = some b) (hq : SubQ C Q B j b a) :
    ∃ b' a', w'.sub B j = some b' ∧ b'.topic = b.topic ∧ SubQ C Q B j b' a' := by
  induction h generalizing w b a with
  | nil => simp only [run, Option.some.injEq] at hr; subst hr; exact ⟨b, a, hb, rfl, hq⟩
  | cons x h ih =>
    have hr' := hr
    simp only [run] at hr
    split at hr
    · cases hr
    · next w1 hs =>
      have hk' : Disc.SubKept B j (found C h) := by
        intro y hy
        apply hk
        have : found C (x :: h) = found C [x] ++ found C h := by rw [← found_append]; rfl
        rw [this]
        exact List.mem_append_right _ hy
      obtain ⟨l, hl⟩ := net_run hr'
      obtain ⟨b1, a1, h1, h2, h3⟩ := sub_step (Q := Q) hs hb
        (by rintro t rfl; exact (hk (.newSub B j t) (by simp [found, fix])).1 t rfl)
        (by rintro t info rfl; exact (hk (.delSub B j t info) (by simp [found, fix])).2 t info rfl)
        (hc x (by simp)) (fun c hm => hn c (by rw [hl]; exact List.mem_append_left _ hm))
        (by
          rintro j' k rfl c hc
          exact hQ [] j' k h rfl w rfl c hc) hq
      obtain ⟨b', a', e1, e2, e3⟩ := ih w1 hr hk' (fun y hy => hc y (List.mem_cons_of_mem _ hy))
        (by
          intro h1 j' k h2 he w2 hw2 c hcc
          refine hQ (x :: h1) j' k h2 (by rw [he]; rfl) w2 ?_ c hcc
          simp only [run, hs]
          exact hw2) b1 a1 h1 h3
      exact ⟨b', a', e1, by rw [e2, h2], e3⟩

/-- The UDP receiver keeps listening. -/
theorem armed_run {C : Cfg} {P : Nat → Proc} {B j : Nat} (h : List In) (w w' : World)
    (hr : run C P w h = some w') (hc : ∀ x ∈ h, Calm B j x) (hn : ∀ c ∈ w'.net, CopyOk c)
    (ha : w.armed B = true) : w'.armed B = true := by
  induction h generalizing w with
  | nil => simp only [run, Option.some.injEq] at hr; subst hr; exact ha
  | cons x h ih =>
    obtain ⟨l, hl⟩ := net_run hr
    simp only [run] at hr
    split at hr
    · cases hr
    · next w1 hs =>
      apply ih w1 hr (fun y hy => hc y (List.mem_cons_of_mem _ hy))
      have nonudp : ∀ p j' i, input C w p j' i = some w1 → (∀ e, i ≠ .udp e) → w1.armed B = true := by
        intro p j' i hin hi
        unfold input at hin
        split at hin
        · next e => exact absurd rfl (hi e)
        · split at hin
          · simp only [Option.some.injEq] at hin; subst hin; exact ha
          · split at hin
            · cases hin
            · simp only [Option.some.injEq] at hin; subst hin; exact ha
      have elsewhere : ∀ p j' i, input C w p j' i = some w1 → p ≠ B → w1.armed B = true := by
        intro p j' i hin hp
        unfold input at hin
        split at hin
        · split at hin
          · cases hin
          · simp only [Option.some.injEq] at hin; subst hin
            simp only
            rw [if_neg (Ne.symm hp)]; exact ha
        · split at hin
          · simp only [Option.some.injEq] at hin; subst hin; exact ha
          · split at hin
            · cases hin
            · simp only [Option.some.injEq] at hin; subst hin; exact ha
      cases x with
      | disc y => simp only [step, Option.some.injEq] at hs; subst hs; exact ha
      | send p i m =>
        rcases send_cases hs with ⟨_, rfl⟩ | ⟨b0, _, _, _, _, _, e, _⟩
        · exact ha
        · rw [e]; exact ha
      | arrive p j' k =>
        rcases arriveAt_cases hs with rfl | ⟨n, s, i, hk, hi, _, hin⟩
        · exact ha
        · by_cases hp : p = B
          · subst hp
            by_cases hu : ∃ e, i = .udp e
            · obtain ⟨e, rfl⟩ := hu
              have hok := hn (n, s) (by rw [hl]; exact List.mem_append_left _ (List.mem_of_getElem? hk))
              have he : e = .datagram (datagram n s) := by
                unfold arrival at hi
                split at hi
                · injection hi with hi; injection hi with hi; exact hi.symm
                · split at hi <;> cases hi
                · cases hi
              subst he
              obtain ⟨p1, _⟩ := datagram_parsed n hok.1 s hok.2.1.1
              simp only [input, Udp.rx, ha, Bool.not_true, Bool.false_eq_true, if_false, p1, Option.some.injEq] at hin
              subst hin
              simp only [if_true]
              split <;> rfl
            · exact nonudp p j' i hin (fun e he => hu ⟨e, he⟩)
          · exact elsewhere p j' i hin hp
      | noise p j' i =>
        by_cases hp : p = B
        · subst hp
          exact nonudp p j' i hs (hc _ (by simp) j' i rfl).1
        · exact elsewhere p j' i hs hp

/-- What was delivered stays delivered. -/
theorem evs_run {C : Cfg} {P : Nat → Proc} {B j : Nat} (h : List In) (w w' : World)
    (hr : run C P w h = some w') (hk : ∀ t, In.disc (.newSub B j t) ∉ h) (b : Sub) (hb : w.sub B j = some b) :
    ∃ b', w'.sub B j = some b' ∧ ∃ l, b'.rcv.evs = b.rcv.evs ++ l := by
  induction h generalizing w b with
  | nil => simp only [run, Option.some.injEq] at hr; subst hr; exact ⟨b, hb, [], by simp⟩
  | cons x h ih =>
    simp only [run] at hr
    split at hr
    · cases hr
    · next w1 hs =>
      have one : ∃ b', w1.sub B j = some b' ∧ ∃ l, b'.rcv.evs = b.rcv.evs ++ l := by
        have stay : w1.sub B j = some b → ∃ b', w1.sub B j = some b' ∧ ∃ l, b'.rcv.evs = b.rcv.evs ++ l :=
          fun e => ⟨b, e, [], by simp⟩
        have inp : ∀ p j' i, input C w p j' i = some w1 →
            ∃ b', w1.sub B j = some b' ∧ ∃ l, b'.rcv.evs = b.rcv.evs ++ l := by
          intro p j' i hin
          rcases input_fwd hin B j b hb with h1 | ⟨b', h1, rfl, h2, h3⟩
          · exact stay h1
          · obtain ⟨r, hr, rfl⟩ := take_some h2
            rcases noise_take hr with ⟨_, e⟩ | ⟨op, _, e, _⟩
            · exact ⟨_, h1, [], by rw [e]; simp⟩
            · exact ⟨_, h1, _, e⟩
        cases x with
        | disc y =>
          simp only [step, Option.some.injEq] at hs
          subst hs
          show ∃ b', sub' C w (fix C y) B j = some b' ∧ _
          unfold sub'
          split
          · next p' j' t he =>
            rw [fix_newSub] at he
            rw [if_neg]
            · exact ⟨b, hb, [], by simp⟩
            · rintro ⟨rfl, rfl⟩; exact hk t (by rw [he]; simp)
          · next p' j' t info he =>
            rw [hb]
            simp only [Option.map_some, Option.some.injEq, exists_eq_left']
            split
            · exact ⟨_, rfl⟩
            · exact ⟨[], by simp⟩
          · exact ⟨b, hb, [], by simp⟩
        | send p i m =>
          rcases send_cases hs with ⟨_, rfl⟩ | ⟨b0, _, _, _, _, e, _⟩
          · exact stay hb
          · exact stay (by rw [e]; exact hb)
        | arrive p j' k =>
          rcases arriveAt_cases hs with rfl | ⟨n, s, i, _, _, _, hin⟩
          · exact stay hb
          · exact inp p j' i hin
        | noise p j' i => exact inp p j' i hs
      obtain ⟨b1, h1, l1, e1⟩ := one
      obtain ⟨b2, h2, l2, e2⟩ := ih w1 hr (fun t hm => hk t (List.mem_cons_of_mem _ hm)) b1 h1
      exact ⟨b2, h2, l1 ++ l2, by rw [e2, e1]; simp⟩

/-- The new subscriber. -/
theorem sub_born {C : Cfg} {P : Nat → Proc} {w w' : World} {B j : Nat} {topic : Bytes}
    (Q : Names × Reader.Sample → Prop) (h : step C P w (.disc (.newSub B j topic)) = some w') :
    w'.sub B j = some { topic := topic } ∧ SubQ C Q B j { topic := topic } [] := by
  constructor
  · simp only [step, Option.some.injEq] at h
    subst h
    simp [sub', fix]
  · exact ⟨rfl, rfl, (by intro o ho; cases ho), (by intro s hs; cases hs)⟩

theorem filter_one {l : List Reader.Sample} (hp : l.Pairwise (fun a b => ¬ (a.tid = b.tid ∧ a.clock = b.clock)))
    (x : Reader.Sample) (hx : x ∈ l) (t : String) (k : Int) (h1 : x.tid = t) (h2 : x.clock = k) :
    l.filter (fun y => y.tid = t ∧ y.clock = k) = [x] := by
  induction l with
  | nil => cases hx
  | cons y l ih =>
    rw [List.pairwise_cons] at hp
    rcases List.mem_cons.1 hx with rfl | hx
    · rw [List.filter_cons, if_pos (by simp [h1, h2])]
      congr 1
      rw [List.filter_eq_nil_iff]
      intro z hz
      simp only [decide_eq_true_eq]
      rintro ⟨a, b⟩
      exact hp.1 z hz ⟨by rw [h1, a], by rw [h2, b]⟩
    · rw [List.filter_cons, if_neg, ih hp.2 hx]
      simp only [decide_eq_true_eq]
      rintro ⟨a, b⟩
      exact hp.1 x hx ⟨by rw [a, h1], by rw [b, h2]⟩

theorem split_here {α : Type} {x y a : List α} {op : α} {b : List α} (h : x ++ y = a ++ op :: b) :
    (∃ d, x = a ++ op :: d) ∨ ∃ c, a = x ++ c ∧ y = c ++ op :: b := by
  rcases List.append_eq_append_iff.1 h with ⟨c, h1, h2⟩ | ⟨c, h1, h2⟩
  · exact .inr ⟨c, h1, h2⟩
  · cases c with
    | nil => exact .inr ⟨[], by simpa using h1.symm, by simpa using h2.symm⟩
    | cons z c =>
      simp only [List.cons_append, List.cons.injEq] at h2
      exact .inl ⟨c, by rw [h1, h2.1]⟩

/-! ## The properties -/

/-- **C111 (a known subscriber is served).** A publisher and a subscriber of the same topic exist in processes of
which the publisher's listens to the subscriber's, a registration of the subscriber has arrived, and no
registration cycle since then came later than the registration timeout.  Then whatever else happened: a message
sent now goes over the layer that comes first in the publisher's order of preference among those both are
configured for. -/
theorem C111_known_subscriber_is_served (C : Cfg) (P : Nat → Proc) (A i B j k : Nat) (topic : Bytes)
    (hne : topic ≠ []) (hacc : Disc.Accepts (P A) (P B))
    (hinj : ∀ B' j', Disc.speer (P B') j' = Disc.speer (P B) j → B' = B ∧ j' = j) (L : Writer.TL)
    (hL : Preferred (C.wc A i) (C.rc B j) ((P B).host = (P A).host) L) (h0 h1 : List In) (t0 t1 : Int)
    (m : Writer.Msg) (w0 w1 : World) (hr0 : run C P {} h0 = some w0)
    (hr1 : run C P {} (h0 ++ .disc (.arrive A k t1) :: h1 ++ [.send A i m]) = some w1)
    (hl : Disc.PubLives A i topic (found C h0)) (hk : Disc.PubKept A i (found C h1))
    (hd : Disc.SubDatagram P w0.disc k B j topic) (hfit : ∀ m ∈ w1.disc.net, Disc.Fits m)
    (hdel : ∀ t info, In.disc (.delSub B j t info) ∉ h0 ++ .disc (.arrive A k t1) :: h1)
    (hmono : Disc.Mono A t0 (found C (h0 ++ .disc (.arrive A k t1) :: h1)))
    (htime : ∀ now iS iP, In.disc (.collect A now iS iP) ∈ h1 → now - (P A).timeout ≤ t1) :
    ∃ (c : Nat) (s : Reader.Sample), w1.net[c]? = some (names P A i topic, s) ∧ s.layer = layerOf L ∧
      Writer.strip s = m.strip ∧ s.tid = str ((P A).ptid i) ∧
      (w1.pub A i).map (fun b => (b.st.clock : Int)) = some s.clock ∧ (arrival (names P A i topic) s).isSome := by
  obtain ⟨w, hr, hs⟩ := run_snoc hr1
  have e : w1.disc = w.disc := disc_step hs
  obtain ⟨b, hb, ht, hup⟩ := pub_up C P A i B j k topic hne hacc hinj L hL h0 t0 t1 w0 hr0 hl hd h1 w hr hk
    (by rw [← e]; exact hfit) hdel hmono htime
  rcases send_cases hs with ⟨hn, _⟩ | ⟨b0, hb0, e1, e2, _, _, _, hne⟩
  · rw [hb] at hn; cases hn
  · rw [hb] at hb0
    simp only [Option.some.injEq] at hb0
    subst hb0
    obtain ⟨hc, hclk⟩ := up_send (wcfg C P A i) b.st L _ m hup
    have hmem : (names P A i topic, Writer.copyOf (wcfg C P A i) (b.st.clock + 1) m (layerOf L)) ∈ w1.net := by
      rw [e2, ← ht]
      exact List.mem_append_right _ (List.mem_map.2 ⟨_, hc, rfl⟩)
    obtain ⟨c, hc'⟩ := List.mem_iff_getElem?.1 hmem
    refine ⟨c, _, hc', rfl, rfl, rfl, ?_, ?_⟩
    · rw [e1]
      simp only [and_self, if_true, Option.map_some, hclk]
      rfl
    · rw [← ht]
      exact Option.isSome_iff_exists.2 (hne _ hc)

/-- Two copies with the same publisher and counter carry the same message. -/
theorem same_message (C : Cfg) (P : Nat → Proc) (A i : Nat)
    (hu : ∀ p' i', (P p').ptid i' = (P A).ptid i → p' = A ∧ i' = i) (h : List In) (w : World)
    (hr : run C P {} h = some w) (hone : h.countP (isNewPub A i) ≤ 1) (n n' : Names) (s s' : Reader.Sample)
    (h1 : (n, s) ∈ w.net) (h2 : (n', s') ∈ w.net) (t1 : n.tid = (P A).ptid i) (t2 : n'.tid = (P A).ptid i)
    (hk : s.clock = s'.clock) : Writer.strip s = Writer.strip s' := by
  obtain ⟨b, hb, _, ⟨cs, hcs, hm⟩, _⟩ := log_inv C P A i hu h w hr hone n s h1 t1
  obtain ⟨b', hb', _, ⟨cs', hcs', hm'⟩, _⟩ := log_inv C P A i hu h w hr hone n' s' h2 t2
  rw [hb] at hb'
  simp only [Option.some.injEq] at hb'
  subst hb'
  obtain ⟨x, mm, l, e1, e2⟩ := Writer.run_copies _ _ _ cs hcs s hm
  obtain ⟨x', mm', l', e1', e2'⟩ := Writer.run_copies _ _ _ cs' hcs' s' hm'
  have : x = x' := by
    rw [e2, e2'] at hk
    simp only [Writer.copyOf] at hk
    omega
  subst this
  rw [e1] at e1'
  simp only [Option.some.injEq] at e1'
  subst e1'
  rw [e2, e2']
  rfl

/-- **C111 (the message arrives, once).** In the situation of `C111_known_subscriber_is_served`, let the
subscriber live on until a copy of the message on the preferred layer reaches it, before anything sent later, let
hashes of samples of different publishers differ, and let there be nothing at the subscriber but samples of
publishers, reading and callbacks.  Then the message is delivered to the application exactly once, unchanged,
whatever happens before and after. -/
theorem C111_message_delivered_once (C : Cfg) (P : Nat → Proc) (A i B j k : Nat) (topic : Bytes)
    (hne : topic ≠ []) (hacc : Disc.Accepts (P A) (P B))
    (hinj : ∀ B' j', Disc.speer (P B') j' = Disc.speer (P B) j → B' = B ∧ j' = j)
    (hu : ∀ p' i', (P p').ptid i' = (P A).ptid i → p' = A ∧ i' = i) (L : Writer.TL)
    (hL : Preferred (C.wc A i) (C.rc B j) ((P B).host = (P A).host) L) (hdrop : (C.rc B j).drop = true)
    (h0 h1 : List In) (t0 t1 : Int)
    (m : Writer.Msg) (w0 w1 : World) (hr0 : run C P {} h0 = some w0)
    (hr1 : run C P {} (h0 ++ .disc (.arrive A k t1) :: h1 ++ [.send A i m]) = some w1)
    (hl : Disc.PubLives A i topic (found C h0)) (hk : Disc.PubKept A i (found C h1))
    (hd : Disc.SubDatagram P w0.disc k B j topic) (hfit : ∀ m ∈ w1.disc.net, Disc.Fits m)
    (hmono : Disc.Mono A t0 (found C (h0 ++ .disc (.arrive A k t1) :: h1)))
    (htime : ∀ now iS iP, In.disc (.collect A now iS iP) ∈ h1 → now - (P A).timeout ≤ t1)
    (hsl : Disc.SubLives B j topic (found C (h0 ++ .disc (.arrive A k t1) :: h1 ++ [.send A i m])))
    (hcol : ∀ a ∈ w1.net, ∀ b ∈ w1.net, a.2.hash = b.2.hash → a.1.tid = b.1.tid)
    (hcalm : ∀ x ∈ h0 ++ .disc (.arrive A k t1) :: h1, Calm B j x) :
    ∃ (c : Nat) (s : Reader.Sample), w1.net[c]? = some (names P A i topic, s) ∧ s.layer = layerOf L ∧
      Writer.strip s = m.strip ∧
      ∀ h2 h3 w, run C P w1 (h2 ++ .arrive B j c :: h3) = some w →
        Fine P (h0 ++ .disc (.arrive A k t1) :: h1 ++ [.send A i m] ++ (h2 ++ .arrive B j c :: h3)) w →
        Disc.SubKept B j (found C h2) → (∀ x ∈ h2, Calm B j x) →
        (∀ j' c', In.arrive B j' c' ∈ h2 → c' < w1.net.length) → (∀ t, In.disc (.newSub B j t) ∉ h3) →
        ∃ b x, w.sub B j = some b ∧
          (Reader.delivered b.rcv.evs).filter (fun y => y.tid = str ((P A).ptid i) ∧ y.clock = s.clock) = [x] ∧
          Writer.strip x = m.strip := by
  have hdel : ∀ t info, In.disc (.delSub B j t info) ∉ h0 ++ .disc (.arrive A k t1) :: h1 := by
    intro t info hm
    refine hsl.nodel t info ?_
    rw [found_append]
    exact List.mem_append_left _ (mem_found (C := C) hm)
  have hone : (h0 ++ In.disc (.arrive A k t1) :: h1 ++ [In.send A i m]).countP (isNewPub A i) ≤ 1 := by
    apply newPub_once (C := C) (topic := topic)
    rw [List.append_assoc, found_append]
    apply hl.more
    intro y hy
    have : found C (In.disc (.arrive A k t1) :: h1 ++ [In.send A i m]) = .arrive A k t1 :: found C h1 := by
      rw [found_append, show found C [In.send A i m] = [] from rfl, List.append_nil]; rfl
    rw [this] at hy
    rcases List.mem_cons.1 hy with rfl | hy
    · exact ⟨by simp, by simp⟩
    · exact hk y hy
  obtain ⟨c, s, hc, hlay, hstrip, htid, hclk, harr⟩ := C111_known_subscriber_is_served C P A i B j k topic hne hacc
    hinj L hL h0 h1 t0 t1 m w0 w1 hr0 hr1 hl hk hd hfit hdel hmono htime
  refine ⟨c, s, hc, hlay, hstrip, ?_⟩
  intro h2 h3 w hrw hf hkept hcalm2 hlate hnew
  generalize hH : h0 ++ In.disc (.arrive A k t1) :: h1 ++ [.send A i m] = H at hr1 hsl hf hone
  have hcalmH : ∀ x ∈ H ++ h2, Calm B j x := by
    intro x hx
    rcases List.mem_append.1 hx with hx | hx
    · rw [← hH] at hx
      rcases List.mem_append.1 hx with hx | hx
      · exact hcalm x hx
      · simp only [List.mem_singleton] at hx; subst hx; intro j' i' h; cases h
    · exact hcalm2 x hx
  -- the worlds in between
  have hall : run C P {} (H ++ (h2 ++ .arrive B j c :: h3)) = some w := by
    rw [run_append, hr1]; exact hrw
  obtain ⟨w2, hr2, hr2'⟩ := run_split hrw
  have hall2 : run C P {} (H ++ h2) = some w2 := by rw [run_append, hr1]; exact hr2
  have hnet12 := net_run hr2
  have hnet2 := net_run hr2'
  have hok : ∀ c ∈ w.net, CopyOk c := fun c hm => copy_ok hf ((pubs_inv C P _ w hall).2 c hm) hm
  have hok2 : ∀ c ∈ w2.net, CopyOk c := by
    obtain ⟨l, hl⟩ := hnet2
    intro c hm; apply hok; rw [hl]; exact List.mem_append_left _ hm
  have hok1 : ∀ c ∈ w1.net, CopyOk c := by
    obtain ⟨l, hl⟩ := hnet12
    intro c hm; apply hok2; rw [hl]; exact List.mem_append_left _ hm
  have hsl2 : Disc.SubLives B j topic (found C (H ++ h2)) := by
    rw [found_append]; exact hsl.more hkept
  -- the subscriber before the arrival
  obtain ⟨b2, a2, hb2, htop2, hq2⟩ : ∃ b a, w2.sub B j = some b ∧ b.topic = topic ∧
      SubQ C (fun c => c ∈ w1.net) B j b a := by
    obtain ⟨f1, f2, he, _, hkk⟩ := hsl2
    obtain ⟨g1, x, g2, hsplit, hx, _, hg2⟩ := found_split he
    rw [fix_newSub] at hx
    subst hx
    have e : g1 ++ In.disc (.newSub B j topic) :: g2 = (g1 ++ [In.disc (.newSub B j topic)]) ++ g2 := by simp
    have hall2' := hall2
    rw [hsplit, e] at hall2'
    obtain ⟨wa, ha1, ha2⟩ := run_split hall2'
    obtain ⟨wb, _, hb'⟩ := run_snoc ha1
    obtain ⟨hborn, hq⟩ := sub_born (fun c => c ∈ w1.net) hb'
    have := sub_run (Q := fun c => c ∈ w1.net) g2 wa w2 ha2 (by rw [hg2]; exact hkk)
      (fun x hx => hcalmH x (by rw [hsplit]; simp [hx])) hok2 ?_ _ [] hborn hq
    · obtain ⟨b', a', e1, e2, e3⟩ := this
      exact ⟨b', a', e1, e2, e3⟩
    · intro u1 j' kk u2 hu2 wg hwg cc hcc
      have hrun : run C P {} ((g1 ++ [In.disc (.newSub B j topic)]) ++ u1) = some wg := by
        rw [run_append, ha1]; exact hwg
      have hs2 : H ++ h2 = ((g1 ++ [In.disc (.newSub B j topic)]) ++ u1) ++ .arrive B j' kk :: u2 := by
        rw [hsplit, e, hu2]; simp
      rcases split_here hs2 with ⟨y, hy⟩ | ⟨y, hy1, hy2⟩
      · -- before the message was sent
        rw [hy] at hr1
        obtain ⟨wx, hx1, hx2⟩ := run_split hr1
        rw [hrun] at hx1
        simp only [Option.some.injEq] at hx1
        subst hx1
        obtain ⟨l, hl⟩ := net_run hx2
        rw [hl]
        exact List.mem_append_left _ (List.mem_of_getElem? hcc)
      · rw [hy1, run_append, hr1] at hrun
        obtain ⟨l, hl⟩ := net_run (show run C P w1 y = some wg from hrun)
        have hlt := hlate j' kk (by rw [hy2]; simp)
        rw [hl, List.getElem?_append_left hlt] at hcc
        exact List.mem_of_getElem? hcc
  -- the arrival
  have hstep : ∃ w3, step C P w2 (.arrive B j c) = some w3 ∧ run C P w3 h3 = some w := by
    simp only [run] at hr2'
    split at hr2'
    · cases hr2'
    · next w3 hs => exact ⟨w3, hs, hr2'⟩
  obtain ⟨w3, hs3, hr3⟩ := hstep
  have hc2 : w2.net[c]? = some (names P A i topic, s) := by
    obtain ⟨l, hl⟩ := hnet12
    rw [hl, List.getElem?_append_left (List.getElem?_eq_some_iff.1 hc).1]
    exact hc
  obtain ⟨inp, hinp⟩ := Option.isSome_iff_exists.1 harr
  have hin : input C w2 B j inp = some w3 := by
    simp only [step, arriveAt, hc2, hinp] at hs3
    rw [if_pos] at hs3
    · exact hs3
    · right; right
      rw [hb2]
      simp [htop2, names]
  obtain ⟨b3, htk, hb3⟩ := input_take hin hb2
  obtain ⟨r, hr, rfl⟩ := take_some htk
  have harmed : w2.armed B = true := armed_run (H ++ h2) {} w2 hall2 hcalmH hok2 rfl
  have hhas : has w2 B (names P A i topic).topic = true := by
    obtain ⟨o, ho, _, hnm⟩ := Disc.sub_there P B j topic _ hsl2
    unfold has
    rw [List.any_eq_true]
    refine ⟨o, ?_, by simp [hnm, names]⟩
    rw [show w2.disc = _ from disc_run hall2]
    exact ho
  have hcok := hok2 _ (List.mem_of_getElem? hc2)
  obtain ⟨r', hr', e1, e2⟩ := arrival_pos (C.rc B j) (has w2 B)
    { b2.rcv with armed := w2.armed B } (names P A i topic) s inp hinp hcok hhas harmed
  rw [show (names P A i topic).topic = b2.topic by rw [htop2]; rfl, hr] at hr'
  simp only [Option.some.injEq] at hr'
  subst hr'
  have hevs : r.evs = (Reader.run (C.rc B j) Reader.init (a2 ++ [.sample s])).2 := by
    rw [e2, reader_run_snoc]
    simp only [hq2.rd, hq2.evs]
  -- the message is delivered
  have hmemc := List.mem_of_getElem? hc
  have hpub := (pubs_inv C P _ w1 hr1).2
  have hlen : H.length < 2 ^ 63 := by
    have := hf.len
    rw [List.length_append] at this
    omega
  have own : ∀ n x, (n, x) ∈ w1.net → n.tid = (P A).ptid i → ∃ kk mm l, x = Writer.copyOf (wcfg C P A i) kk mm l ∧
      kk < 2 ^ 63 := by
    intro n x hm ht
    obtain ⟨p, i', t, mm, l, kk, f1, _, _, f2, f3⟩ := hpub _ hm
    simp only at f1 f2
    subst f1
    obtain ⟨rfl, rfl⟩ := hu p i' ht
    exact ⟨kk, mm, l, f2, by omega⟩
  obtain ⟨kk, mm, l, hs1, hs2⟩ := own _ _ hmemc rfl
  obtain ⟨x, hx, hx1, hx2⟩ := newest_delivered (C.rc B j) hdrop a2 hq2.calm s (by
      rw [hlay]
      obtain ⟨_, _, _, hboth, _⟩ := hL
      rcases hboth with ⟨rfl, _, h⟩ | ⟨rfl, _, h⟩ | ⟨rfl, _, h⟩ <;> exact h)
    (by
      intro y hy hh
      obtain ⟨n, hm, _⟩ := hq2.from_ y hy
      have := hcol _ hm _ hmemc hh
      obtain ⟨ky, my, ly, hy1, hy2⟩ := own n y hm this
      refine ⟨by rw [hy1, hs1]; rfl, ?_⟩
      rw [hy1, hs1] at hh
      have := Writer.sndHash_inj (wcfg C P A i) ky kk hy2 hs2 (BitVec.eq_of_toNat_eq hh)
      rw [hy1, hs1, this]
      rfl)
    (by
      intro y hy ht
      obtain ⟨n, hm, _⟩ := hq2.from_ y hy
      have hn : n.tid = (P A).ptid i := by
        have := (hok1 _ hm).2.2.1
        simp only at this
        rw [ht, htid] at this
        exact (str_inj this).symm
      obtain ⟨pb, hpb, _, _, hle⟩ := log_inv C P A i hu H w1 hr1 hone n y hm hn
      rw [hpb] at hclk
      simp only [Option.map_some, Option.some.injEq] at hclk
      omega)
  -- it carries the message
  have hxm : Writer.strip x = m.strip := by
    rw [← hstrip]
    rcases (arrivals_snoc _ _ _).1 (Writer.reader_delivers_arrivals _ _ _ x hx) with hx' | hx'
    · obtain ⟨n, hm, _⟩ := hq2.from_ x hx'
      have hn : n.tid = (P A).ptid i := by
        have := (hok1 _ hm).2.2.1
        simp only at this
        rw [hx1, htid] at this
        exact (str_inj this).symm
      exact same_message C P A i hu H w1 hr1 hone n _ x s hm hmemc hn rfl hx2
    · injection hx' with hx'
      rw [hx']
  -- and stays the only one
  obtain ⟨b, hb, l', hl'⟩ := evs_run h3 w3 w hr3 hnew _ hb3
  refine ⟨b, x, hb, ?_, hxm⟩
  obtain ⟨a, ha⟩ := subs_inv C P _ w hall hf B j b hb
  apply filter_one
  · rw [ha.evs]
    exact Reader.C06_at_most_once_ordered_partial (C.rc B j) hdrop a
  · rw [hl', Reader.delivered_append]
    apply List.mem_append_left
    simp only
    rw [hevs]
    exact hx
  · rw [hx1, htid]
  · exact hx2

/-! ## Non-vacuity -/

/-- Processes on different hosts with different ids for all publishers and subscribers. -/
def exP (p : Nat) : Proc :=
  { host := List.replicate (p + 1) 104, group := List.replicate (p + 1) 103, pid := .ofNat 32 (100 + p),
    network := true, loopback := false, timeout := 10,
    ptid := fun i => List.replicate p 112 ++ 113 :: List.replicate i 114,
    stid := fun j => List.replicate (j + 1) 115 }

/-- Remote subscribers are served by UDP in preference to TCP. -/
def exC : Cfg :=
  { wc := fun _ _ => ⟨true, true, true, [.shm, .udp, .tcp], [.udp, .tcp], false, "", "", 0⟩
    rc := fun _ _ => ⟨true, true, true, true⟩ }

def exH0 : List In :=
  [.disc (.newPub 0 1 [116]), .disc (.newSub 1 2 [116]), .disc (.collect 1 0 Disc.noInfo Disc.noInfo),
   .disc (.flush 1)]

def exM : Writer.Msg := ⟨[1, 2, 3], 7, 5⟩

/-- The whole way: discovery, registration cycle of the publisher, send, arrival (twice). -/
def exH : List In :=
  exH0 ++ [.disc (.arrive 0 0 1), .disc (.collect 0 2 Disc.noInfo Disc.noInfo), .send 0 1 exM, .arrive 1 2 0,
    .arrive 1 2 0, .noise 1 2 (.app .read)]

/-- The message is delivered once; the receiver goes on listening. -/
example : (run exC exP {} exH).map (fun w =>
    (w.sub 1 2).map (fun b => (Reader.delivered b.rcv.evs).map Reader.Sample.payload)) = some (some [[1, 2, 3]]) ∧
    (run exC exP {} exH).map (fun w => (w.net.length, w.armed 1)) = some (1, true) := by decide +kernel

/-- It went over UDP, from a publisher that was created once and a subscriber that lives. -/
example : (run exC exP {} (exH.take 7)).map (fun w => w.net.map (fun c => (c.2.layer, c.2.clock))) =
    some [(.udp, 1)] := by decide +kernel

example : Preferred (exC.wc 0 1) (exC.rc 1 2) ((exP 1).host = (exP 0).host) .udp :=
  ⟨[], [.tcp], .inr ⟨by simp [exP], rfl⟩, .inl ⟨rfl, rfl, rfl⟩, by simp⟩

example : Disc.PubLives 0 1 [116] (found exC exH0) ∧ Disc.SubLives 1 2 [116] (found exC (exH.take 7)) ∧
    Disc.Mono 0 0 (found exC (exH.take 6)) := by
  refine ⟨⟨[], (found exC exH0).drop 1, rfl, ?_, ?_⟩,
    ⟨[.newPub 0 1 [116]], (found exC (exH.take 7)).drop 2, rfl, ?_, ?_⟩, ?_⟩ <;>
    simp [Disc.PubKept, Disc.SubKept, found, exH, exH0, fix, Disc.Mono, Disc.clock]

/-- Publishers and subscribers have unique names. -/
example (A i : Nat) : ∀ p' i', (exP p').ptid i' = (exP A).ptid i → p' = A ∧ i' = i := by
  intro p' i' h
  simp only [exP] at h
  have h1 := congrArg (List.count 112) h
  have h2 := congrArg (List.count 114) h
  simp [List.count_replicate] at h1 h2
  exact ⟨h1, h2⟩

example (B j : Nat) : ∀ B' j', Disc.speer (exP B') j' = Disc.speer (exP B) j → B' = B ∧ j' = j := by
  intro B' j' h
  simp only [Disc.speer, exP, Conn.Peer.mk.injEq] at h
  have h1 := congrArg List.length (str_inj h.1)
  have h2 := congrArg List.length (str_inj h.2.2)
  simp only [List.length_replicate] at h1 h2
  omega

example : ∀ x ∈ exH, Calm 1 2 x := by
  simp [exH, exH0, Calm]

/-- The registration is there and can be sent. -/
example : (run exC exP {} exH0).map (fun w => w.disc.net.map (fun m => (m.cmd, m.hostName, m.topic.tname))) =
    some [(3, [104, 104], [116])] ∧
    (run exC exP {} exH0).map (fun w => w.disc.net.all (fun m => m.topic.attr.isEmpty &&
      decide ((Wire.serializeReg m).length < 1000))) = some true := by decide +kernel

example (w : World) (h : run exC exP {} exH = some w) : Fine exP exH w := by
  have hs : (run exC exP {} exH).map (fun w => w.net.all (fun c =>
      decide ((datagram c.1 c.2).length < 1000 ∧ c.2.payload.length < 1000))) = some true := by decide +kernel
  rw [h] at hs
  simp only [Option.map_some, Option.some.injEq, List.all_eq_true, decide_eq_true_eq] at hs
  refine ⟨by simp [exP], ?_, ?_, by decide, ?_⟩
  · intro p i t hm
    simp [exH, exH0] at hm
    rw [hm.2.2]
    simp [TopicOk]
  · intro p i m hm
    simp [exH, exH0] at hm
    rw [hm.2.2]
    simp [MsgOk, exM]
  · intro c hc
    have := hs c hc
    exact ⟨by omega, by omega⟩

/-- A publisher for UDP only and a subscriber for shared memory only. -/
def loneC : Cfg :=
  { wc := fun _ _ => ⟨true, false, false, [.shm, .udp, .tcp], [.udp, .tcp], false, "", "", 0⟩
    rc := fun _ _ => ⟨false, true, false, true⟩ }

/-- Both are told that they are connected, and no layer is started. -/
theorem lone_state : ∃ w b, run loneC exP {} (Disc.exH.map .disc) = some w ∧
    Disc.knows (w.disc.st 0).pg (Disc.speer (exP 1) 2) = true ∧
    Disc.knows (w.disc.st 1).sg (Disc.ppeer (exP 0) 1) = true ∧ w.pub 0 1 = some b ∧ b.st.subs.length = 1 ∧
    b.st.udp = false ∧ b.st.shm = false ∧ b.st.tcp = false ∧ w.net = [] := by
  have h1 : (run loneC exP {} (Disc.exH.map .disc)).isSome = true := by decide +kernel
  obtain ⟨w, hw⟩ := Option.isSome_iff_exists.1 h1
  have h2 : (run loneC exP {} (Disc.exH.map .disc)).map (fun w => (w.pub 0 1).map (fun b =>
      (b.st.subs.length, b.st.udp, b.st.shm, b.st.tcp))) = some (some (1, false, false, false)) := by
    decide +kernel
  have h3 : (run loneC exP {} (Disc.exH.map .disc)).map (fun w =>
      (Disc.knows (w.disc.st 0).pg (Disc.speer (exP 1) 2), Disc.knows (w.disc.st 1).sg (Disc.ppeer (exP 0) 1),
        w.net.length)) = some (true, true, 0) := by decide +kernel
  rw [hw] at h2 h3
  simp only [Option.map_some, Option.some.injEq, Prod.mk.injEq] at h2 h3
  obtain ⟨b, hb, hb2⟩ := Option.map_eq_some_iff.1 h2
  simp only [Prod.mk.injEq] at hb2
  exact ⟨w, b, hw, h3.1, h3.2.1, hb, hb2.1, hb2.2.1, hb2.2.2.1, hb2.2.2.2, List.eq_nil_of_length_eq_zero h3.2.2⟩

/-- **C111 violated (connected, but nothing arrives).** The publisher offers UDP only and the subscriber listens
on shared memory only.  They find each other, and both are told that they are connected; the publisher counts a
subscriber, but whatever it sends, no message is handed to any layer. -/
theorem C111_violated_connected_without_layer (ms : List Writer.Msg) :
    ∃ w, run loneC exP {} (Disc.exH.map .disc ++ ms.map (.send 0 1)) = some w ∧
      Disc.knows (w.disc.st 0).pg (Disc.speer (exP 1) 2) = true ∧
      Disc.knows (w.disc.st 1).sg (Disc.ppeer (exP 0) 1) = true ∧
      (w.pub 0 1).map (fun b => b.st.subs.length) = some 1 ∧ w.net = [] := by
  obtain ⟨w, b, hw, h1, h2, h3, h4, h5, h6, h7, h8⟩ := lone_state
  rw [run_append, hw]
  simp only [Option.bind_some]
  clear hw
  induction ms generalizing w b with
  | nil => exact ⟨w, rfl, h1, h2, by rw [h3]; simp [h4], h8⟩
  | cons m ms ih =>
    have e : ∃ b', b'.st.subs = b.st.subs ∧ b'.st.udp = b.st.udp ∧ b'.st.shm = b.st.shm ∧ b'.st.tcp = b.st.tcp ∧
        step loneC exP w (.send 0 1 m) = some { w with
          pub := fun q i' => if q = 0 ∧ i' = 1 then some b' else w.pub q i', net := w.net ++ [] } := by
      have hnil : (Writer.step (wcfg loneC exP 0 1) b.st (.send m)).2 = [] ∧
          (Writer.step (wcfg loneC exP 0 1) b.st (.send m)).1.subs = b.st.subs ∧
          (Writer.step (wcfg loneC exP 0 1) b.st (.send m)).1.udp = b.st.udp ∧
          (Writer.step (wcfg loneC exP 0 1) b.st (.send m)).1.shm = b.st.shm ∧
          (Writer.step (wcfg loneC exP 0 1) b.st (.send m)).1.tcp = b.st.tcp := by
        simp only [Writer.step]
        split
        · exact ⟨rfl, rfl, rfl, rfl, rfl⟩
        · split
          · exact ⟨rfl, rfl, rfl, rfl, rfl⟩
          · simp [Writer.write, h5, h6, h7]
      refine ⟨{ b with st := (Writer.step (wcfg loneC exP 0 1) b.st (.send m)).1, log := b.log ++ [.send m] },
        hnil.2.1, hnil.2.2.1, hnil.2.2.2.1, hnil.2.2.2.2, ?_⟩
      simp only [step, h3, hnil.1, List.any_nil, Bool.false_eq_true, if_false, List.map_nil]
    obtain ⟨b', e1, e2, e3, e4, e5⟩ := e
    simp only [List.map_cons, run, e5]
    exact ih _ b' h1 h2 (by simp) (by rw [e1]; exact h4) (by rw [e2]; exact h5) (by rw [e3]; exact h6)
      (by rw [e4]; exact h7) (by simp [h8])

end Ecal.E2E.Flow
