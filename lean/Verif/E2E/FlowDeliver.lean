import Verif.E2E.FlowProps
import Verif.E2E.DiscFindProps

/-! # Lemmas for C111: a known subscriber gets the message -/

namespace Ecal.E2E.Flow

open Ecal.Wire (RegSample RTopic)
open Ecal.E2E.Disc (Proc)

/-! ## Specification -/

/-- The part of a history that concerns discovery. -/
def found (C : Cfg) (h : List In) : List Disc.In :=
  h.filterMap (fun x => match x with | .disc x => some (fix C x) | _ => none)

/-- Both sides are configured for the layer. -/
def Both (wc : Writer.Config) (rc : Reader.Config) (l : Writer.TL) : Prop :=
  (l = .udp ∧ wc.udp = true ∧ rc.udp = true) ∨ (l = .shm ∧ wc.shm = true ∧ rc.shm = true) ∨
    (l = .tcp ∧ wc.tcp = true ∧ rc.tcp = true)

/-- The first layer in the publisher's order of preference (for the same or for another host) both sides are
configured for. -/
def Preferred (wc : Writer.Config) (rc : Reader.Config) (sameHost : Prop) (l : Writer.TL) : Prop :=
  ∃ pre post, ((sameHost ∧ wc.prioLocal = pre ++ l :: post) ∨ (¬ sameHost ∧ wc.prioRemote = pre ++ l :: post)) ∧
    Both wc rc l ∧ ∀ x ∈ pre, ¬ Both wc rc x

/-- The layer a copy goes over. -/
def layerOf : Writer.TL → Reader.Layer
  | .udp => .udp
  | .shm => .shm
  | .tcp => .tcp
  | .unknown => .other

/-- At subscriber `j` of process `B` nothing but samples and calls of `Receive`, adding and removing callbacks;
no UDP datagrams of others at the process. -/
def Calm (B j : Nat) (x : In) : Prop :=
  ∀ j' i, x = .noise B j' i → (∀ e, i ≠ .udp e) ∧
    (j' = j → i = .app .read ∨ i = .app .addCb ∨ i = .app .remCb)

/-! ## The subscriber -/

/-- What holds after the calls `a`. -/
structure Heard (c : Reader.Config) (a : List Reader.Op) : Prop where
  created : (Reader.run c Reader.init a).1.created = true
  ids     : (Reader.run c Reader.init a).1.idSet = []
  hash    : ∀ q ∈ (Reader.run c Reader.init a).1.hashQ, ∃ x ∈ Reader.arrivals a, x.hash = q ∧
    ∃ k, (Reader.run c Reader.init a).1.clocks.find x.tid = some k ∧ x.clock ≤ k
  clocks  : ∀ t k, (Reader.run c Reader.init a).1.clocks.find t = some k →
    ∃ x ∈ Reader.delivered (Reader.run c Reader.init a).2, x.tid = t ∧ x.clock = k

theorem mem_trim {q : Nat} {l : List Nat} (h : q ∈ Reader.trim l) : q ∈ l := List.mem_of_mem_drop h

theorem heard (c : Reader.Config) (hd : c.drop = true) (a : List Reader.Op) : Reader.Steady a → Heard c a := by
  refine snoc_ind (motive := fun a => Reader.Steady a → Heard c a) ?_ ?_ a
  · intro _
    exact ⟨rfl, rfl, (by intro q hq; cases hq), (by intro t k hk; cases hk)⟩
  · intro a op ih hs
    have ih := ih (fun o ho => hs o (List.mem_append_left _ ho))
    obtain ⟨i1, i2, i3, i4⟩ := ih
    have hop := hs op (by simp)
    have other : (Reader.step c (Reader.run c Reader.init a).1 op).1.created =
          (Reader.run c Reader.init a).1.created →
        (Reader.step c (Reader.run c Reader.init a).1 op).1.idSet = (Reader.run c Reader.init a).1.idSet →
        (Reader.step c (Reader.run c Reader.init a).1 op).1.hashQ = (Reader.run c Reader.init a).1.hashQ →
        (Reader.step c (Reader.run c Reader.init a).1 op).1.clocks = (Reader.run c Reader.init a).1.clocks →
        Heard c (a ++ [op]) := by
      intro e1 e2 e3 e4
      constructor
      · rw [reader_run_snoc]; rw [e1]; exact i1
      · rw [reader_run_snoc]; rw [e2]; exact i2
      · rw [reader_run_snoc]
        intro q hq
        simp only [e3] at hq
        obtain ⟨x, h1, h2, k, h3, h4⟩ := i3 q hq
        exact ⟨x, (arrivals_snoc _ _ _).2 (.inl h1), h2, k, by simp only [e4]; exact h3, h4⟩
      · rw [reader_run_snoc]
        intro t k hk
        simp only [e4] at hk
        obtain ⟨x, h1, h2⟩ := i4 t k hk
        refine ⟨x, ?_, h2⟩
        rw [Reader.delivered_append]
        exact List.mem_append_left _ h1
    cases op with
    | read =>
      apply other <;> simp only [Reader.step, Reader.read] <;> split <;> (try split) <;> rfl
    | addCb => apply other <;> simp only [Reader.step] <;> split <;> rfl
    | remCb => apply other <;> simp only [Reader.step] <;> split <;> rfl
    | setId ids => exact absurd rfl (hop.1 ids)
    | stop => exact absurd rfl hop.2
    | sample s =>
      have hc := Reader.applyCase c (Reader.run c Reader.init a).1 s
      have e : Reader.run c Reader.init (a ++ [.sample s]) =
          ((Reader.applySample c (Reader.run c Reader.init a).1 s).1,
            (Reader.run c Reader.init a).2 ++ (Reader.applySample c (Reader.run c Reader.init a).1 s).2) := by
        rw [reader_run_snoc]; rfl
      have osame : ∀ st', st'.created = (Reader.run c Reader.init a).1.created →
          st'.idSet = (Reader.run c Reader.init a).1.idSet →
          st'.hashQ = (Reader.run c Reader.init a).1.hashQ →
          st'.clocks = (Reader.run c Reader.init a).1.clocks →
          Reader.applySample c (Reader.run c Reader.init a).1 s = (st', []) → Heard c (a ++ [.sample s]) := by
        intro st' e1 e2 e3 e4 e5
        apply other <;> simp only [Reader.step, e5] <;> assumption
      generalize hr : Reader.applySample c (Reader.run c Reader.init a).1 s = r at hc
      rw [hr] at e
      cases hc with
      | ignored h => exact osame _ rfl rfl rfl rfl hr
      | dup hc hl h act => exact osame { (Reader.run c Reader.init a).1 with active := act } rfl rfl rfl rfl hr
      | filtered hc hl h hid act => exact absurd i2 hid.1
      | rejected hc hl h hid last hf hle act =>
        constructor
        · rw [e]; exact i1
        · rw [e]; exact i2
        · rw [e]
          intro q hq
          rcases List.mem_append.1 (mem_trim hq) with hq | hq
          · obtain ⟨x, h1, h2, k, h3, h4⟩ := i3 q hq
            exact ⟨x, (arrivals_snoc _ _ _).2 (.inl h1), h2, k, h3, h4⟩
          · simp only [List.mem_singleton] at hq
            refine ⟨s, (arrivals_snoc _ _ _).2 (.inr rfl), hq.symm, last, hf, ?_⟩
            rcases hle with h | h <;> omega
        · rw [e]
          intro t k hk
          obtain ⟨x, h1, h2⟩ := i4 t k hk
          exact ⟨x, by simpa using h1, h2⟩
      | accepted hc hl h hid g evs hcase act b hb =>
        constructor
        · rw [e]; exact i1
        · rw [e]; exact i2
        · rw [e]
          intro q hq
          rcases List.mem_append.1 (mem_trim hq) with hq | hq
          · obtain ⟨x, h1, h2, k, h3, h4⟩ := i3 q hq
            simp only [AMap.find_set]
            by_cases ht : x.tid = s.tid
            · refine ⟨x, (arrivals_snoc _ _ _).2 (.inl h1), h2, s.clock, by simp [ht], ?_⟩
              rw [ht] at h3
              rcases hcase with ⟨hn, _⟩ | ⟨last, hf, hlt, _⟩
              · rw [hn] at h3; cases h3
              · rw [hf] at h3; injection h3 with h3; omega
            · exact ⟨x, (arrivals_snoc _ _ _).2 (.inl h1), h2, k, by simp [Ne.symm ht, h3], h4⟩
          · simp only [List.mem_singleton] at hq
            exact ⟨s, (arrivals_snoc _ _ _).2 (.inr rfl), hq.symm, s.clock, by simp,
              Int.le_refl _⟩
        · rw [e]
          intro t k hk
          simp only [AMap.find_set] at hk
          rw [Reader.delivered_append, Reader.delivered_append, Reader.delivered_end]
          by_cases ht : t = s.tid
          · simp only [ht, if_true, Option.some.injEq] at hk
            exact ⟨s, by simp, ht.symm, hk⟩
          · have : (Reader.run c Reader.init a).1.clocks.find t = some k := by
              simpa [ht, Ne.symm ht] using hk
            obtain ⟨x, h1, h2⟩ := i4 t k this
            exact ⟨x, by simp [h1], h2⟩
      | late hc hl h hid hd' => rw [hd] at hd'; cases hd'

/-- A sample of the highest counter so far is delivered, now or before. -/
theorem newest_delivered (c : Reader.Config) (hd : c.drop = true) (a : List Reader.Op) (hs : Reader.Steady a)
    (s : Reader.Sample) (hl : Reader.layerEnabled c s.layer = true)
    (hh : ∀ x ∈ Reader.arrivals a, x.hash = s.hash → x.tid = s.tid ∧ x.clock = s.clock)
    (hk : ∀ x ∈ Reader.arrivals a, x.tid = s.tid → x.clock ≤ s.clock) :
    ∃ x ∈ Reader.delivered (Reader.run c Reader.init (a ++ [.sample s])).2, x.tid = s.tid ∧
      x.clock = s.clock := by
  obtain ⟨i1, i2, i3, i4⟩ := heard c hd a hs
  have old : ∀ k, (Reader.run c Reader.init a).1.clocks.find s.tid = some k → s.clock ≤ k →
      ∃ x ∈ Reader.delivered (Reader.run c Reader.init a).2, x.tid = s.tid ∧ x.clock = s.clock := by
    intro k h1 h2
    obtain ⟨x, h3, h4, h5⟩ := i4 _ _ h1
    have := hk x (Writer.reader_delivers_arrivals _ _ _ x h3) h4
    exact ⟨x, h3, h4, by omega⟩
  have hc := Reader.applyCase c (Reader.run c Reader.init a).1 s
  have e : Reader.run c Reader.init (a ++ [.sample s]) =
      ((Reader.applySample c (Reader.run c Reader.init a).1 s).1,
        (Reader.run c Reader.init a).2 ++ (Reader.applySample c (Reader.run c Reader.init a).1 s).2) := by
    rw [reader_run_snoc]; rfl
  rw [e]
  simp only [Reader.delivered_append, List.mem_append]
  have lift : (∃ x ∈ Reader.delivered (Reader.run c Reader.init a).2, x.tid = s.tid ∧ x.clock = s.clock) →
      ∃ x, (x ∈ Reader.delivered (Reader.run c Reader.init a).2 ∨
        x ∈ Reader.delivered (Reader.applySample c (Reader.run c Reader.init a).1 s).2) ∧ x.tid = s.tid ∧
        x.clock = s.clock := fun ⟨x, h1, h2⟩ => ⟨x, .inl h1, h2⟩
  generalize Reader.applySample c (Reader.run c Reader.init a).1 s = r at hc lift
  cases hc with
  | ignored h =>
    rcases h with h | h
    · rw [i1] at h; cases h
    · rw [hl] at h; cases h
  | dup hc hl h act =>
    apply lift
    obtain ⟨x, h1, h2, k, h3, h4⟩ := i3 _ h
    obtain ⟨h5, h6⟩ := hh x h1 h2
    rw [h5] at h3
    exact old k h3 (by omega)
  | filtered hc hl h hid act => exact absurd i2 hid.1
  | rejected hc hl h hid last hf hle act =>
    apply lift
    exact old last hf (by rcases hle with h | h <;> omega)
  | accepted hc hl h hid g evs hcase act b hb =>
    refine ⟨s, .inr ?_, rfl, rfl⟩
    rw [Reader.delivered_append, Reader.delivered_end]
    simp
  | late hc hl h hid hd' => rw [hd] at hd'; cases hd'

/-! ## Discovery -/

theorem found_append (C : Cfg) (a b : List In) : found C (a ++ b) = found C a ++ found C b := by
  simp [found]

theorem found_mem {C : Cfg} {h : List In} {y : Disc.In} (hy : y ∈ found C h) : ∃ x, In.disc x ∈ h ∧ y = fix C x := by
  obtain ⟨x, h1, h2⟩ := List.mem_filterMap.1 hy
  cases x with
  | disc x => simp only [Option.some.injEq] at h2; exact ⟨x, h1, h2.symm⟩
  | send p i m => cases h2
  | arrive p j k => cases h2
  | noise p j i => cases h2

theorem mem_found {C : Cfg} {h : List In} {x : Disc.In} (hx : In.disc x ∈ h) : fix C x ∈ found C h :=
  List.mem_filterMap.2 ⟨_, hx, rfl⟩

theorem disc_step {C : Cfg} {P : Nat → Proc} {w w' : World} {x : In} (h : step C P w x = some w') :
    w'.disc = Disc.run P w.disc (found C [x]) := by
  cases x with
  | disc x => simp only [step, Option.some.injEq] at h; subst h; rfl
  | send p i m =>
    rcases send_cases h with ⟨_, rfl⟩ | ⟨b, _, _, _, h4, _⟩
    · rfl
    · rw [h4]; rfl
  | arrive p j k => rw [(arriveAt_same h).1]; rfl
  | noise p j i => rw [(input_same h).1]; rfl

theorem disc_run {C : Cfg} {P : Nat → Proc} {h : List In} {w w' : World} (hr : run C P w h = some w') :
    w'.disc = Disc.run P w.disc (found C h) := by
  induction h generalizing w with
  | nil => simp only [run, Option.some.injEq] at hr; subst hr; rfl
  | cons x h ih =>
    simp only [run] at hr
    split at hr
    · cases hr
    · next w1 hs =>
      rw [ih hr, disc_step hs, ← Disc.run_append, ← found_append]; rfl

/-- Registrations of subscribers announce the layers the subscriber is configured for. -/
def Ann (C : Cfg) (P : Nat → Proc) (m : RegSample) : Prop :=
  m.cmd = 3 → ∃ q o, ∃ info : RTopic,
    m = Disc.subSample (P q) { info with tlayer := annLayers (C.rc q o.id) info.tlayer } o

structure AnnInv (C : Cfg) (P : Nat → Proc) (w : Disc.World) : Prop where
  net     : ∀ m ∈ w.net, Ann C P m
  out     : ∀ q l, (w.st q).out = some l → ∀ m ∈ l, Ann C P m
  pending : ∀ q, ∀ m ∈ (w.st q).pending, Ann C P m

theorem ann_step (C : Cfg) (P : Nat → Proc) (w : Disc.World) (x : Disc.In) (hi : AnnInv C P w) :
    AnnInv C P (Disc.step P w (fix C x)) := by
  have np : ∀ A info o, Ann C P (Disc.pubSample A info o) := by
    intro A info o h; simp [Disc.pubSample] at h
  refine ⟨?_, ?_, ?_⟩
  · intro m hm
    simp only [Disc.step, Disc.net'] at hm
    split at hm
    · next p _ =>
      split at hm
      · next l hl =>
        rcases List.mem_append.1 hm with hm | hm
        · exact hi.net m hm
        · exact hi.out p l hl m hm
      · exact hi.net m hm
    · next p _ =>
      split at hm
      · next l hl =>
        rcases List.mem_append.1 hm with hm | hm
        · exact hi.net m hm
        · rcases List.mem_append.1 hm with hm | hm
          · exact hi.out p l hl m hm
          · exact hi.pending p m hm
      · exact hi.net m hm
    · exact hi.net m hm
  · intro q l hl m hm
    simp only [Disc.step] at hl
    cases x with
    | collect p now iS iP =>
      simp only [fix, Disc.out'] at hl
      split at hl
      · next hc =>
        simp only [Option.some.injEq] at hl
        subst hl
        rcases List.mem_append.1 hm with hm | hm
        · obtain ⟨o, _, rfl⟩ := List.mem_map.1 hm
          intro _
          exact ⟨q, o, iS o.id, by rw [hc.1]⟩
        · obtain ⟨o, _, rfl⟩ := List.mem_map.1 hm
          exact np _ _ _
      · exact hi.out q l hl m hm
    | send p =>
      simp only [fix, Disc.out'] at hl
      split at hl
      · cases ho : (w.st q).out with
        | none => simp [ho] at hl
        | some l' => simp [ho] at hl; subst hl; cases hm
      · exact hi.out q l hl m hm
    | flush p =>
      simp only [fix, Disc.out'] at hl
      split at hl
      · cases hl
      · exact hi.out q l hl m hm
    | newPub p i t => exact hi.out q l hl m hm
    | newSub p i t => exact hi.out q l hl m hm
    | delPub p i t info => exact hi.out q l hl m hm
    | delSub p i t info => exact hi.out q l hl m hm
    | again p i info => exact hi.out q l hl m hm
    | other p m' => exact hi.out q l hl m hm
    | arrive p k now => exact hi.out q l hl m hm
  · intro q m hm
    simp only [Disc.step] at hm
    cases x with
    | delPub p i t info =>
      simp only [fix, Disc.pending'] at hm
      split at hm
      · rcases List.mem_append.1 hm with hm | hm
        · exact hi.pending q m hm
        · simp only [List.mem_singleton] at hm
          subst hm
          intro h; simp [Disc.pubGone] at h
      · exact hi.pending q m hm
    | delSub p i t info =>
      simp only [fix, Disc.pending'] at hm
      split at hm
      · rcases List.mem_append.1 hm with hm | hm
        · exact hi.pending q m hm
        · simp only [List.mem_singleton] at hm
          subst hm
          intro h; simp [Disc.subGone] at h
      · exact hi.pending q m hm
    | again p i info =>
      simp only [fix, Disc.pending'] at hm
      split at hm
      · rcases List.mem_append.1 hm with hm | hm
        · exact hi.pending q m hm
        · obtain ⟨o, _, rfl⟩ := List.mem_map.1 hm
          exact np _ _ _
      · exact hi.pending q m hm
    | other p m' =>
      simp only [fix, Disc.pending'] at hm
      split at hm
      · next hc =>
        rcases List.mem_append.1 hm with hm | hm
        · exact hi.pending q m hm
        · simp only [List.mem_singleton] at hm
          subst hm
          intro h
          have := hc.2
          simp [Disc.isTopic, h] at this
      · exact hi.pending q m hm
    | flush p =>
      simp only [fix, Disc.pending'] at hm
      split at hm
      · cases hm
      · exact hi.pending q m hm
    | newPub p i t => exact hi.pending q m hm
    | newSub p i t => exact hi.pending q m hm
    | collect p now iS iP => exact hi.pending q m hm
    | send p => exact hi.pending q m hm
    | arrive p k now => exact hi.pending q m hm

theorem ann_run (C : Cfg) (P : Nat → Proc) (h : List In) (w : Disc.World) (hi : AnnInv C P w) :
    AnnInv C P (Disc.run P w (found C h)) := by
  induction h generalizing w with
  | nil => exact hi
  | cons x h ih =>
    have : found C (x :: h) = found C [x] ++ found C h := by rw [← found_append]; rfl
    rw [this, Disc.run_append]
    apply ih
    cases x with
    | disc x => exact ann_step C P w x hi
    | send p i m => exact hi
    | arrive p j k => exact hi
    | noise p j i => exact hi

theorem annInv_init (C : Cfg) (P : Nat → Proc) : AnnInv C P {} :=
  ⟨(by intro m hm; cases hm), (by intro q l hl; cases hl), (by intro q m hm; cases hm)⟩

/-- The layers as the publisher reads them. -/
theorem announced_iff (c : Reader.Config) (old : List Wire.TLayer) (l : Writer.TL) :
    Writer.Announced ((annLayers c old).map (fun l => ⟨Disc.ltype l.type, l.version.toInt, l.enabled⟩)) l ↔
      (l = .udp ∧ c.udp = true) ∨ (l = .shm ∧ c.shm = true) ∨ (l = .tcp ∧ c.tcp = true) := by
  have t1 : Disc.ltype 1 = .udp := rfl
  have t4 : Disc.ltype 4 = .shm := rfl
  have t5 : Disc.ltype 5 = .tcp := rfl
  have v : (2 : BitVec 32).toInt = 2 := rfl
  unfold Writer.Announced annLayers
  simp only [List.map_cons, List.map_nil, List.mem_cons, List.not_mem_nil, or_false, t1, t4, t5, v]
  constructor
  · rintro ⟨x, rfl | rfl | rfl, h1, h2⟩ <;> simp at h1 h2 <;> simp [h1, h2]
  · rintro (⟨rfl, h⟩ | ⟨rfl, h⟩ | ⟨rfl, h⟩)
    · exact ⟨_, .inl rfl, by simp [h], by simp⟩
    · exact ⟨_, .inr (.inl rfl), by simp [h], by simp⟩
    · exact ⟨_, .inr (.inr rfl), by simp [h], by simp⟩

/-- The preferred layer is the one the publisher wants. -/
theorem wanted_of_preferred (wc : Writer.Config) (rc : Reader.Config) (p : Conn.Peer) (ls : List Gate.Layer)
    (hls : ∀ l, Writer.Announced ls l ↔
      (l = .udp ∧ rc.udp = true) ∨ (l = .shm ∧ rc.shm = true) ∨ (l = .tcp ∧ rc.tcp = true))
    (L : Writer.TL) (hp : Preferred wc rc (p.host = wc.host) L) : Writer.Wanted wc p ls L := by
  obtain ⟨pre, post, h1, h2, h3⟩ := hp
  have both : ∀ l, Both wc rc l ↔ Writer.Configured wc l ∧ Writer.Announced ls l := by
    intro l
    rw [hls]
    unfold Both Writer.Configured
    cases l <;> simp
  rcases h1 with ⟨e, h1⟩ | ⟨e, h1⟩
  · exact .inl ⟨e, pre, post, h1, ((both L).1 h2).1, ((both L).1 h2).2, fun x hx hb => h3 x hx ((both x).2 hb)⟩
  · exact .inr ⟨e, pre, post, h1, ((both L).1 h2).1, ((both L).1 h2).2, fun x hx hb => h3 x hx ((both x).2 hb)⟩

/-! ## The publisher -/

/-- The publisher runs, has started layer `L` and knows `q`. -/
def Up (st : Writer.State) (L : Writer.TL) (q : Conn.Peer) : Prop :=
  st.created = true ∧ Writer.Started st L ∧ q ∈ st.subs

theorem subs_step (c : Writer.Config) (st : Writer.State) (op : Writer.Op) (q : Conn.Peer) (h1 : op ≠ .stop)
    (h2 : op ≠ .dropSub q) (h : q ∈ st.subs) : q ∈ (Writer.step c st op).1.subs := by
  have hst : ∀ o, (Writer.start st o).subs = st.subs := by
    intro o
    cases o with
    | none => rfl
    | some l => cases l <;> rfl
  cases op with
  | applySub p ls =>
    simp only [Writer.step, hst]
    split
    · exact h
    · exact List.mem_cons_of_mem _ h
  | dropSub p =>
    simp only [Writer.step, List.mem_filter]
    exact ⟨h, by simp; rintro rfl; exact h2 rfl⟩
  | send m =>
    simp only [Writer.step]
    split
    · exact h
    · split
      · exact h
      · exact h
  | stop => exact absurd rfl h1

theorem up_run (c : Writer.Config) (ops : List Writer.Op) (st : Writer.State) (L : Writer.TL) (q : Conn.Peer)
    (h1 : .stop ∉ ops) (h2 : .dropSub q ∉ ops) (h : Up st L q) : Up (Writer.run c st ops).1 L q := by
  induction ops generalizing st with
  | nil => exact h
  | cons op ops ih =>
    simp only [List.mem_cons, not_or] at h1 h2
    apply ih _ h1.2 h2.2
    refine ⟨?_, ?_, subs_step c st op q (Ne.symm h1.1) (Ne.symm h2.1) h.2.2⟩
    · rw [Writer.step_created c st op (Ne.symm h1.1)]; exact h.1
    · exact (Writer.step_started c st op L (Ne.symm h1.1)).2 (.inl h.2.1)

theorem created_run (c : Writer.Config) (ops : List Writer.Op) (st : Writer.State) (h1 : .stop ∉ ops)
    (h : st.created = true) : (Writer.run c st ops).1.created = true := by
  induction ops generalizing st with
  | nil => exact h
  | cons op ops ih =>
    simp only [List.mem_cons, not_or] at h1
    apply ih _ h1.2
    rw [Writer.step_created c st op (Ne.symm h1.1)]; exact h

/-- The subscription brings the publisher up. -/
theorem up_apply (c : Writer.Config) (st : Writer.State) (L : Writer.TL) (q : Conn.Peer) (ls : List Gate.Layer)
    (h : st.created = true) (hw : Writer.Wanted c q ls L) : Up (Writer.step c st (.applySub q ls)).1 L q := by
  refine ⟨?_, ?_, ?_⟩
  · rw [Writer.step_created c st _ (by simp)]; exact h
  · exact (Writer.step_started c st _ L (by simp)).2 (.inr ⟨q, ls, rfl, hw⟩)
  · simp only [Writer.step]
    by_cases hq : q ∈ (Writer.start st (Writer.determine (if c.host = q.host then c.prioLocal else c.prioRemote)
      (Writer.pubLayers c) (Writer.subLayers ls))).subs
    · rw [if_pos hq]; exact hq
    · rw [if_neg hq]; exact List.mem_cons_self

/-- A publisher that is up hands a copy to the layer. -/
theorem up_send (c : Writer.Config) (st : Writer.State) (L : Writer.TL) (q : Conn.Peer) (m : Writer.Msg)
    (h : Up st L q) : Writer.copyOf c (st.clock + 1) m (layerOf L) ∈ (Writer.step c st (.send m)).2 ∧
      (Writer.step c st (.send m)).1.clock = st.clock + 1 := by
  obtain ⟨h1, h2, h3⟩ := h
  have hne : st.subs.isEmpty = false := by
    cases hs : st.subs with
    | nil => rw [hs] at h3; cases h3
    | cons a b => rfl
  simp only [Writer.step, h1, Bool.not_true, Bool.false_eq_true, if_false, hne, Writer.write]
  refine ⟨?_, trivial⟩
  rcases h2 with ⟨rfl, h⟩ | ⟨rfl, h⟩ | ⟨rfl, h⟩ <;> simp [h, layerOf]

/-- No call stops a publisher that is not destroyed. -/
theorem no_stop (P : Nat → Proc) (w : World) (x : Disc.In) (p i : Nat) (b : Pub)
    (hx : ∀ t info, x ≠ .delPub p i t info) : .stop ∉ wops P w x p i b := by
  intro hm
  unfold wops at hm
  split at hm
  · obtain ⟨op, h1, h2⟩ := List.mem_flatMap.1 hm
    cases op with
    | create a b c => simp [wop] at h2
    | destroy i' n =>
      simp only [wop] at h2
      split at h2
      · next he =>
        obtain ⟨rfl, rfl⟩ := he
        cases x with
        | delPub p' i'' t info =>
          simp only [Disc.pubOps] at h1
          split at h1
          · next hp =>
            simp only [List.mem_singleton, Gate.POp.destroy.injEq] at h1
            exact hx t info (by rw [hp, h1.1])
          · cases h1
        | arrive p' k now =>
          simp only [Disc.pubOps] at h1
          split at h1
          · split at h1
            · next m _ =>
              unfold Disc.popsOf at h1
              split at h1 <;> simp at h1
            · cases h1
          · cases h1
        | newPub p' i'' t => simp only [Disc.pubOps] at h1; split at h1 <;> simp at h1
        | collect p' now iS iP => simp only [Disc.pubOps] at h1; split at h1 <;> simp at h1
        | newSub p' i'' t => simp [Disc.pubOps] at h1
        | delSub p' i'' t info => simp [Disc.pubOps] at h1
        | again p' i'' info => simp [Disc.pubOps] at h1
        | other p' m => simp [Disc.pubOps] at h1
        | send p' => simp [Disc.pubOps] at h1
        | flush p' => simp [Disc.pubOps] at h1
      · cases h2
    | subReg n r => simp only [wop] at h2; split at h2 <;> simp at h2
    | subUnreg n r => simp only [wop] at h2; split at h2 <;> simp at h2
    | cycle n => simp [wop] at h2
  · cases hm

/-- What one step means for a publisher that is not created anew. -/
theorem pub_step {C : Cfg} {P : Nat → Proc} {w w' : World} {x : In} {p i : Nat} {b : Pub}
    (h : step C P w x = some w') (hb : w.pub p i = some b) (hx : ∀ t, x ≠ .disc (.newPub p i t)) :
    ∃ ops, w'.pub p i = some (b.calls (wcfg C P p i) ops) ∧
      ((∃ y, x = .disc y ∧ ops = wops P w (fix C y) p i b) ∨ (∃ m, ops = [.send m]) ∨ ops = []) := by
  have same : w'.pub = w.pub → ∃ ops, w'.pub p i = some (b.calls (wcfg C P p i) ops) ∧
      ((∃ y, x = .disc y ∧ ops = wops P w (fix C y) p i b) ∨ (∃ m, ops = [.send m]) ∨ ops = []) := by
    intro e
    refine ⟨[], ?_, .inr (.inr rfl)⟩
    rw [e, hb]
    simp [Pub.calls, Writer.run]
  cases x with
  | disc y =>
    simp only [step, Option.some.injEq] at h
    subst h
    refine ⟨_, ?_, .inl ⟨y, rfl, rfl⟩⟩
    show pub' C P w (fix C y) p i = _
    unfold pub'
    split
    · next p' i' t he =>
      rw [fix_newPub] at he
      rw [if_neg]
      · rw [hb, he]; rfl
      · rintro ⟨rfl, rfl⟩; exact hx t (by rw [he])
    · rw [hb]; rfl
  | send q i' m =>
    rcases send_cases h with ⟨_, rfl⟩ | ⟨b0, hb0, e1, _⟩
    · exact same rfl
    · by_cases hq : p = q ∧ i = i'
      · obtain ⟨rfl, rfl⟩ := hq
        rw [hb] at hb0
        simp only [Option.some.injEq] at hb0
        subst hb0
        refine ⟨[.send m], ?_, .inr (.inl ⟨m, rfl⟩)⟩
        rw [e1]
        simp [Pub.calls, Writer.run]
      · refine ⟨[], ?_, .inr (.inr rfl)⟩
        rw [e1]
        simp only
        rw [if_neg hq, hb]
        simp [Pub.calls, Writer.run]
  | arrive q j k => exact same (arriveAt_same h).2.1
  | noise q j y => exact same (input_same h).2.1

theorem kept_cons {C : Cfg} {A i : Nat} {x : In} {h : List In} (hk : Disc.PubKept A i (found C (x :: h))) :
    (∀ t, x ≠ .disc (.newPub A i t)) ∧ (∀ t info, x ≠ .disc (.delPub A i t info)) ∧
      Disc.PubKept A i (found C h) := by
  refine ⟨?_, ?_, ?_⟩
  · rintro t rfl
    exact (hk (.newPub A i t) (by simp [found, fix])).1 t rfl
  · rintro t info rfl
    exact (hk (.delPub A i t info) (by simp [found, fix])).2 t info rfl
  · intro y hy
    apply hk
    have : found C (x :: h) = found C [x] ++ found C h := by rw [← found_append]; rfl
    rw [this]
    exact List.mem_append_right _ hy

theorem fix_delPub {C : Cfg} {x : Disc.In} {p i : Nat} {t : Bytes} {info : RTopic} :
    fix C x = .delPub p i t info ↔ x = .delPub p i t info := by
  cases x <;> simp [fix]

theorem pub_stays {C : Cfg} {P : Nat → Proc} {A i : Nat} {topic : Bytes} (h : List In) (w w' : World)
    (hr : run C P w h = some w') (hk : Disc.PubKept A i (found C h))
    (hb : ∃ b, w.pub A i = some b ∧ b.topic = topic ∧ b.st.created = true) :
    ∃ b, w'.pub A i = some b ∧ b.topic = topic ∧ b.st.created = true := by
  induction h generalizing w with
  | nil => simp only [run, Option.some.injEq] at hr; subst hr; exact hb
  | cons x h ih =>
    obtain ⟨k1, k2, k3⟩ := kept_cons hk
    simp only [run] at hr
    split at hr
    · cases hr
    · next w1 hs =>
      apply ih w1 hr k3
      obtain ⟨b, hb, ht, hc⟩ := hb
      obtain ⟨ops, h1, h2⟩ := pub_step hs hb k1
      refine ⟨_, h1, ht, created_run _ _ _ ?_ hc⟩
      rcases h2 with ⟨y, rfl, rfl⟩ | ⟨m, rfl⟩ | rfl
      · apply no_stop
        intro t info he
        rw [fix_delPub] at he
        exact k2 t info (by rw [he])
      · simp
      · simp

/-- Splitting a history where discovery is split. -/
theorem found_split {C : Cfg} {h : List In} {f1 f2 : List Disc.In} {y : Disc.In}
    (he : found C h = f1 ++ y :: f2) :
    ∃ a x b, h = a ++ .disc x :: b ∧ fix C x = y ∧ found C a = f1 ∧ found C b = f2 := by
  unfold found at he
  rw [List.filterMap_eq_append_iff] at he
  obtain ⟨l1, l2, rfl, h1, h2⟩ := he
  rw [List.filterMap_eq_cons_iff] at h2
  obtain ⟨m1, z, m2, rfl, h3, h4, h5⟩ := h2
  cases z with
  | disc x =>
    simp only [Option.some.injEq] at h4
    refine ⟨l1 ++ m1, x, m2, by simp, h4, ?_, h5⟩
    rw [found_append]
    have : found C m1 = [] := by
      unfold found
      rw [List.filterMap_eq_nil_iff]
      exact h3
    rw [this, List.append_nil]
    exact h1
  | send p i m => cases h4
  | arrive p j k => cases h4
  | noise p j i => cases h4

theorem pub_alive {C : Cfg} {P : Nat → Proc} {A i : Nat} {topic : Bytes} {h : List In} {w : World}
    (hr : run C P {} h = some w) (hl : Disc.PubLives A i topic (found C h)) :
    ∃ b, w.pub A i = some b ∧ b.topic = topic ∧ b.st.created = true := by
  obtain ⟨f1, f2, he, _, hk⟩ := hl
  obtain ⟨a, x, c, rfl, hx, _, hf2⟩ := found_split he
  rw [fix_newPub] at hx
  subst hx
  have e : a ++ In.disc (.newPub A i topic) :: c = (a ++ [In.disc (.newPub A i topic)]) ++ c := by simp
  rw [e] at hr
  obtain ⟨w1, h1, h2⟩ := run_split hr
  obtain ⟨w0, _, h4⟩ := run_snoc h1
  refine pub_stays c w1 w h2 (by rw [hf2]; exact hk) ⟨{ topic := topic }, ?_, rfl, rfl⟩
  simp only [step, Option.some.injEq] at h4
  subst h4
  simp [pub', fix]

/-- The number of creations. -/
theorem newPub_once {C : Cfg} {A i : Nat} {topic : Bytes} {h : List In}
    (hl : Disc.PubLives A i topic (found C h)) : h.countP (isNewPub A i) ≤ 1 := by
  have none : ∀ l, Disc.PubKept A i (found C l) → l.countP (isNewPub A i) = 0 := by
    intro l hk
    rw [List.countP_eq_zero]
    intro x hx hn
    cases x with
    | disc y =>
      cases y with
      | newPub p i' t =>
        simp only [isNewPub, decide_eq_true_eq] at hn
        obtain ⟨rfl, rfl⟩ := hn
        exact (hk _ (mem_found hx)).1 t rfl
      | _ => simp [isNewPub] at hn
    | _ => simp [isNewPub] at hn
  obtain ⟨f1, f2, he, k1, k2⟩ := hl
  obtain ⟨a, x, c, rfl, hx, hf1, hf2⟩ := found_split he
  rw [List.countP_append, List.countP_cons, none a (by rw [hf1]; exact k1), none c (by rw [hf2]; exact k2)]
  split <;> omega

/-- From the arrival of a registration on, the publisher stays up. -/
theorem pub_up (C : Cfg) (P : Nat → Proc) (A i B j k : Nat) (topic : Bytes) (hne : topic ≠ [])
    (hacc : Disc.Accepts (P A) (P B))
    (hinj : ∀ B' j', Disc.speer (P B') j' = Disc.speer (P B) j → B' = B ∧ j' = j) (L : Writer.TL)
    (hL : Preferred (wcfg C P A i) (C.rc B j) ((P B).host = (P A).host) L) (h0 : List In) (t0 t1 : Int) (w0 : World)
    (hr0 : run C P {} h0 = some w0) (hl : Disc.PubLives A i topic (found C h0))
    (hd : Disc.SubDatagram P w0.disc k B j topic) (h1 : List In) :
    ∀ w, run C P {} (h0 ++ .disc (.arrive A k t1) :: h1) = some w →
      Disc.PubKept A i (found C h1) → (∀ m ∈ w.disc.net, Disc.Fits m) →
      (∀ t info, In.disc (.delSub B j t info) ∉ h0 ++ .disc (.arrive A k t1) :: h1) →
      Disc.Mono A t0 (found C (h0 ++ .disc (.arrive A k t1) :: h1)) →
      (∀ now iS iP, In.disc (.collect A now iS iP) ∈ h1 → now - (P A).timeout ≤ t1) →
      ∃ b, w.pub A i = some b ∧ b.topic = topic ∧ Up b.st L (Disc.speer (P B) j) := by
  refine snoc_ind (motive := fun h1 => ∀ w, run C P {} (h0 ++ .disc (.arrive A k t1) :: h1) = some w →
      Disc.PubKept A i (found C h1) → (∀ m ∈ w.disc.net, Disc.Fits m) →
      (∀ t info, In.disc (.delSub B j t info) ∉ h0 ++ .disc (.arrive A k t1) :: h1) →
      Disc.Mono A t0 (found C (h0 ++ .disc (.arrive A k t1) :: h1)) →
      (∀ now iS iP, In.disc (.collect A now iS iP) ∈ h1 → now - (P A).timeout ≤ t1) →
      ∃ b, w.pub A i = some b ∧ b.topic = topic ∧ Up b.st L (Disc.speer (P B) j)) ?_ ?_ h1
  · intro w hr _ hfit _ _ _
    obtain ⟨w0', hr0', hs⟩ := run_snoc hr
    rw [hr0] at hr0'
    simp only [Option.some.injEq] at hr0'
    subst hr0'
    obtain ⟨b, hb, ht, hc⟩ := pub_alive hr0 hl
    have e1' : w.pub A i = some (b.calls (wcfg C P A i) (wops P w0 (fix C (.arrive A k t1)) A i b)) := by
      simp only [step, Option.some.injEq] at hs
      rw [← hs]
      simp [pub', fix, hb]
    refine ⟨_, e1', ht, ?_⟩
    obtain ⟨m, hmk, d1, d2, d3, d4, d5, d6⟩ := hd
    have hm0 : Disc.Fits m := by
      apply hfit
      rw [disc_run hr, found_append, Disc.run_append]
      obtain ⟨l, hl⟩ := Disc.net_grows P (Disc.run P ({} : World).disc (found C h0)) (found C [.disc (.arrive A k t1)])
      rw [hl]
      apply List.mem_append_left
      rw [← disc_run hr0]
      exact List.mem_of_getElem? hmk
    have hdl : Disc.delivered w0.disc k = some (Wire.transmitted m) := by
      unfold Disc.delivered
      rw [hmk]
      exact Disc.receive_datagram m hm0
    have hops : Disc.pubOps P w0.disc A (.arrive A k t1) = [.subReg t1 (Disc.regOf m)] := by
      simp only [Disc.pubOps, if_true, hdl]
      rw [((Disc.ops_topic (P A) (P B) t1 m (Or.inr (Or.inr (Or.inl d1))) d2 d3 d5).1 hacc).1, if_pos d1]
    have hreg1 : (Disc.regOf m).topic = str topic := by
      show str m.topic.tname = _
      rw [d6]
    have hreg2 : (Disc.regOf m).peer = Disc.speer (P B) j := by
      show (⟨str m.hostName, m.processId.toInt, str m.entityId⟩ : Conn.Peer) = _
      rw [d2, d3, d4]; rfl
    have hw : wops P w0 (fix C (.arrive A k t1)) A i b =
        [.applySub (Disc.speer (P B) j) (Disc.regOf m).layers] := by
      simp only [wops, hc, if_true, fix, hops, List.flatMap_cons, List.flatMap_nil, List.append_nil, wop]
      rw [if_pos, hreg2]
      rw [hreg1, ht]
      refine ⟨?_, rfl⟩
      intro h
      exact hne (Disc.str_ne_empty.1 h)
    rw [hw]
    simp only [Pub.calls, Writer.run]
    apply up_apply _ _ _ _ _ hc
    -- the layers announced
    have hann : Ann C P m := by
      have := ann_run C P h0 ({} : World).disc (annInv_init C P)
      rw [← disc_run hr0] at this
      exact this.net m (List.mem_of_getElem? hmk)
    obtain ⟨q, o, info, hm⟩ := hann d1
    have hq : q = B ∧ o.id = j := by
      apply hinj
      rw [hm] at d2 d3 d4
      simp only [Disc.subSample] at d2 d3 d4
      unfold Disc.speer
      rw [d2, d3, d4]
    obtain ⟨rfl, rfl⟩ := hq
    apply wanted_of_preferred _ (C.rc q o.id)
    · intro l
      rw [← announced_iff (C.rc q o.id) info.tlayer l]
      rw [hm]
      rfl
    · have : (Disc.speer (P q) o.id).host = (wcfg C P A i).host ↔ (P q).host = (P A).host :=
        ⟨fun h => str_inj h, fun h => congrArg str h⟩
      simp only [this]
      exact hL
  · intro h1 x ih w hr hk hfit hdel hmono htime
    have e : h0 ++ In.disc (.arrive A k t1) :: (h1 ++ [x]) = (h0 ++ .disc (.arrive A k t1) :: h1) ++ [x] := by
      simp
    rw [e] at hr hdel hmono
    obtain ⟨w1, hr1, hs⟩ := run_snoc hr
    rw [found_append] at hk
    have hnet : ∃ l, w.disc.net = w1.disc.net ++ l := by
      rw [disc_step hs]; exact Disc.net_grows _ _ _
    obtain ⟨l, hl'⟩ := hnet
    have hmono1 : Disc.Mono A t0 (found C (h0 ++ .disc (.arrive A k t1) :: h1)) := by
      rw [found_append] at hmono
      exact hmono.append.1
    obtain ⟨b, hb, ht, hup⟩ := ih w1 hr1 (fun y hy => hk y (List.mem_append_left _ hy))
      (fun m hm => hfit m (by rw [hl']; exact List.mem_append_left _ hm))
      (fun t info hm => hdel t info (List.mem_append_left _ hm)) hmono1
      (fun now iS iP hm => htime now iS iP (List.mem_append_left _ hm))
    obtain ⟨k1, k2, _⟩ := kept_cons (C := C) (A := A) (i := i) (x := x) (h := [])
      (fun y hy => hk y (List.mem_append_right _ hy))
    obtain ⟨ops, e1, e2⟩ := pub_step hs hb k1
    refine ⟨_, e1, ht, up_run _ _ _ _ _ ?_ ?_ hup⟩
    · rcases e2 with ⟨y, rfl, rfl⟩ | ⟨m, rfl⟩ | rfl
      · apply no_stop
        intro t info he
        rw [fix_delPub] at he
        exact k2 t info (by rw [he])
      · simp
      · simp
    · rcases e2 with ⟨y, rfl, rfl⟩ | ⟨m, rfl⟩ | rfl
      · intro hm
        have hdisc : w1.disc = Disc.run P {} (found C (h0 ++ .disc (.arrive A k t1) :: h1)) := disc_run hr1
        have efound : found C (h0 ++ .disc (.arrive A k t1) :: h1) =
            found C h0 ++ Disc.In.arrive A k t1 :: found C h1 := by
          rw [found_append]; rfl
        have hdisc' : w.disc = Disc.run P {} (found C h0 ++ Disc.In.arrive A k t1 :: found C h1 ++ [fix C y]) := by
          rw [disc_step hs, hdisc, efound]
          rw [← Disc.run_append]; rfl
        have hdel' : ∀ t info, Disc.In.delSub B j t info ∉
            found C h0 ++ Disc.In.arrive A k t1 :: found C h1 ++ [fix C y] := by
          intro t info hm
          rw [← efound] at hm
          have : Disc.In.delSub B j t info ∈ found C ((h0 ++ .disc (.arrive A k t1) :: h1) ++ [.disc y]) := by
            rw [found_append]; exact hm
          obtain ⟨z, hz, hz2⟩ := found_mem this
          have : z = .delSub B j t info := by
            cases z <;> simp [fix] at hz2 ⊢ <;> simp [hz2]
          subst this
          exact hdel t info hz
        unfold wops at hm
        rw [if_pos hup.1] at hm
        obtain ⟨op, ho1, ho2⟩ := List.mem_flatMap.1 hm
        cases op with
        | create a b c => simp [wop] at ho2
        | destroy a b => simp only [wop] at ho2; split at ho2 <;> simp at ho2
        | subReg n r => simp only [wop] at ho2; split at ho2 <;> simp at ho2
        | subUnreg n r =>
          simp only [wop] at ho2
          split at ho2
          · simp only [List.mem_singleton, Writer.Op.dropSub.injEq] at ho2
            refine Disc.no_unreg_sub P (found C h0 ++ Disc.In.arrive A k t1 :: found C h1) [fix C y] A B j
              ?_ hinj hdel' n r ?_ ho2.symm
            · rw [← hdisc']; exact hfit
            · rw [← efound, ← hdisc]
              simp only [Disc.pubHist, List.append_nil]
              exact ho1
          · cases ho2
        | cycle now =>
          simp only [wop, List.mem_map, List.mem_filter, Writer.Op.dropSub.injEq] at ho2
          obtain ⟨q, ⟨_, hq⟩, rfl⟩ := ho2
          simp only [decide_eq_true_eq] at hq
          apply hq
          have hy : ∃ iS iP, y = .collect A now iS iP ∧ (w1.disc.st A).out = none := by
            cases y with
            | collect p now' iS iP =>
              simp only [fix, Disc.pubOps] at ho1
              split at ho1
              · next hc =>
                simp only [List.mem_singleton, Gate.POp.cycle.injEq] at ho1
                exact ⟨iS, iP, by rw [hc.1, ho1], hc.2⟩
              · cases ho1
            | arrive p' k now =>
              simp only [fix, Disc.pubOps] at ho1
              split at ho1
              · split at ho1
                · unfold Disc.popsOf at ho1
                  split at ho1 <;> simp at ho1
                · cases ho1
              · cases ho1
            | newPub p' i'' t => simp only [fix, Disc.pubOps] at ho1; split at ho1 <;> simp at ho1
            | delPub p' i'' t info => simp only [fix, Disc.pubOps] at ho1; split at ho1 <;> simp at ho1
            | newSub p' i'' t => simp [fix, Disc.pubOps] at ho1
            | delSub p' i'' t info => simp [fix, Disc.pubOps] at ho1
            | again p' i'' info => simp [fix, Disc.pubOps] at ho1
            | other p' m => simp [fix, Disc.pubOps] at ho1
            | send p' => simp [fix, Disc.pubOps] at ho1
            | flush p' => simp [fix, Disc.pubOps] at ho1
          obtain ⟨iS, iP, rfl, hout⟩ := hy
          have hd' : Disc.SubDatagram P (Disc.run P {} (found C h0)) k B j topic := by
            rw [← show w0.disc = _ from disc_run hr0]; exact hd
          have hcon := Disc.C106_publisher_learns P A i B j k topic hne hacc hinj (found C h0) (found C h1) t0 t1 now
            (fun j => { iS j with tlayer := annLayers (C.rc A j) (iS j).tlayer }) iP
            (by
              rw [← efound, ← hdisc]
              exact fun m hm => hfit m (by rw [hl']; exact List.mem_append_left _ hm)) hl
            (fun y hy => hk y (List.mem_append_left _ hy)) hd'
            (fun t info hm => hdel' t info (List.mem_append_left _ hm))
            (by rw [found_append, efound] at hmono; exact hmono)
            (by rw [← efound, ← hdisc]; exact hout)
            (htime now iS iP (by simp))
          obtain ⟨o, ho, hid, hnm, s, evs, hst, hkeys, _⟩ := hcon
          have hpg : ((Disc.run P {} (found C h0 ++ Disc.In.arrive A k t1 :: found C h1 ++
              [.collect A now (fun j => { iS j with tlayer := annLayers (C.rc A j) (iS j).tlayer }) iP])).st A).pg =
              Disc.pg' P w1.disc A (fix C (.collect A now iS iP)) := by
            rw [Disc.run_snoc, ← efound, ← hdisc]; rfl
          rw [hpg] at ho
          unfold peersOf
          rw [List.mem_flatMap]
          refine ⟨o, List.mem_filter.2 ⟨ho, by simp [hid, hnm, ht]⟩, ?_⟩
          rw [hst]
          exact hkeys
      · simp
      · simp

end Ecal.E2E.Flow
