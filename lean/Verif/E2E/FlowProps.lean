import Verif.E2E.FlowLemmas

/-! # Property C111: from discovery to delivery -/

namespace Ecal.E2E.Flow

open Ecal.E2E.Disc (Proc)

theorem newPub_counted {h : List In} {p i : Nat} {t : Bytes} (hm : In.disc (.newPub p i t) ∈ h) :
    1 ≤ h.countP (isNewPub p i) := by
  have : 0 < h.countP (isNewPub p i) := List.countP_pos_iff.2 ⟨_, hm, by simp [isNewPub]⟩
  exact this

theorem clock_mono (c : Writer.Config) (ops : List Writer.Op) (st : Writer.State) :
    st.clock ≤ (Writer.run c st ops).1.clock := by
  induction ops generalizing st with
  | nil => exact Nat.le_refl _
  | cons op ops ih =>
    have := Writer.step_clock c st op
    have := ih (Writer.step c st op).1
    simp only [Writer.run]
    omega

theorem run_mem_snoc (c : Writer.Config) (a b : List Writer.Op) (cs : List Reader.Sample)
    (h : cs ∈ (Writer.run c Writer.init a).2) : cs ∈ (Writer.run c Writer.init (a ++ b)).2 := by
  rw [writer_run_append]
  exact List.mem_append_left _ h

/-- The copies of a publisher that was created once are those its calls produced. -/
theorem log_inv (C : Cfg) (P : Nat → Proc) (A i : Nat)
    (hu : ∀ p' i', (P p').ptid i' = (P A).ptid i → p' = A ∧ i' = i) (h : List In) :
    ∀ w, run C P {} h = some w → h.countP (isNewPub A i) ≤ 1 →
    ∀ n s, (n, s) ∈ w.net → n.tid = (P A).ptid i → ∃ b, w.pub A i = some b ∧ n = names P A i b.topic ∧
      (∃ cs ∈ (Writer.run (wcfg C P A i) Writer.init b.log).2, s ∈ cs) ∧ s.clock ≤ b.st.clock := by
  refine snoc_ind (motive := fun h => ∀ w, run C P {} h = some w → h.countP (isNewPub A i) ≤ 1 →
    ∀ n s, (n, s) ∈ w.net → n.tid = (P A).ptid i → ∃ b, w.pub A i = some b ∧ n = names P A i b.topic ∧
      (∃ cs ∈ (Writer.run (wcfg C P A i) Writer.init b.log).2, s ∈ cs) ∧ s.clock ≤ b.st.clock) ?_ ?_ h
  · intro w hw _ n s hm
    simp only [run, Option.some.injEq] at hw
    subst hw
    cases hm
  · intro h x ih w' hw' hc n s hm htid
    obtain ⟨w, hw, hs⟩ := run_snoc hw'
    rw [List.countP_append] at hc
    have ih := ih w hw (by omega)
    cases x with
    | disc x =>
      simp only [step, Option.some.injEq] at hs
      subst hs
      obtain ⟨b, hb, e1, ⟨cs, hcs, hmem⟩, hk⟩ := ih n s hm htid
      by_cases hx : ∃ t, x = .newPub A i t
      · exfalso
        obtain ⟨t, rfl⟩ := hx
        have := newPub_counted ((pubs_inv C P h w hw).1 A i b hb).made
        have : List.countP (isNewPub A i) [In.disc (.newPub A i t)] = 1 := by simp [isNewPub]
        omega
      · have hp : pub' C P w (fix C x) A i = some (b.calls (wcfg C P A i) (wops P w (fix C x) A i b)) := by
          unfold pub'
          split
          · next p' i' t he =>
            rw [fix_newPub] at he
            rw [if_neg]
            · rw [hb]; simp [he, fix]
            · rintro ⟨rfl, rfl⟩; exact hx ⟨t, he⟩
          · rw [hb]; rfl
        refine ⟨_, hp, e1, ⟨cs, run_mem_snoc _ _ _ _ hcs, hmem⟩, ?_⟩
        have := clock_mono (wcfg C P A i) (wops P w (fix C x) A i b) b.st
        simp only [Pub.calls]
        omega
    | send p i' m =>
      rcases send_cases hs with ⟨_, rfl⟩ | ⟨b0, hb0, e1, e2, _, _, _, _⟩
      · exact ih n s hm htid
      · rw [e2] at hm
        have hinv := (pubs_inv C P h w hw).1 p i' b0 hb0
        have hck := Writer.step_clock (wcfg C P p i') b0.st (.send m)
        rcases List.mem_append.1 hm with hm | hm
        · obtain ⟨b, hb, f1, ⟨cs, hcs, hmem⟩, hk⟩ := ih n s hm htid
          by_cases hq : A = p ∧ i = i'
          · obtain ⟨rfl, rfl⟩ := hq
            rw [hb0] at hb
            simp only [Option.some.injEq] at hb
            subst hb
            refine ⟨{ b0 with st := (Writer.step (wcfg C P A i) b0.st (.send m)).1, log := b0.log ++ [.send m] },
              by rw [e1]; simp, f1, ⟨cs, run_mem_snoc _ _ _ _ hcs, hmem⟩, ?_⟩
            simp only
            omega
          · exact ⟨b, by rw [e1]; simp only; rw [if_neg hq]; exact hb, f1, ⟨cs, hcs, hmem⟩, hk⟩
        · obtain ⟨s', hs', e⟩ := List.mem_map.1 hm
          injection e with ea eb
          subst eb
          subst ea
          obtain ⟨rfl, rfl⟩ := hu p i' htid
          refine ⟨{ b0 with st := (Writer.step (wcfg C P p i') b0.st (.send m)).1, log := b0.log ++ [.send m] },
            by rw [e1]; simp, rfl, ⟨(Writer.step (wcfg C P p i') b0.st (.send m)).2, ?_, hs'⟩, ?_⟩
          · simp only [writer_run_append]
            rw [← hinv.st]
            simp [Writer.run]
          · obtain ⟨m', l, hm', hcr, rfl⟩ := Writer.step_copies _ _ _ s' hs'
            simp only [Writer.copyOf]
            rw [hck, hcr]
            simp [Writer.Op.isSend]
    | arrive p j k =>
      obtain ⟨_, e1, e2⟩ := arriveAt_same hs
      rw [e1]; rw [e2] at hm
      exact ih n s hm htid
    | noise p j y =>
      obtain ⟨_, e1, e2⟩ := input_same hs
      rw [e1]; rw [e2] at hm
      exact ih n s hm htid

/-- **C111 (nothing is made up).** In any history, whatever a subscriber's application gets was sent by a
publisher of the same topic, with this payload, time, id and publisher id — or came in from outside. -/
theorem C111_only_what_was_sent (C : Cfg) (P : Nat → Proc) (h : List In) (w : World)
    (hr : run C P {} h = some w) (hf : Fine P h w) (B j : Nat) (b : Sub) (hb : w.sub B j = some b) :
    ∀ s ∈ Reader.delivered b.rcv.evs,
      (∃ A i m, In.disc (.newPub A i b.topic) ∈ h ∧ In.send A i m ∈ h ∧ s.tid = str ((P A).ptid i) ∧
        s.payload = m.payload ∧ s.time = m.time ∧ s.id = m.id) ∨
      ∃ j' x, In.noise B j' x ∈ h ∧ Claims s x := by
  intro s hs
  obtain ⟨a, ha⟩ := subs_inv C P h w hr hf B j b hb
  rw [ha.evs] at hs
  rcases ha.from_ s (Writer.reader_delivers_arrivals _ _ _ s hs) with ⟨n, hm, htop⟩ | hx
  · obtain ⟨p, i, t, m, l, k, e1, h1, h2, e2, _⟩ := (pubs_inv C P h w hr).2 _ hm
    simp only at e1 e2
    subst e1
    simp only [names] at htop
    subst htop
    exact .inl ⟨p, i, m, h1, h2, by rw [e2]; rfl, by rw [e2]; rfl, by rw [e2]; rfl, by rw [e2]; rfl⟩
  · exact .inr hx

/-- **C111 (at most once, in order).** Let a publisher be created once in a history of any number of processes,
and let nobody else use its id.  Whatever is lost, duplicated or reordered on any layer, and whoever comes and
goes: the messages a subscriber's application gets from it are a subsequence of those sent, with payload, time
and id as sent; if there are any, publisher and subscriber have the same topic. -/
theorem C111_delivered_is_subsequence (C : Cfg) (P : Nat → Proc) (h : List In) (w : World)
    (hr : run C P {} h = some w) (hf : Fine P h w) (A i B j : Nat)
    (hu : ∀ p' i', (P p').ptid i' = (P A).ptid i → p' = A ∧ i' = i) (hone : h.countP (isNewPub A i) ≤ 1)
    (hnoise : ∀ j' x, In.noise B j' x ∈ h → ∀ s, Claims s x → s.tid ≠ str ((P A).ptid i))
    (b : Sub) (hb : w.sub B j = some b) (hd : (C.rc B j).drop = true) :
    ((Reader.fromPub (str ((P A).ptid i)) (Reader.delivered b.rcv.evs)).map Writer.strip).Sublist
      ((sends A i h).map Writer.Msg.strip) ∧
    (Reader.fromPub (str ((P A).ptid i)) (Reader.delivered b.rcv.evs) ≠ [] →
      In.disc (.newPub A i b.topic) ∈ h) := by
  obtain ⟨a, ha⟩ := subs_inv C P h w hr hf B j b hb
  have key : ∀ s ∈ Reader.arrivals a, s.tid = str ((P A).ptid i) → ∃ pb, w.pub A i = some pb ∧
      b.topic = pb.topic ∧ ∃ cs ∈ (Writer.run (wcfg C P A i) Writer.init pb.log).2, s ∈ cs := by
    intro s hs htid
    rcases ha.from_ s hs with ⟨n, hm, htop⟩ | ⟨j', x, h1, h2⟩
    · have hn : n.tid = (P A).ptid i := by
        obtain ⟨p, i', t, m, l, k, e1, _, _, e2, _⟩ := (pubs_inv C P h w hr).2 _ hm
        simp only at e1 e2
        rw [e2] at htid
        rw [e1]
        exact str_inj htid
      obtain ⟨pb, h1, h2, h3, _⟩ := log_inv C P A i hu h w hr hone n s hm hn
      exact ⟨pb, h1, by rw [← htop, h2]; rfl, h3⟩
    · exact absurd htid (hnoise j' x h1 s h2)
  constructor
  · cases hp : w.pub A i with
    | none =>
      have : Reader.fromPub (str ((P A).ptid i)) (Reader.delivered b.rcv.evs) = [] := by
        unfold Reader.fromPub
        rw [List.filter_eq_nil_iff]
        intro s hs he
        rw [ha.evs] at hs
        obtain ⟨pb, h1, _⟩ := key s (Writer.reader_delivers_arrivals _ _ _ s hs) (by simpa using he)
        rw [hp] at h1
        cases h1
      rw [this]
      exact List.nil_sublist _
    | some pb =>
      have h1 := Writer.C59_delivered_is_subsequence (wcfg C P A i) pb.log (C.rc B j) hd a (by
        intro s hs htid
        obtain ⟨pb', h1, _, h3⟩ := key s hs htid
        rw [hp] at h1
        simp only [Option.some.injEq] at h1
        subst h1
        exact h3)
      rw [ha.evs]
      exact h1.trans (((pubs_inv C P h w hr).1 A i pb hp).sent.map _)
  · intro hne
    obtain ⟨s, hs⟩ := List.exists_mem_of_ne_nil _ hne
    have hs' := List.mem_filter.1 hs
    have hs1 := hs'.1
    rw [ha.evs] at hs1
    obtain ⟨pb, h1, h2, _⟩ := key s (Writer.reader_delivers_arrivals _ _ _ s hs1) (by simpa using hs'.2)
    rw [h2]
    exact ((pubs_inv C P h w hr).1 A i pb h1).made

end Ecal.E2E.Flow
