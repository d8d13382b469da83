import Verif.E2E.Call
import Verif.Service.ClientSessionLemmas

/-! # The requests written by the client of `Verif.E2E.Call` -/

namespace Ecal.E2E.Call

open Ecal.Service.Client (State Phase loss startSend sendNextOrPeek nextHost stepCall stepSetup
  stepRunCall stepRunFlush stepFlightDone stepFlightRun stepPeek stepStop setPhase flight_cases
  flight_noSetup)

/-- Relation between the requests whose writing was begun and those completely written. -/
def WShape (st : State) (w : List Nat) : Prop :=
  match st.flight with
  | [] => w = st.sent ∨ (st.net = .failed ∧ st.setup = none)
  | [(c, .sending)] => st.isOpen = true → w = st.sent ++ [c]
  | [(_, .receiving)] => w = st.sent
  | [(_, .doneOk _)] => w = st.sent
  | _ => True

structure WInv (st : State) (w : List Nat) : Prop where
  pre   : st.sent <+: w
  shape : WShape st w

theorem begun_same {a b : State} (h : b.flight = a.flight) : begun a b = [] := by
  simp [begun, h]

/-- Steps that leave the call in flight and the written requests alone. -/
theorem winv_same {a b : State} {w : List Nat} (h : WInv a w) (hf : b.flight = a.flight)
    (hs : b.sent = a.sent) (ho : b.isOpen = true → a.isOpen = true)
    (hd : a.net = .failed ∧ a.setup = none → b.net = .failed ∧ b.setup = none) :
    WInv b (w ++ begun a b) := by
  rw [begun_same hf, List.append_nil]
  refine ⟨by rw [hs]; exact h.pre, ?_⟩
  have := h.shape
  unfold WShape at this ⊢
  rw [hf, hs]
  match hfl : a.flight with
  | [] => rw [hfl] at this; exact this.imp id hd
  | [(c, .sending)] => rw [hfl] at this; exact fun h => this (ho h)
  | [(c, .receiving)] => rw [hfl] at this; exact this
  | [(c, .doneOk i)] => rw [hfl] at this; exact this
  | [(c, .doneError)] => exact trivial
  | [(c, .doneBad)] => exact trivial
  | x :: y :: l => simp

theorem loss_fields (st : State) : (loss st).flight = st.flight ∧ (loss st).sent = st.sent ∧
    (loss st).isOpen = false ∧ (loss st).net = .failed ∧ (loss st).setup = st.setup ∧
    (loss st).nread = st.nread ∧ (loss st).answers = st.answers := by
  unfold loss
  simp only
  split
  · next h => exact ⟨rfl, rfl, rfl, h, rfl, rfl, rfl⟩
  · exact ⟨rfl, rfl, rfl, rfl, rfl, rfl, rfl⟩

/-- A connection loss after a call has left, whatever was being written. -/
theorem winv_loss {st b : State} {w : List Nat} (hp : st.sent <+: w) (hs : st.setup = none)
    (hf : st.flight = []) : WInv (loss st) (w ++ begun b (loss st)) := by
  obtain ⟨h1, h2, h3, h4, h5, _⟩ := loss_fields st
  have hb : begun b (loss st) = [] := by simp [begun, h3]
  rw [hb, List.append_nil]
  refine ⟨by rw [h2]; exact hp, ?_⟩
  unfold WShape
  rw [h1, hf]
  exact Or.inr ⟨h4, by rw [h5]; exact hs⟩

/-- Starting the write of a call when nothing is in flight and every begun write is complete. -/
theorem winv_start {a st : State} {w : List Nat} {c : Nat} (hw : w = st.sent) (hf : st.flight = [])
    (ha : a.flight = [] ∨ ∃ d i, a.flight = [(d, .doneOk i)]) :
    WInv (startSend st c) (w ++ begun a (startSend st c)) := by
  have hne : [(c, Phase.sending)] ≠ a.flight := by
    rcases ha with h | ⟨d, i, h⟩ <;> rw [h] <;> simp
  have hfl : (startSend st c).flight = [(c, .sending)] := by simp [startSend, hf]
  refine ⟨?_, ?_⟩
  · show st.sent <+: _
    rw [hw]; exact List.prefix_append _ _
  · unfold WShape
    rw [hfl]
    intro ho
    simp [begun, ho, hfl, hne, sending, hw]
    rfl

theorem winv_next {a st : State} {w : List Nat} (hw : w = st.sent) (hf : st.flight = [])
    (ha : a.flight = [] ∨ ∃ d i, a.flight = [(d, .doneOk i)]) :
    WInv (sendNextOrPeek st) (w ++ begun a (sendNextOrPeek st)) := by
  unfold sendNextOrPeek
  cases hq : st.queue with
  | cons c q => exact winv_start (st := { st with inProgress := true, queue := q }) hw hf ha
  | nil =>
    simp only
    have hb : begun a { st with queue := [], inProgress := false, peeks := st.peeks + 1 } = [] := by
      simp [begun, hf, sending]
    rw [hb, List.append_nil]
    refine ⟨by rw [hw]; exact List.prefix_refl _, ?_⟩
    unfold WShape
    simp only [hf]
    exact Or.inl hw

theorem winv_host {st : State} {w : List Nat} (i : Nat) (h : WInv st w) (hi : Service.Client.Inv st)
    (hs : st.setup ≠ none) : WInv (nextHost st i) (w ++ begun st (nextHost st i)) := by
  unfold nextHost
  split
  · exact winv_same h rfl rfl id (fun hd => absurd hd.2 hs)
  · exact winv_loss (b := st) (st := { st with setup := none }) h.pre rfl (hi.setupS hs).1

theorem winv_step {st : State} {w : List Nat} (hi : Service.Client.Inv st)
    (a : Service.Client.Step) (h : WInv st w) :
    WInv (Service.Client.step st a) (w ++ begun st (Service.Client.step st a)) := by
  cases a with
  | call c =>
    simp only [Service.Client.step, stepCall]
    split
    · exact winv_same h rfl rfl id id
    · exact winv_same h rfl rfl id id
  | stop => exact winv_same h rfl rfl (by simp [Service.Client.step, stepStop]) id
  | setupDone ok accept =>
    simp only [Service.Client.step, stepSetup]
    cases hs : st.setup with
    | none => exact winv_same h rfl rfl id id
    | some x =>
      have hne : st.setup ≠ none := by simp [hs]
      have hfl := (hi.setupS hne).1
      have hw : w = st.sent := by
        have := h.shape
        unfold WShape at this
        rw [hfl] at this
        rcases this with h1 | h1
        · exact h1
        · exact absurd h1.2 hne
      have hlast : ∀ s2 : State, s2.sent = st.sent → s2.flight = [] → s2.setup = none →
          WInv (loss s2) (w ++ begun st (loss s2)) :=
        fun s2 e1 e2 e3 => winv_loss (by rw [e1]; exact h.pre) e3 e2
      cases x with
      | resolving i =>
        simp only
        split
        · exact winv_same h rfl rfl id (fun hd => absurd hd.2 hne)
        · exact winv_host i h hi hne
      | connecting i =>
        simp only
        split
        · have hb : begun st { st with setup := some .hsSending, isOpen := true, net := .handshake } = [] :=
            begun_same rfl
          rw [hb, List.append_nil]
          refine ⟨h.pre, ?_⟩
          unfold WShape
          simp only [hfl]
          exact Or.inl hw
        · exact winv_host i h hi hne
      | hsSending =>
        simp only
        split
        · exact winv_same h rfl rfl id (fun hd => absurd hd.2 hne)
        · exact hlast _ rfl hfl rfl
      | hsReceiving =>
        simp only
        split
        · exact winv_next
            (st := { st with setup := none, net := .connected, events := st.events ++ [.connected] })
            hw hfl (Or.inl hfl)
        · exact hlast _ rfl hfl rfl
  | runCall =>
    simp only [Service.Client.step, stepRunCall]
    cases hp : st.posted with
    | nil => exact winv_same h rfl rfl id id
    | cons c rest =>
      simp only
      split
      · exact winv_same h rfl rfl id id
      · next hnf =>
        split
        · next hc =>
          simp only [Bool.and_eq_true, Bool.not_eq_true', beq_iff_eq] at hc
          have hfl := ((hi.conn hc.2).2 hc.1).1
          have hw : w = st.sent := by
            have := h.shape
            unfold WShape at this
            rw [hfl] at this
            rcases this with h1 | h1
            · exact h1
            · exact absurd h1.1 hnf
          exact winv_start (st := { { st with posted := rest } with inProgress := true }) hw hfl
            (Or.inl hfl)
        · exact winv_same h rfl rfl id id
  | runFlush =>
    simp only [Service.Client.step, stepRunFlush]
    cases hn : st.flushes with
    | zero => exact winv_same h rfl rfl id id
    | succ n =>
      simp only
      cases hq : st.queue with
      | nil => exact winv_same h rfl rfl id id
      | cons c q => exact winv_same h rfl rfl id id
  | flightDone k ok rt =>
    simp only [Service.Client.step, stepFlightDone]
    cases hk : st.flight[k]? with
    | none => exact winv_same h rfl rfl id id
    | some x =>
      obtain ⟨hk0, hfl⟩ := flight_cases hi hk
      subst hk0
      obtain ⟨c, p⟩ := x
      have hsh := h.shape
      unfold WShape at hsh
      rw [hfl] at hsh
      have hset : ∀ q, (setPhase st 0 c q).flight = [(c, q)] := by
        intro q; simp [setPhase, hfl]
      have hend : ∀ s2 : State, s2.sent = st.sent →
          (s2.flight = [(c, .doneError)] ∨ s2.flight = [(c, .doneBad)]) →
          WInv s2 (w ++ begun st s2) := by
        intro s2 e1 e2
        have hb : begun st s2 = [] := by
          unfold begun
          rcases e2 with e2 | e2 <;> rw [e2] <;> simp [sending]
        rw [hb, List.append_nil]
        refine ⟨by rw [e1]; exact h.pre, ?_⟩
        unfold WShape
        rcases e2 with e2 | e2 <;> rw [e2] <;> trivial
      cases p with
      | sending =>
        simp only
        split
        · next hc =>
          simp only [Bool.and_eq_true] at hc
          have hw := hsh hc.2
          have hb : begun st { setPhase st 0 c .receiving with sent := st.sent ++ [c] } = [] := by
            simp [begun, hset, sending]
          rw [hb, List.append_nil]
          refine ⟨by rw [hw]; exact List.prefix_refl _, ?_⟩
          unfold WShape
          simp only [hset]
          exact hw
        · exact hend _ rfl (Or.inl (hset _))
      | receiving =>
        simp only
        split
        · split
          · have hb : begun st { setPhase st 0 c (.doneOk st.nread) with nread := st.nread + 1 } = [] := by
              simp [begun, hset, sending]
            rw [hb, List.append_nil]
            refine ⟨h.pre, ?_⟩
            unfold WShape
            simp only [hset]
            exact hsh
          · exact hend _ rfl (Or.inr (hset _))
        · exact hend _ rfl (Or.inl (hset _))
      | doneError => exact winv_same h rfl rfl id id
      | doneBad => exact winv_same h rfl rfl id id
      | doneOk i => exact winv_same h rfl rfl id id
  | flightRun k =>
    simp only [Service.Client.step, stepFlightRun]
    cases hk : st.flight[k]? with
    | none => exact winv_same h rfl rfl id id
    | some x =>
      obtain ⟨hk0, hfl⟩ := flight_cases hi hk
      subst hk0
      obtain ⟨c, p⟩ := x
      have hs := flight_noSetup hi hfl
      have her : st.flight.eraseIdx 0 = [] := by rw [hfl]; rfl
      have hsh := h.shape
      unfold WShape at hsh
      rw [hfl] at hsh
      cases p with
      | sending => exact winv_same h rfl rfl id id
      | receiving => exact winv_same h rfl rfl id id
      | doneError =>
        exact winv_loss (b := st)
          (st := { st with flight := st.flight.eraseIdx 0, answers := st.answers ++ [(c, .error)] })
          h.pre hs her
      | doneBad =>
        exact winv_loss (b := st)
          (st := { st with flight := st.flight.eraseIdx 0, answers := st.answers ++ [(c, .error)] })
          h.pre hs her
      | doneOk i =>
        exact winv_next
          (st := { st with flight := st.flight.eraseIdx 0, answers := st.answers ++ [(c, .ok i)] })
          hsh her (Or.inr ⟨c, i, hfl⟩)
  | peekDone ok =>
    simp only [Service.Client.step, stepPeek]
    cases hn : st.peeks with
    | zero => exact winv_same h rfl rfl id id
    | succ n =>
      simp only
      split
      · exact winv_same h rfl rfl id id
      · obtain ⟨h1, h2, h3, h4, h5, _⟩ := loss_fields { st with peeks := n }
        exact winv_same h h1 h2 (by rw [h3]; simp) (fun hd => ⟨h4, by rw [h5]; exact hd.2⟩)

/-- The messages read never exceed what is there: `nread` grows only when a read completes. -/
theorem nread_step {st : State} (a : Service.Client.Step) :
    (Service.Client.step st a).nread = st.nread ∨
      ∃ k rt, a = .flightDone k true rt ∧ reading st k = true ∧
        (Service.Client.step st a).nread = st.nread + 1 := by
  have hloss := loss_fields
  have hnext : ∀ s : State, (sendNextOrPeek s).nread = s.nread := by
    intro s; unfold sendNextOrPeek; cases s.queue <;> rfl
  have hhost : ∀ (s : State) i, (nextHost s i).nread = s.nread := by
    intro s i; unfold nextHost; split
    · rfl
    · exact (hloss _).2.2.2.2.2.1
  cases a with
  | call c => left; simp only [Service.Client.step, stepCall]; split <;> rfl
  | stop => exact Or.inl rfl
  | setupDone ok accept =>
    left
    simp only [Service.Client.step, stepSetup]
    cases st.setup with
    | none => rfl
    | some x =>
      cases x <;> simp only <;> split <;>
        first
          | rfl
          | exact hhost _ _
          | exact hnext _
          | exact (hloss _).2.2.2.2.2.1
  | runCall =>
    left
    simp only [Service.Client.step, stepRunCall]
    cases st.posted with
    | nil => rfl
    | cons c rest => simp only; split; · rfl
                     split <;> rfl
  | runFlush =>
    left
    simp only [Service.Client.step, stepRunFlush]
    cases st.flushes with
    | zero => rfl
    | succ n => cases st.queue <;> rfl
  | flightDone k ok rt =>
    simp only [Service.Client.step, stepFlightDone]
    cases hk : st.flight[k]? with
    | none => exact Or.inl rfl
    | some x =>
      obtain ⟨c, p⟩ := x
      cases p with
      | sending => left; simp only; split <;> rfl
      | receiving =>
        simp only
        split
        · next hc =>
          simp only [Bool.and_eq_true] at hc
          right
          refine ⟨k, rt, by rw [hc.1], by simp [reading, hk], ?_⟩
          split <;> rfl
        · exact Or.inl rfl
      | doneError => exact Or.inl rfl
      | doneBad => exact Or.inl rfl
      | doneOk i => exact Or.inl rfl
  | flightRun k =>
    left
    simp only [Service.Client.step, stepFlightRun]
    cases st.flight[k]? with
    | none => rfl
    | some x =>
      obtain ⟨c, p⟩ := x
      cases p with
      | sending => rfl
      | receiving => rfl
      | doneError => exact (hloss _).2.2.2.2.2.1
      | doneBad => exact (hloss _).2.2.2.2.2.1
      | doneOk i => exact hnext _
  | peekDone ok =>
    left
    simp only [Service.Client.step, stepPeek]
    cases st.peeks with
    | zero => rfl
    | succ n =>
      simp only
      split
      · rfl
      · exact (hloss _).2.2.2.2.2.1

end Ecal.E2E.Call
