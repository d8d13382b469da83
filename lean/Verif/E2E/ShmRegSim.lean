import Verif.E2E.ShmRegLemmas

/-! # Registration over shared memory simulates a network that loses, repeats and reorders -/

namespace Ecal.E2E.ShmReg

open Ecal.Wire (RegSample RTopic IsMap)
open Ecal.E2E.Disc (Proc PSt World)
open Ecal.Bcast (Event EvType Sys Reader)

/-- The step of the network model a step corresponds to (if any). -/
def tr1 (w : SW) (D : World) : SIn → List Disc.In
  | .act x => if allowed w x then [x] else []
  | .write1 p _ _ _ _ => if canSend w p then [.send p] else []
  | .write2 p _ _ => if canFlush w p then [.flush p] else []
  | .apply q now =>
    match (w.rd q).inbox with
    | m :: _ =>
      match D.net.findIdx? (fun m0 => Disc.isTopic m0 && decide (Wire.transmitted m0 = m)) with
      | some k => [.arrive q k now]
      | none => []
    | [] => []
  | _ => []

/-- The history of the network model. -/
def tr (P : Nat → Proc) : SW → World → List SIn → List Disc.In
  | _, _, [] => []
  | w, D, x :: h => tr1 w D x ++ tr P (step P w x) (Disc.run P D (tr1 w D x)) h

theorem tr1_short (w : SW) (D : World) (x : SIn) : (tr1 w D x).length ≤ 1 := by
  unfold tr1
  repeat' split
  all_goals simp

/-- Both worlds agree. -/
structure Sim (w : SW) (D : World) : Prop where
  st : D.st = w.st
  net : ∀ m ∈ D.net, ∃ x ∈ w.written, m ∈ x.2
  sent : ∀ x ∈ w.written, ∀ m ∈ x.2, Disc.isTopic m = true → m ∈ D.net

theorem step_st_congr (P : Nat → Proc) (D : World) (x : Disc.In) (hx : ∀ q k now, x ≠ .arrive q k now) :
    (Disc.step P { st := D.st } x).st = (Disc.step P D x).st := by
  funext q
  cases x with
  | arrive q k now => exact absurd rfl (hx q k now)
  | _ => rfl

theorem sendList_st (w : SW) (p : Nat) (l : List RegSample) (new : Nat) (ok : Bool) :
    (sendList w p l new ok).st = w.st ∧ (sendList w p l new ok).written = w.written ++ [(p, l)] := by
  unfold sendList beginWrite createFile
  simp only
  repeat' split
  all_goals exact ⟨rfl, rfl⟩

theorem mem_others {l : List RegSample} {m : RegSample} (h : m ∈ others l) : Disc.isTopic m = false := by
  simpa [others] using (List.mem_filter.1 h).2

/-- The steps that can change a gate or what a thread has to send. -/
def isMain : SIn → Bool
  | .act _ | .write1 .. | .write2 .. | .apply .. => true
  | _ => false

theorem step_st_other (P : Nat → Proc) (w : SW) (x : SIn) (hx : isMain x = false) :
    (step P w x).st = w.st ∧ (step P w x).written = w.written := by
  cases x with
  | act | write1 | write2 | apply => cases hx
  | bind p id now ok evOk =>
    simp only [step, createFile]
    repeat' split
    all_goals exact ⟨rfl, rfl⟩
  | unbind p now evOk =>
    simp only [step, destroyFile]
    repeat' split
    all_goals exact ⟨rfl, rfl⟩
  | wnext p now ok =>
    simp only [step, contWrite, destroyFile]
    repeat' split
    all_goals exact ⟨rfl, rfl⟩
  | crash => exact ⟨rfl, rfl⟩
  | attach q => exact ⟨rfl, rfl⟩
  | pollBegin q now ok => simp only [step]; split <;> exact ⟨rfl, rfl⟩
  | pollNext q a b => simp only [step]; split <;> exact ⟨rfl, rfl⟩
  | pollEnd q => simp only [step]; split <;> exact ⟨rfl, rfl⟩

theorem flatten_len {α : Type} (l : List (List α)) (x : List α) (h : x ∈ l) : x.length ≤ l.flatten.length := by
  induction l with
  | nil => cases h
  | cons a l ih =>
    simp only [List.flatten_cons, List.length_append]
    rcases List.mem_cons.1 h with rfl | h
    · omega
    · have := ih h; omega

theorem fits_of_list {l : List RegSample} (hf : FitsList l) {m : RegSample} (hm : m ∈ l) : Disc.Fits m := by
  refine ⟨hf.1 m hm, ?_⟩
  have h2 := hf.2
  unfold Wire.serializeRegList Wire.writeAll at h2
  rw [List.flatMap_def, List.map_map] at h2
  have := flatten_len _ _ (List.mem_map.2 ⟨m, hm, rfl⟩ :
    (Wire.writeField ∘ fun m => (1, Wire.Raw.len (Wire.serializeReg m))) m ∈
      l.map (Wire.writeField ∘ fun m => (1, Wire.Raw.len (Wire.serializeReg m))))
  simp only [Function.comp, Wire.writeField, List.length_append] at this
  simp only [Function.comp_def] at h2 this
  omega

theorem Sim.fits {w : SW} {D : World} (hs : Sim w D) (hf : Fit w) : ∀ m ∈ D.net, Disc.Fits m := by
  intro m hm
  obtain ⟨x, hx, hm⟩ := hs.net m hm
  exact fits_of_list (hf x hx) hm

theorem upd_eq {α : Type} (f : Nat → α) (p : Nat) (a : α) (g : Nat → α) (h1 : g p = a)
    (h2 : ∀ q, q ≠ p → g q = f q) : g = upd f p a := by
  funext q
  by_cases h : q = p
  · subst h; rw [upd_self, h1]
  · rw [upd_ne _ _ _ _ h, h2 q h]

/-- One step. -/
theorem Sim.step {P : Nat → Proc} {w : SW} {D : World} (hs : Sim w D) (hi : SInv w) (hf : Fit w) (x : SIn) :
    Sim (step P w x) (Disc.run P D (tr1 w D x)) := by
  cases x with
  | act y =>
    simp only [ShmReg.step, tr1]
    split
    · rename_i ha
      have hy : ∀ q k now, y ≠ .arrive q k now := by rintro q k now rfl; cases ha
      have hnet : (Disc.step P D y).net = D.net := by
        simp only [Disc.step, Disc.net']
        cases y with
        | send => cases ha
        | flush => cases ha
        | _ => rfl
      refine ⟨?_, ?_, ?_⟩
      · show (Disc.step P D y).st = _
        rw [← step_st_congr P D y hy, hs.st]
      · show ∀ m ∈ (Disc.step P D y).net, _
        rw [hnet]; exact hs.net
      · show ∀ x ∈ w.written, ∀ m ∈ x.2, _ → m ∈ (Disc.step P D y).net
        rw [hnet]; exact hs.sent
    · exact hs
  | write1 p front back new ok =>
    simp only [ShmReg.step, tr1]
    split
    · rename_i hc
      simp only [canSend, Bool.and_eq_true] at hc
      obtain ⟨l, hl⟩ := Option.isSome_iff_exists.1 hc.1.1
      have hl' : (D.st p).out = some l := by rw [hs.st]; exact hl
      obtain ⟨e1, e2⟩ := sendList_st { w with st := upd w.st p { w.st p with out := some [] }
                                              half := upd w.half p true } p (collected w p front back) new ok
      have hnet : (Disc.step P D (.send p)).net = D.net ++ l := by simp [Disc.step, Disc.net', hl']
      constructor
      · rw [e1]
        show (Disc.step P D (.send p)).st = _
        apply upd_eq
        · simp [Disc.step, Disc.pg', Disc.sg', Disc.out', Disc.pending', Disc.pubOps, Disc.subOps,
            Gate.pubGateRun, Gate.subGateRun, hs.st, hl]
        · intro q hq
          simp [Disc.step, Disc.pg', Disc.sg', Disc.out', Disc.pending', Disc.pubOps, Disc.subOps,
            Gate.pubGateRun, Gate.subGateRun, hs.st, Ne.symm hq]
      · rw [e2]
        show ∀ m ∈ (Disc.step P D (.send p)).net, _
        rw [hnet]
        intro m hm
        rcases List.mem_append.1 hm with hm | hm
        · obtain ⟨x, hx, h⟩ := hs.net m hm
          exact ⟨x, List.mem_append_left _ hx, h⟩
        · refine ⟨_, List.mem_append_right _ (List.mem_singleton.2 rfl), ?_⟩
          simp [collected, hl, hm]
      · rw [e2]
        intro x hx m hm ht
        show m ∈ (Disc.step P D (.send p)).net
        rw [hnet]
        rcases List.mem_append.1 hx with hx | hx
        · exact List.mem_append_left _ (hs.sent x hx m hm ht)
        · rw [List.mem_singleton] at hx
          subst hx
          simp only [collected, List.mem_append, hl, Option.getD_some] at hm
          rcases hm with (hm | hm) | hm
          · rw [mem_others hm] at ht; cases ht
          · exact List.mem_append_right _ hm
          · rw [mem_others hm] at ht; cases ht
    · exact hs
  | write2 p new ok =>
    simp only [ShmReg.step, tr1]
    split
    · rename_i hc
      simp only [canFlush, Bool.and_eq_true] at hc
      have hl := hi.half p hc.2
      have hl' : (D.st p).out = some [] := by rw [hs.st]; exact hl
      obtain ⟨e1, e2⟩ := sendList_st { w with st := upd w.st p { w.st p with out := none, pending := [] }
                                              half := upd w.half p false } p (w.st p).pending new ok
      have hnet : (Disc.step P D (.flush p)).net = D.net ++ (w.st p).pending := by
        have : (D.st p).pending = (w.st p).pending := by rw [hs.st]
        simp only [Disc.step, Disc.net', hl', this, List.nil_append]
      constructor
      · rw [e1]
        show (Disc.step P D (.flush p)).st = _
        apply upd_eq
        · simp [Disc.step, Disc.pg', Disc.sg', Disc.out', Disc.pending', Disc.pubOps, Disc.subOps,
            Gate.pubGateRun, Gate.subGateRun, hs.st, hl]
        · intro q hq
          simp [Disc.step, Disc.pg', Disc.sg', Disc.out', Disc.pending', Disc.pubOps, Disc.subOps,
            Gate.pubGateRun, Gate.subGateRun, hs.st, Ne.symm hq]
      · rw [e2]
        show ∀ m ∈ (Disc.step P D (.flush p)).net, _
        rw [hnet]
        intro m hm
        rcases List.mem_append.1 hm with hm | hm
        · obtain ⟨x, hx, h⟩ := hs.net m hm
          exact ⟨x, List.mem_append_left _ hx, h⟩
        · exact ⟨_, List.mem_append_right _ (List.mem_singleton.2 rfl), hm⟩
      · rw [e2]
        intro x hx m hm ht
        show m ∈ (Disc.step P D (.flush p)).net
        rw [hnet]
        rcases List.mem_append.1 hx with hx | hx
        · exact List.mem_append_left _ (hs.sent x hx m hm ht)
        · rw [List.mem_singleton] at hx
          subst hx
          exact List.mem_append_right _ hm
    · exact hs
  | apply q now =>
    simp only [ShmReg.step]
    split
    · rename_i m ms hm
      obtain ⟨x, hx, m0, h0, rfl⟩ := hi.inbox q m (by rw [hm]; exact List.mem_cons_self)
      cases hk : D.net.findIdx? (fun m' => Disc.isTopic m' && decide (Wire.transmitted m' = Wire.transmitted m0)) with
      | some k =>
        obtain ⟨hlt, hp, _⟩ := List.findIdx?_eq_some_iff_getElem.1 hk
        simp only [Bool.and_eq_true, decide_eq_true_eq] at hp
        have hd : Disc.delivered D k = some (Wire.transmitted m0) := by
          unfold Disc.delivered
          rw [List.getElem?_eq_getElem hlt, Option.bind_some,
            Disc.receive_datagram _ (hs.fits hf _ (List.getElem_mem hlt)), hp.2]
        have ht : tr1 w D (.apply q now) = [.arrive q k now] := by simp only [tr1, hm, hk]
        rw [ht]
        refine ⟨?_, hs.net, hs.sent⟩
        show (Disc.step P D (.arrive q k now)).st = _
        apply upd_eq
        · simp [Disc.step, Disc.pg', Disc.sg', Disc.out', Disc.pending', Disc.pubOps, Disc.subOps, hd, hs.st]
        · intro q' hq
          simp [Disc.step, Disc.pg', Disc.sg', Disc.out', Disc.pending', Disc.pubOps, Disc.subOps,
            Gate.pubGateRun, Gate.subGateRun, hs.st, Ne.symm hq]
      | none =>
        have ht : Disc.isTopic m0 = false := by
          cases ht : Disc.isTopic m0 with
          | false => rfl
          | true =>
            have := List.findIdx?_eq_none_iff.1 hk m0 (hs.sent x hx m0 h0 ht)
            simp [ht] at this
        obtain ⟨o1, o2⟩ := Disc.ops_other (P q) now m0 ht
        have ht : tr1 w D (.apply q now) = [] := by simp only [tr1, hm, hk]
        rw [ht]
        refine ⟨?_, hs.net, hs.sent⟩
        show D.st = _
        rw [hs.st]
        apply upd_eq
        · simp [o1, o2, Gate.pubGateRun, Gate.subGateRun]
        · intro q' hq; rfl
    · rename_i hm
      have ht : tr1 w D (.apply q now) = [] := by simp only [tr1, hm]
      rw [ht]
      exact hs
  | _ =>
    refine ⟨?_, ?_, ?_⟩
    · rw [(step_st_other P w _ rfl).1]; exact hs.st
    · rw [(step_st_other P w _ rfl).2]; exact hs.net
    · rw [(step_st_other P w _ rfl).2]; exact hs.sent

theorem fit_prefix {P : Nat → Proc} {w : SW} {h : List SIn} (hf : Fit (run P w h)) : Fit w := by
  obtain ⟨l, hl⟩ := run_written P w h
  intro x hx
  exact hf x (by rw [hl]; exact List.mem_append_left _ hx)

theorem init_inv (cap : Nat) (t0 : Int) (cells : Nat → Event) : SInv (init cap t0 cells) := by
  constructor
  · intro p hp; cases hp
  · intro id c hc; cases hc
  · intro p r d hr; cases hr
  · intro q k hk; cases hk
  · intro q m hm; cases hm

theorem init_sim (cap : Nat) (t0 : Int) (cells : Nat → Event) : Sim (init cap t0 cells) {} :=
  ⟨rfl, (by intro m hm; cases hm), (by intro x hx; cases hx)⟩

theorem sim_run {P : Nat → Proc} (h : List SIn) {w : SW} {D : World} (hs : Sim w D) (hi : SInv w)
    (hf : Fit (run P w h)) :
    Sim (run P w h) (Disc.run P D (tr P w D h)) ∧ SInv (run P w h) := by
  induction h generalizing w D with
  | nil => exact ⟨hs, hi⟩
  | cons x h ih =>
    have hf0 : Fit w := fit_prefix (P := P) (h := x :: h) hf
    have hi' := hi.step (P := P) hf0 x
    have := ih (hs.step (P := P) hi hf0 x) hi' hf
    rw [tr, Disc.run_append]
    exact this

theorem tr_append (P : Nat → Proc) (a b : List SIn) (w : SW) (D : World) :
    tr P w D (a ++ b) = tr P w D a ++ tr P (run P w a) (Disc.run P D (tr P w D a)) b := by
  induction a generalizing w D with
  | nil => rfl
  | cons x a ih =>
    simp only [List.cons_append, tr]
    rw [ih, List.append_assoc, Disc.run_append]
    rfl

/-- Every prefix of the translated history is the translation of a prefix. -/
theorem tr_prefix (P : Nat → Proc) (h : List SIn) (w : SW) (D : World) (a b : List Disc.In)
    (e : tr P w D h = a ++ b) : ∃ h1 h2, h = h1 ++ h2 ∧ a = tr P w D h1 := by
  induction h generalizing w D a with
  | nil =>
    refine ⟨[], [], rfl, ?_⟩
    simp only [tr] at e ⊢
    exact (List.append_eq_nil_iff.1 e.symm).1
  | cons x h ih =>
    by_cases ha : a = []
    · exact ⟨[], x :: h, rfl, by simpa [tr] using ha⟩
    · simp only [tr] at e
      have hshort := tr1_short w D x
      cases ht : tr1 w D x with
      | nil =>
        rw [ht] at e
        obtain ⟨h1, h2, rfl, e2⟩ := ih _ _ a e
        exact ⟨x :: h1, h2, rfl, by simp only [tr, ht]; exact e2⟩
      | cons y ys =>
        rw [ht] at e hshort
        have hys : ys = [] := by
          cases ys with
          | nil => rfl
          | cons => simp at hshort
        subst hys
        cases a with
        | nil => exact absurd rfl ha
        | cons y' a =>
          simp only [List.cons_append, List.nil_append, List.cons.injEq] at e
          obtain ⟨rfl, e⟩ := e
          obtain ⟨h1, h2, rfl, e2⟩ := ih _ _ a e
          exact ⟨x :: h1, h2, rfl, by simp only [tr, ht]; rw [e2]; rfl⟩

end Ecal.E2E.ShmReg
