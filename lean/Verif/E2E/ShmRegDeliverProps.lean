import Verif.E2E.ShmRegDeliver

/-! # C108: registration over shared memory – what is announced is received, and what gets lost -/

namespace Ecal.E2E.ShmReg

open Ecal.Wire (RegSample RTopic IsMap)
open Ecal.E2E.Disc (Proc PSt World)
open Ecal.Bcast (Event EvType Sys Reader firstPerId AllOpen)

theorem RemAnnounced.right {P : Nat → Proc} (a b : List SIn) {w : SW} (h : RemAnnounced P w (a ++ b)) :
    RemAnnounced P (run P w a) b := by
  induction a generalizing w with
  | nil => exact h
  | cons x a ih => exact ih h.2

theorem RemAnnounced.left {P : Nat → Proc} (a b : List SIn) {w : SW} (h : RemAnnounced P w (a ++ b)) :
    RemAnnounced P w a := by
  induction a generalizing w with
  | nil => trivial
  | cons x a ih => exact ⟨h.1, ih h.2⟩

/-- **C108 (a list that is announced is received).** Process `A` hands a list to its sender, the accesses of
the writer work, and the update is announced.  Process `q` polls before the writer of `A` goes on; at most
`cap` events have been sent since it last polled, and it opened every payload file it tried to open before.
No payload file disappears during the poll, the removal of earlier ones was announced, and the accesses of
the reader work.  Then, whatever all other processes do in between, `q` receives every sample of the list. -/
theorem C108_list_reaches_reader (P : Nat → Proc) (A q cap : Nat) (hcap : 0 < cap) (c0 : Int) (hc0 : 0 ≤ c0)
    (cells : Nat → Event) (h0 : List SIn) (x : SIn) (g h2 h3 : List SIn) (t1 t2 : Int) (l : List RegSample)
    (hl : l ≠ []) (w0 w1 w3 w5 : SW) (H : List SIn)
    (e0 : w0 = run P (init cap c0 cells) h0)
    (e1 : w1 = run P (step P w0 x) g)
    (e3 : w3 = run P (step P w1 (.wnext A t1 true)) h2)
    (e5 : w5 = run P (step P w3 (.pollBegin q t2 true)) h3)
    (hH : H = h0 ++ x :: (g ++ .wnext A t1 true :: h2))
    (hfit : Fit w5)
    (hfresh : FreshIds P (init cap c0 cells) (H ++ .pollBegin q t2 true :: h3))
    (hrem : RemAnnounced P (init cap c0 cells) H)
    (hclk : Bcast.StrictClock c0 (ops P (init cap c0 cells) H))
    (hx : (∃ f b n, x = .write1 A f b n true) ∨ (∃ n, x = .write2 A n true))
    (hw : (step P w0 x).written = w0.written ++ [(A, l)])
    (hg : ∀ y ∈ g, WriteOn A y)
    (hn : ∃ r, w1.wr A = some r ∧ r.pc = .notify)
    (hq2 : ∀ y ∈ h2, QuietStep A y ∧ NoPoll q y)
    (hbetween : (w3.rd q).work = none ∧ (w3.rd q).inbox = [])
    (hpend : (pendOf q [] (ops P (init cap c0 cells) H)).length ≤ cap)
    (hopen : ∀ id, (w3.rd q).base.known.find id ≠ some false)
    (hq3 : ∀ y ∈ h3, QuietStep A y ∧ ReadOn q y)
    (hfiles : ∀ a b, h3 = a ++ b → ∀ id ∈ w3.linked,
      id ∈ (run P (step P w3 (.pollBegin q t2 true)) a).linked)
    (hdone : ∃ k, (w5.rd q).work = some k ∧ k.todo = []) :
    ∀ m ∈ l, Wire.transmitted m ∈ ((step P w5 (.pollEnd q)).rd q).inbox := by
  have ew1 : w1 = run P (init cap c0 cells) (h0 ++ x :: g) := by rw [e1, e0, run_append]; rfl
  have ew3 : w3 = run P (init cap c0 cells) H := by
    rw [e3, ew1, hH, ← List.cons_append, ← List.append_assoc, run_append P _ (h0 ++ x :: g)]; rfl
  have ew5 : w5 = run P (init cap c0 cells) (H ++ .pollBegin q t2 true :: h3) := by
    rw [e5, ew3, run_append]; rfl
  have hinv5 : SInv w5 := by rw [ew5]; rw [ew5] at hfit; exact (sim_init _ hfit).2
  -- freshness of the parts
  have hfr := FreshIds.append (P := P) H (.pollBegin q t2 true :: h3) |>.1 hfresh
  have hHeq : H = (h0 ++ x :: g) ++ .wnext A t1 true :: h2 := by rw [hH]; simp
  have hfr1 := hfr.1
  rw [hHeq] at hfr1
  have hfr2 := (FreshIds.append (P := P) _ _).1 hfr1
  have hfr0 := (FreshIds.append (P := P) h0 (x :: g)).1 hfr2.1
  rw [← ew1] at hfr2
  rw [← e0] at hfr0
  rw [← ew3] at hfr
  have hu0 : UInv w0 := by rw [e0]; exact (init_uinv cap c0 cells).run h0 hfr0.1
  have hux : UInv (step P w0 x) := hu0.step x hfr0.2.1
  have hu1 : UInv w1 := by rw [e1]; exact hux.run g hfr0.2.2
  have hu2 : UInv (step P w1 (.wnext A t1 true)) := hu1.step _ trivial
  have hu3 : UInv w3 := by rw [e3]; exact hu2.run h2 hfr2.2.2
  -- the writer has written the list
  obtain ⟨r, hr, hpc⟩ := hn
  have hwr : Writing w1 A (Wire.serializeRegList l) := by
    rw [e1]; exact (hand_writing x hx hw hl).run g hux hfr0.2.2 hg
  have hobj : w1.objs.find r.id = some (Wire.serializeRegList l) := by
    rcases hwr r hr with h | h | h
    · rw [hpc] at h; cases h
    · exact h.2
    · rw [hpc] at h; cases h
  have hstep2 : (step P w1 (.wnext A t1 true)) =
      { w1 with chan := sendEv w1.chan A t1 r.id .updated true
                wr := upd w1.wr A (some { r with pc := .idle }) } := by
    simp only [step, contWrite, hr, hpc]
  have hh2 : Holds (step P w1 (.wnext A t1 true)) A r.id (Wire.serializeRegList l) := by
    rw [hstep2]
    exact ⟨⟨_, upd_self _ _ _, rfl⟩, hobj⟩
  have hh3 : Holds w3 A r.id (Wire.serializeRegList l) := by
    rw [e3]; exact hh2.run h2 hu2 hfr2.2.2 (fun y hy => (hq2 y hy).1)
  -- the events pending for `q`
  have hops : ops1 w1 (.wnext A t1 true) = [.send A t1 r.id .updated] := by simp [ops1, hr, hpc]
  have epend : ∃ pre post, pendOf q [] (ops P (init cap c0 cells) H) =
      pre ++ ⟨A, t1, r.id, .updated⟩ :: post ∧ ∀ e ∈ post, e.id ≠ r.id := by
    obtain ⟨post, h1, h2⟩ := pend_run h2 hh2 hu2 hfr2.2.2 (fun y hy => (hq2 y hy).1)
      (fun y hy => (hq2 y hy).2)
      (pendOf q [] (ops P (init cap c0 cells) (h0 ++ x :: g)) ++ [⟨A, t1, r.id, .updated⟩])
    refine ⟨pendOf q [] (ops P (init cap c0 cells) (h0 ++ x :: g)), post, ?_, h2⟩
    rw [hHeq, ops_append, ← ew1, pendOf_append, ops, hops, pendOf_append]
    simp only [pendOf]
    rw [h1]
    simp
  -- the poll begins
  obtain ⟨s', clk', b', hrun, hcap', hI⟩ := chan_inv (Bcast.Inv.init cap hcap c0 hc0 cells q) _ hclk
  have hchan : w3.chan = s' := by
    rw [ew3]; exact run_chan P H (init cap c0 cells) s' hrun
  have hcap2 : (Bcast.init cap c0 cells).cap = cap := rfl
  obtain ⟨res, s2, hrec, _, hres, _⟩ := hI.poll_self t2 0 true (by rw [hcap', hcap2]; exact hpend)
    (fun _ _ => Or.inl rfl)
  obtain ⟨pre, post, hp1, hp2⟩ := epend
  have hfil : ∀ l : List Event, l.filter (fun e => true || e.pid != q) = l := by intro l; simp
  rw [hfil] at hres
  have hres' : res = some (pendOf q [] (ops P (init cap c0 cells) H)).reverse := by
    cases res with
    | none => rw [hp1] at hres; simp at hres
    | some v => simp only [Option.getD_some] at hres; rw [hres]
  have hLI : LInv w3 (pendOf q [] (ops P (init cap c0 cells) H)) := by
    rw [ew3]
    exact (LInv.nil _).run H (init_uinv cap c0 cells) q hfr.1 hrem
  have hrd4 : (step P w3 (.pollBegin q t2 true)).rd q =
      { w3.rd q with base := { (w3.rd q).base with evs := (pendOf q [] (ops P (init cap c0 cells) H)).reverse }
                     work := some ⟨(pendOf q [] (ops P (init cap c0 cells) H)).reverse, [], [], true⟩ } := by
    simp only [step, hbetween.1, hbetween.2, Option.isNone_none, and_self, if_true, upd_self, hchan, hrec,
      Option.getD_some, hres']
  have hP4 : PInv (step P w3 (.pollBegin q t2 true)) q A r.id (Wire.serializeRegList l) w3.linked := by
    constructor
    · refine ⟨_, by rw [hrd4], rfl, hLI.l, Or.inr ⟨by simp, post.reverse, t1, pre.reverse, ?_, ?_⟩⟩
      · rw [hp1]; simp
      · intro e he; exact hp2 e (List.mem_reverse.1 he)
    · intro id; rw [hrd4]; exact hopen id
  have hu4 : UInv (step P w3 (.pollBegin q t2 true)) := hu3.step _ trivial
  have hh4 := hh3.step (P := P) hu3 (.pollBegin q t2 true) trivial trivial
  have hP5 : PInv w5 q A r.id (Wire.serializeRegList l) w3.linked := by
    rw [e5]
    exact hP4.run h3 hh4 hu4 hfr.2.2 (fun y hy => (hq3 y hy).1) (fun y hy => (hq3 y hy).2) hfiles
  -- the poll ends
  obtain ⟨k, hk, hok, _, hour⟩ := hP5.work
  obtain ⟨k', hk', htodo⟩ := hdone
  rw [hk] at hk'
  cases hk'
  obtain ⟨todo, handled, msgs, ok⟩ := k
  simp only at htodo hok hour
  subst htodo hok
  obtain ⟨ts, hts⟩ : ∃ ts, (Wire.serializeRegList l, ts) ∈ msgs := by
    rcases hour with h | ⟨_, pre, ts, post, e, _⟩
    · exact h
    · exact absurd (congrArg List.length e) (by simp)
  have hend : ((step P w5 (.pollEnd q)).rd q).inbox = Wire.shmReceive [] (msgs.map Prod.fst) := by
    simp only [step, hk, upd_self, if_true]
  have hfl : FitsList l := by
    refine hfit (A, l) ?_
    have hsub : ∃ t, w5.written = (step P w0 x).written ++ t := by
      have : w5 = run P (step P w0 x) (g ++ .wnext A t1 true :: h2 ++ .pollBegin q t2 true :: h3) := by
        rw [e5, e3, e1]; simp [run]
      rw [this]; exact run_written P _ _
    obtain ⟨t, ht⟩ := hsub
    rw [ht, hw]
    simp
  rw [hend]
  refine shmReceive_mem w5.written hfit l hl hfl _ [] ?_ (List.mem_map.2 ⟨_, hts, rfl⟩)
  intro b hb
  obtain ⟨y, hy, rfl⟩ := List.mem_map.1 hb
  exact hinv5.msgs q _ hk y hy

/-! ## A payload file that could not be opened -/

/-- Process `q` is not attached anew, and its poll is not over. -/
def InPoll (q : Nat) : SIn → Prop
  | .attach p => p ≠ q
  | .pollEnd p => p ≠ q
  | _ => True

structure FInv (w : SW) (q id : Nat) : Prop where
  known : (w.rd q).base.known.find id = some false
  work : ∃ k, (w.rd q).work = some k ∧ (k.ok = false ∨ (id ∉ k.handled ∧ ∃ pre p ts post,
      k.todo = pre ++ ⟨p, ts, id, .updated⟩ :: post ∧ ∀ e ∈ pre, e.id ≠ id))
  seen : ∃ k, (w.rd q).work = some k ∧ (id ∈ k.handled ∨ ∃ pre p ts post,
      k.todo = pre ++ ⟨p, ts, id, .updated⟩ :: post ∧ ∀ e ∈ pre, e.id ≠ id)

theorem FInv.congr {w w' : SW} {q id : Nat} (h : FInv w q id) (h1 : w'.rd q = w.rd q) : FInv w' q id :=
  ⟨by rw [h1]; exact h.known, by rw [h1]; exact h.work, by rw [h1]; exact h.seen⟩

/-- An event of another file leaves the entry as it is, and one that was handled does too. -/
theorem readEv_other (objs : AMap Nat (List UInt8)) (linked : List Nat) (a b : Bool) (rd : Reader) (hd : List Nat)
    (msgs : List (List UInt8 × Int)) (ok : Bool) (e : Event) (id : Nat) (hne : e.id ≠ id) :
    (readEv objs linked a b (rd, hd, msgs, ok) e).1.known.find id = rd.known.find id ∧
      (id ∈ (readEv objs linked a b (rd, hd, msgs, ok) e).2.1 ↔ id ∈ hd) ∧
      (ok = false → (readEv objs linked a b (rd, hd, msgs, ok) e).2.2.2 = false) := by
  have hs : ∀ (m : AMap Nat Bool) v, (m.set e.id v).find id = m.find id := by
    intro m v; simp only [AMap.find_set]; rw [if_neg hne]
  have he : ∀ (m : AMap Nat Bool), (m.erase e.id).find id = m.find id := by
    intro m; simp only [AMap.find_erase]; rw [if_neg hne]
  have hm : id ∈ e.id :: hd ↔ id ∈ hd := by
    simp only [List.mem_cons]
    exact ⟨fun h => h.resolve_left (fun e1 => hne e1.symm), Or.inr⟩
  unfold readEv
  simp only
  by_cases h1 : e.id ∈ hd
  · rw [if_pos h1]; simp
  · rw [if_neg h1]
    cases hk : rd.known.find e.id with
    | none =>
      simp only [Option.isNone_none, Bool.true_and, if_true]
      split
      · exact ⟨hs _ _, hm, fun _ => rfl⟩
      · split
        · split
          · refine ⟨?_, hm, fun h => h⟩
            split <;> simp only [hs]
          · refine ⟨?_, hm, fun _ => rfl⟩
            split <;> simp only [hs]
        · refine ⟨?_, hm, fun h => h⟩
          simp only [he]
          split <;> simp only [hs]
        · refine ⟨?_, hm, fun h => h⟩
          split <;> simp only [hs]
    | some v =>
      simp only [Option.isNone_some, Bool.false_and, Bool.false_eq_true, if_false]
      split
      · split
        · exact ⟨rfl, hm, fun h => h⟩
        · exact ⟨rfl, hm, fun _ => rfl⟩
      · exact ⟨he _, hm, fun h => h⟩
      · exact ⟨rfl, hm, fun h => h⟩

theorem readEv_seen (objs : AMap Nat (List UInt8)) (linked : List Nat) (a b : Bool)
    (st : Reader × List Nat × List (List UInt8 × Int) × Bool) (e : Event) (hs : e.id ∈ st.2.1) :
    readEv objs linked a b st e = st := by
  unfold readEv
  rw [if_pos hs]

theorem readEv_failed (objs : AMap Nat (List UInt8)) (linked : List Nat) (a b : Bool) (rd : Reader) (hd : List Nat)
    (msgs : List (List UInt8 × Int)) (ok : Bool) (e : Event) (hk : rd.known.find e.id = some false)
    (hs : e.id ∉ hd) (ht : e.type = .updated) :
    readEv objs linked a b (rd, hd, msgs, ok) e = (rd, e.id :: hd, msgs, false) := by
  unfold readEv
  simp [hs, hk, ht]

theorem FInv.step {P : Nat → Proc} {w : SW} {q id : Nat} (h : FInv w q id) (x : SIn) (hx : InPoll q x) :
    FInv (step P w x) q id := by
  cases x with
  | act y => simp only [ShmReg.step]; split <;> exact h.congr rfl
  | bind p id' now ok evOk =>
    simp only [ShmReg.step, createFile]
    repeat' split
    all_goals exact h.congr rfl
  | unbind p now evOk =>
    simp only [ShmReg.step, destroyFile]
    repeat' split
    all_goals exact h.congr rfl
  | write1 p a b n ok =>
    simp only [ShmReg.step]
    split
    · exact h.congr (by rw [sendList_rd])
    · exact h
  | write2 p n ok =>
    simp only [ShmReg.step]
    split
    · exact h.congr (by rw [sendList_rd])
    · exact h
  | wnext p now ok => exact h.congr (by simp only [ShmReg.step]; rw [contWrite_rd])
  | crash => exact h.congr rfl
  | attach p => exact h.congr (upd_ne _ _ _ _ (Ne.symm hx))
  | pollBegin p now ok =>
    simp only [ShmReg.step]
    split
    · rename_i hc
      refine h.congr (upd_ne _ _ _ _ ?_)
      intro e
      subst e
      obtain ⟨k, hk, _⟩ := h.work
      rw [hk] at hc
      simp at hc
    · exact h
  | pollNext p a b =>
    by_cases hp : p = q
    · subst hp
      obtain ⟨k, hk, hw⟩ := h.work
      obtain ⟨k', hk', hsn⟩ := h.seen
      rw [hk] at hk'
      cases hk'
      obtain ⟨todo, handled, msgs, ok⟩ := k
      simp only at hw hsn
      simp only [ShmReg.step, hk]
      cases todo with
      | nil => exact h
      | cons e es =>
        simp only
        by_cases hid : e.id = id
        · by_cases hs : e.id ∈ handled
          · rw [readEv_seen _ _ _ _ _ _ hs]
            refine ⟨by simp only [upd_self]; exact h.known,
              ⟨⟨es, handled, msgs, ok⟩, by simp only [upd_self], Or.inl ?_⟩,
              ⟨⟨es, handled, msgs, ok⟩, by simp only [upd_self], Or.inl (hid ▸ hs)⟩⟩
            rcases hw with hw | ⟨hw, _⟩
            · exact hw
            · exact absurd (hid ▸ hs) hw
          · have ht : e.type = .updated := by
              have hpos : ∃ pre p ts post, e :: es = pre ++ ⟨p, ts, id, .updated⟩ :: post ∧ ∀ e ∈ pre, e.id ≠ id := by
                rcases hsn with h1 | h1
                · exact absurd (hid ▸ h1) hs
                · exact h1
              obtain ⟨pre, p', ts, post, e1, h2⟩ := hpos
              cases pre with
              | nil =>
                simp only [List.nil_append, List.cons.injEq] at e1
                rw [e1.1]
              | cons a pre =>
                simp only [List.cons_append, List.cons.injEq] at e1
                exact absurd (e1.1 ▸ hid) (h2 a List.mem_cons_self)
            rw [readEv_failed _ _ _ _ _ _ _ _ e (hid ▸ h.known) hs ht]
            exact ⟨by simp only [upd_self]; exact h.known,
              ⟨⟨es, e.id :: handled, msgs, false⟩, by simp only [upd_self], Or.inl rfl⟩,
              ⟨⟨es, e.id :: handled, msgs, false⟩, by simp only [upd_self], Or.inl (by simp [hid])⟩⟩
        · obtain ⟨h1, h2, h3⟩ := readEv_other w.objs w.linked a b (w.rd p).base handled msgs ok e id hid
          have hpos : (∃ pre p ts post, e :: es = pre ++ ⟨p, ts, id, .updated⟩ :: post ∧ ∀ e ∈ pre, e.id ≠ id) →
              ∃ pre p ts post, es = pre ++ ⟨p, ts, id, .updated⟩ :: post ∧ ∀ e ∈ pre, e.id ≠ id := by
            rintro ⟨pre, p', ts, post, e1, h2⟩
            cases pre with
            | nil =>
              simp only [List.nil_append, List.cons.injEq] at e1
              exact absurd (by rw [e1.1]) hid
            | cons a pre =>
              simp only [List.cons_append, List.cons.injEq] at e1
              exact ⟨pre, p', ts, post, e1.2, fun e he => h2 e (List.mem_cons_of_mem _ he)⟩
          refine ⟨by simp only [upd_self, h1]; exact h.known,
            ⟨⟨es, _, _, _⟩, by simp only [upd_self]; rfl, ?_⟩,
            ⟨⟨es, _, _, _⟩, by simp only [upd_self]; rfl, ?_⟩⟩
          · rcases hw with hw | ⟨hw, hw'⟩
            · exact Or.inl (h3 hw)
            · exact Or.inr ⟨fun hx => hw (h2.1 hx), hpos hw'⟩
          · rcases hsn with hw | hw
            · exact Or.inl (h2.2 hw)
            · exact Or.inr (hpos hw)
    · simp only [ShmReg.step]
      split
      · exact h.congr (upd_ne _ _ _ _ (Ne.symm hp))
      · exact h
  | pollEnd p =>
    simp only [ShmReg.step]
    split
    · exact h.congr (upd_ne _ _ _ _ (Ne.symm hx))
    · exact h
  | apply p now =>
    simp only [ShmReg.step]
    split
    · rename_i m ms hm
      by_cases hp : p = q
      · subst hp
        exact ⟨by simp only [upd_self]; exact h.known, by simp only [upd_self]; exact h.work,
          by simp only [upd_self]; exact h.seen⟩
      · exact h.congr (upd_ne _ _ _ _ (Ne.symm hp))
    · exact h

/-- **C108 (a payload file that could not be opened once silences everybody).** An attempt of process `q` to
open the payload file of some process failed.  Whenever a later poll of `q` finds an update of that file as
its newest event, the poll yields nothing – no sample of any process – whatever else happens during the poll
and although every access may work now; and the file is still not opened afterwards. -/
theorem C108_failed_open_silences_all (P : Nat → Proc) (w : SW) (q id : Nat) (k : Work) (h : List SIn)
    (hb : (w.rd q).work = some k) (hfirst : k.handled = [])
    (hknown : (w.rd q).base.known.find id = some false)
    (hev : ∃ pre p ts post, k.todo = pre ++ ⟨p, ts, id, .updated⟩ :: post ∧ ∀ e ∈ pre, e.id ≠ id)
    (hq : ∀ x ∈ h, InPoll q x)
    (hdone : ∃ k', ((run P w h).rd q).work = some k' ∧ k'.todo = []) :
    ((step P (run P w h) (.pollEnd q)).rd q).inbox = [] ∧
      ((step P (run P w h) (.pollEnd q)).rd q).base.known.find id = some false := by
  have h0 : FInv w q id :=
    ⟨hknown, ⟨k, hb, Or.inr ⟨by simp [hfirst], hev⟩⟩, ⟨k, hb, Or.inr hev⟩⟩
  have hr : FInv (run P w h) q id := by
    clear hdone hb hev hknown hfirst
    induction h generalizing w with
    | nil => exact h0
    | cons x h ih =>
      exact ih (step P w x) (fun y hy => hq y (List.mem_cons_of_mem _ hy)) (h0.step x (hq x List.mem_cons_self))
  obtain ⟨k1, hk1, hw⟩ := hr.work
  obtain ⟨k2, hk2, htodo⟩ := hdone
  rw [hk1] at hk2
  cases hk2
  obtain ⟨todo, handled, msgs, ok⟩ := k1
  simp only at htodo hw
  subst htodo
  have hok : ok = false := by
    rcases hw with h | ⟨_, pre, p, ts, post, e, _⟩
    · exact h
    · exact absurd (congrArg List.length e) (by simp)
  subst hok
  simp only [step, hk1, upd_self]
  exact ⟨by simp, hr.known⟩

/-- **C108 (a writer that could not get the lock takes a new file).** After an access of the writer failed, the
next list is not written into the same file: a new one is created, and the old one is given up. -/
theorem C108_failed_access_new_file (P : Nat → Proc) (w : SW) (A : Nat) (r : Wr) (d : Bytes) (t : Int)
    (l : List RegSample) (hl : l ≠ []) (x : SIn) (new : Nat) (hr : w.wr A = some r) (hpc : r.pc = .access d)
    (hx : (∃ f b, x = .write1 A f b new true) ∨ x = .write2 A new true)
    (hw : (step P (step P w (.wnext A t false)) x).written = w.written ++ [(A, l)]) :
    ∃ r', (step P (step P w (.wnext A t false)) x).wr A = some r' ∧ r'.id = r.id ∧
      r'.pc = .gone (Wire.serializeRegList l) new ∧
      new ∈ (step P (step P w (.wnext A t false)) x).linked := by
  have e1 : step P w (.wnext A t false) =
      { w with wr := upd w.wr A (some { r with reset := true, pc := .idle }) } := by
    simp only [step, contWrite, hr, hpc, Bool.false_eq_true, if_false]
  rw [e1] at hw ⊢
  have key : ∀ (w' : SW), w'.wr A = some { r with reset := true, pc := .idle } →
      ∃ r', (sendList w' A l new true).wr A = some r' ∧ r'.id = r.id ∧
        r'.pc = .gone (Wire.serializeRegList l) new ∧ new ∈ (sendList w' A l new true).linked := by
    intro w' h
    unfold sendList
    simp only [if_neg hl]
    unfold beginWrite
    simp only [h, or_true, if_true, upd_self]
    exact ⟨_, rfl, rfl, rfl, create_self _ _⟩
  have wr0 : ∀ (w' : SW) (l' : List RegSample), (sendList w' A l' new true).written = w'.written ++ [(A, l')] := by
    intro w' l'
    unfold sendList
    simp only
    split
    · rfl
    · unfold beginWrite
      repeat' split
      all_goals first | rfl | exact createFile_written _ _
  rcases hx with ⟨f, b, rfl⟩ | rfl
  · simp only [step] at hw ⊢
    split at hw
    · rename_i hc
      rw [if_pos hc]
      rw [wr0] at hw
      have := List.append_cancel_left hw
      simp only [List.cons.injEq, Prod.mk.injEq, true_and, and_true] at this
      rw [this]
      exact key _ (upd_self _ _ _)
    · have := congrArg List.length hw
      simp at this
  · simp only [step] at hw ⊢
    split at hw
    · rename_i hc
      rw [if_pos hc]
      rw [wr0] at hw
      have := List.append_cancel_left hw
      simp only [List.cons.injEq, Prod.mk.injEq, true_and, and_true] at this
      rw [this]
      exact key _ (upd_self _ _ _)
    · have := congrArg List.length hw
      simp at this

/-! ## Examples -/

instance (w : SW) (x : SIn) : Decidable (FreshStep w x) :=
  match x with
  | .bind _ id _ _ _ => inferInstanceAs (Decidable (w.objs.find id = none))
  | .write1 _ _ _ new _ => inferInstanceAs (Decidable (w.objs.find new = none))
  | .write2 _ new _ => inferInstanceAs (Decidable (w.objs.find new = none))
  | .act _ | .unbind .. | .wnext .. | .crash | .attach _ | .pollBegin .. | .pollNext .. | .pollEnd _ | .apply .. =>
    inferInstanceAs (Decidable True)

instance decFresh (P : Nat → Proc) : (w : SW) → (h : List SIn) → Decidable (FreshIds P w h)
  | _, [] => inferInstanceAs (Decidable True)
  | w, x :: h =>
    have := decFresh P (step P w x) h
    inferInstanceAs (Decidable (FreshStep w x ∧ FreshIds P (step P w x) h))

instance (w : SW) (x : SIn) : Decidable (RemStep w x) :=
  match x with
  | .unbind _ _ evOk => inferInstanceAs (Decidable (evOk = true))
  | .wnext p _ ok => inferInstanceAs (Decidable (leaving (w.wr p) = true → ok = true))
  | .act _ | .bind .. | .write1 .. | .write2 .. | .crash | .attach _ | .pollBegin .. | .pollNext .. | .pollEnd _
  | .apply .. => inferInstanceAs (Decidable True)

instance decRem (P : Nat → Proc) : (w : SW) → (h : List SIn) → Decidable (RemAnnounced P w h)
  | _, [] => inferInstanceAs (Decidable True)
  | w, x :: h =>
    have := decRem P (step P w x) h
    inferInstanceAs (Decidable (RemStep w x ∧ RemAnnounced P (step P w x) h))

instance decClock : (c : Int) → (h : List Bcast.Op) → Decidable (Bcast.StrictClock c h)
  | _, [] => inferInstanceAs (Decidable True)
  | c, .send _ ts _ _ :: h =>
    have := decClock ts h
    inferInstanceAs (Decidable (c < ts ∧ Bcast.StrictClock ts h))
  | c, .flushGlobal now :: h =>
    have := decClock now h
    inferInstanceAs (Decidable (c ≤ now ∧ Bcast.StrictClock now h))
  | c, .poll .. :: h => decClock c h
  | c, .flushLocal _ :: h => decClock c h
  | c, .crash :: h => decClock c h

def c0 : Nat → Event := fun _ => ⟨0, 0, 0, .created⟩

/-- Processes on one host. -/
def shP (p : Nat) : Proc :=
  { host := [104], group := [103], pid := .ofNat 32 (100 + p), network := false, loopback := false, timeout := 10,
    ptid := fun i => List.replicate (p + 1) 112 ++ 0 :: List.replicate i 112,
    stid := fun j => List.replicate (p + 1) 115 ++ 0 :: List.replicate j 115 }

/-- The registration of process 1 itself. -/
def proc1 : RegSample := { cmd := 4, hostName := [104], processId := 101 }

def exW (h : List SIn) : SW := run shP (init 4 0 c0) h

/-- Process 0 has a publisher and process 1 a subscriber of topic "t"; process 1 has opened its payload file
and collected its registrations. -/
def exBefore : List SIn :=
  [.act (.newPub 0 1 [116]), .act (.newSub 1 2 [116]), .bind 1 100 1 true true, .attach 0,
   .act (.collect 1 2 Disc.noInfo Disc.noInfo)]

def exAll : List SIn := exBefore ++ .write1 1 [proc1] [] 101 true :: [.wnext 1 3 true, .wnext 1 4 true]

/-- A poll of process 0 that finds `n` events. -/
def exPoll (t : Int) (n : Nat) : List SIn :=
  .pollBegin 0 t true :: (List.replicate n (.pollNext 0 true true) ++ [.pollEnd 0])

/-- What the example of `C108_list_reaches_reader` needs: the list has the registration of the process and the
one of the subscriber, and both are received. -/
example :
    (exW (exBefore ++ [.write1 1 [proc1] [] 101 true])).written.map (fun x => (x.1, x.2.map (·.cmd))) =
      (exW exBefore).written.map (fun x => (x.1, x.2.map (·.cmd))) ++ [(1, [4, 3])] ∧
    FreshIds shP (init 4 0 c0) (exAll ++ .pollBegin 0 5 true :: [.pollNext 0 true true]) ∧
    RemAnnounced shP (init 4 0 c0) exAll ∧
    Bcast.StrictClock 0 (ops shP (init 4 0 c0) exAll) ∧
    ((exW (exBefore ++ [.write1 1 [proc1] [] 101 true, .wnext 1 3 true])).wr 1).map (·.pc == .notify) = some true ∧
    ((exW exAll).rd 0).work.isNone ∧ ((exW exAll).rd 0).inbox = [] ∧
    (pendOf 0 [] (ops shP (init 4 0 c0) exAll)).length = 1 ∧
    ((exW exAll).rd 0).base.known = [] ∧
    ((exW (exAll ++ [.pollBegin 0 5 true, .pollNext 0 true true])).rd 0).work.map (·.todo) = some [] ∧
    ((exW (exAll ++ exPoll 5 1)).rd 0).inbox.map (·.cmd) = [4, 3] := by
  decide +kernel

/-- What `C108_failed_access_new_file` needs. -/
example :
    let h : List SIn := exBefore ++ [.write1 1 [proc1] [] 101 true]
    let h' : List SIn := h ++ [.wnext 1 3 false]
    ((exW h).wr 1).map (fun r => pcData r.pc == some (Wire.serializeRegList [proc1])) = some false ∧
    ((exW h').wr 1).map (·.pc == .idle) = some true ∧
    (exW (h' ++ [.write2 1 102 true])).written.length = 2 ∧
    (exW (h' ++ [.act (.delSub 1 2 [116] {}), .write2 1 102 true])).linked = [102, 100] := by
  decide +kernel

/-- Names are unique. -/
example (B j : Nat) : ∀ B' j', Disc.speer (shP B') j' = Disc.speer (shP B) j → B' = B ∧ j' = j := by
  intro B' j' h
  simp only [Disc.speer, shP, Conn.Peer.mk.injEq, true_and] at h
  have h2 := str_inj h.2
  have key : ∀ (a b c d : Nat), List.replicate (a + 1) (115 : UInt8) ++ 0 :: List.replicate b 115 =
      List.replicate (c + 1) 115 ++ 0 :: List.replicate d 115 → a = c ∧ b = d := by
    intro a b c d h
    have hlen := congrArg List.length h
    simp only [List.length_append, List.length_replicate, List.length_cons] at hlen
    have hg : ∀ a b c d : Nat, a < c → List.replicate (a + 1) (115 : UInt8) ++ 0 :: List.replicate b 115 ≠
        List.replicate (c + 1) 115 ++ 0 :: List.replicate d 115 := by
      intro a b c d hlt h
      have h1 := congrArg (fun l => l[a + 1]?) h
      rw [List.getElem?_append_right (by simp), List.getElem?_append_left (by simp; omega)] at h1
      simp at h1
      rw [List.getElem?_replicate] at h1
      split at h1
      · simp at h1
      · omega
    rcases Nat.lt_trichotomy a c with h1 | h1 | h1
    · exact absurd h (hg a b c d h1)
    · omega
    · exact absurd h.symm (hg c d a b h1)
  exact key B' j' B j h2

/-- The publisher of process 0 has learned of the subscriber (see `C108_publisher_learns`). -/
def exKnown : List SIn := exAll ++ exPoll 5 1 ++ [.apply 0 5, .apply 0 5, .write2 1 102 true]

example : Disc.knows ((exW (exKnown ++ [.act (.collect 0 6 Disc.noInfo Disc.noInfo)])).st 0).pg
    (Disc.speer (shP 1) 2) = true := by decide +kernel

/-- **C108 violated (an unregistration gets lost).** The subscriber is destroyed and process 1 writes and
announces the unregistration; every access works.  Before process 0 polls, the next cycle of process 1 writes
into the same payload file.  Process 0 never gets the unregistration, and its publisher keeps a subscriber
nobody has (until the timeout). -/
theorem C108_violated_unregistration_lost :
    let cycle1 : List SIn := [.act (.delSub 1 2 [116] {}), .act (.collect 1 6 Disc.noInfo Disc.noInfo),
      .write1 1 [proc1] [] 103 true, .wnext 1 7 true, .wnext 1 8 true,
      .write2 1 104 true, .wnext 1 9 true, .wnext 1 10 true]
    let cycle2 : List SIn := [.act (.collect 1 11 Disc.noInfo Disc.noInfo),
      .write1 1 [proc1] [] 105 true, .wnext 1 12 true, .wnext 1 13 true, .write2 1 106 true]
    let h := exKnown ++ cycle1 ++ cycle2 ++ exPoll 14 3
    (∃ x ∈ (exW h).written, x.1 = 1 ∧ ∃ m ∈ x.2, m.cmd = 13) ∧
    ((exW h).rd 0).inbox.map (·.cmd) = [4] ∧
    ((exW h).st 1).sg.length = 0 ∧
    Disc.knows ((exW (h ++ [.apply 0 14, .act (.collect 0 14 Disc.noInfo Disc.noInfo)])).st 0).pg
      (Disc.speer (shP 1) 2) = true := by
  decide +kernel

/-- **C108 violated (registrations get lost when something is added).** In one cycle process 1 writes the list
of its registrations, announces it, and then writes what was added in between into the same payload file.
Process 0 polls after both writes and gets two events, and only the second list: the registration of the
subscriber and of the process itself are missing, although every access worked. -/
theorem C108_violated_registrations_overwritten :
    let h := exBefore.dropLast ++ ([.act (.newSub 1 3 [117]), .act (.delSub 1 3 [117] {}),
      .act (.collect 1 2 Disc.noInfo Disc.noInfo),
      .write1 1 [proc1] [] 101 true, .wnext 1 3 true, .wnext 1 4 true,
      .write2 1 102 true, .wnext 1 5 true, .wnext 1 6 true] : List SIn)
    (exW h).written.map (fun x => x.2.map (·.cmd)) = [[4, 3], [13]] ∧
    (pendOf 0 [] (ops shP (init 4 0 c0) h)).length = 2 ∧
    ((exW (h ++ exPoll 7 2)).rd 0).inbox.map (·.cmd) = [13] := by
  decide +kernel

/-- **C108 violated (one process that leaves takes the registrations of the others along).** Processes 1 and 2
have announced their lists; process 0 begins to poll; process 2 leaves and removes its payload file before
process 0 has opened it.  The poll yields nothing, and the next one neither: the list of process 1 was read
and is lost. -/
theorem C108_violated_leaving_process :
    let h := exAll ++ ([.bind 2 200 5 true true, .act (.newSub 2 7 [116]),
      .act (.collect 2 5 Disc.noInfo Disc.noInfo),
      .write1 2 [] [] 201 true, .wnext 2 6 true, .wnext 2 7 true] : List SIn)
    let p := h ++ ([.pollBegin 0 8 true, .unbind 2 9 true, .pollNext 0 true true, .pollNext 0 true true,
      .pollNext 0 true true, .pollEnd 0] : List SIn)
    ((exW (h ++ exPoll 8 3)).rd 0).inbox.map (·.cmd) = [3, 3, 4, 3] ∧
    ((exW p).rd 0).work.isNone ∧ ((exW p).rd 0).inbox = [] ∧
    ((exW (p ++ exPoll 10 1)).rd 0).work.isNone ∧ ((exW (p ++ exPoll 10 1)).rd 0).inbox = [] := by
  decide +kernel

/-- **C108 violated (a failed open is never repeated).** Process 0 could not open the payload file of process
2 once.  From then on a poll in which process 2 has updated its file yields nothing, also of process 1,
although every access works (see `C108_failed_open_silences_all`). -/
theorem C108_violated_failed_open :
    let cyc (p : Nat) (t : Int) (new : Nat) : List SIn :=
      [.act (.collect p t Disc.noInfo Disc.noInfo), .write1 p [] [] new true, .wnext p (t + 1) true,
       .wnext p (t + 2) true, .write2 p (new + 1) true]
    let h := exAll ++ ([.write2 1 102 true, .bind 2 200 5 true true, .act (.newSub 2 7 [116]),
      .pollBegin 0 6 true, .pollNext 0 false true, .pollNext 0 true true, .pollEnd 0] : List SIn)
    ((exW h).rd 0).base.known.find 200 = some false ∧
    ((exW (h ++ cyc 1 7 300 ++ cyc 2 10 302 ++ exPoll 13 2)).rd 0).inbox = [] ∧
    ((exW (h ++ cyc 1 7 300 ++ exPoll 13 1)).rd 0).inbox.map (·.cmd) = [3] ∧
    ((exW (h ++ cyc 1 7 300 ++ cyc 2 10 302 ++ exPoll 13 2 ++ cyc 1 14 304 ++ cyc 2 17 306 ++ exPoll 20 2)).rd 0).inbox
      = [] := by
  decide +kernel

end Ecal.E2E.ShmReg
