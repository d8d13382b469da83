import Verif.Mon.Svc
import Verif.Mon.TopicProps

/-!
# C132: a server or client is shown with its methods as they are
-/

namespace Ecal.MonSvc

open Ecal.Wire (Bytes RegSample Method bytesLt serializeReg deserializeReg)
open Ecal.MonTopic (Since since_snoc since_nil snocInd)

/-! ## Specification -/

/-- The method was described or given a callback, and not removed since. -/
def Present (h : List SrvOp) (n : Bytes) : Prop :=
  Since (fun o => (∃ a b : TI, o = .describe n a b) ∨ ∃ a b : Bytes, o = .addCb n a b) (fun o => o = .remCb n) h

/-- The names of the types of the method, as said last. -/
def TypesAre (h : List SrvOp) (n req resp : Bytes) : Prop :=
  Since (fun o => (∃ d d' : Bytes, o = .describe n ⟨req, d⟩ ⟨resp, d'⟩) ∨ o = .addCb n req resp)
    (fun o => (∃ a b : TI, o = .describe n a b) ∨ (∃ a b : Bytes, o = .addCb n a b) ∨ o = .remCb n) h

/-- The descriptions of the types, as said last; none if nothing was said since the method was removed. -/
def DescsAre (h : List SrvOp) (n req resp : Bytes) : Prop :=
  Since (fun o => ∃ a b : Bytes, o = .describe n ⟨a, req⟩ ⟨b, resp⟩) (fun o => (∃ a b : TI, o = .describe n a b) ∨ o = .remCb n) h ∨
  (¬ Since (fun o => ∃ a b : TI, o = .describe n a b) (fun o => o = .remCb n) h ∧ Present h n ∧ req = [] ∧ resp = [])

/-- What the monitoring shows of a server after a registration made after the history has arrived. -/
def SrvShown (sname sid : Bytes) (e : Env) (h : List SrvOp) (en : Entry) : Prop :=
  ∃ m : RegSample, deserializeReg {} (serializeReg (srvSample sname sid e (srvRun [] h).1)) = some m ∧ en = srvEntry m

def SrvFits (sname sid : Bytes) (e : Env) (h : List SrvOp) : Prop := (serializeReg (srvSample sname sid e (srvRun [] h).1)).length < 2 ^ 32

def CliShown (sname sid : Bytes) (e : Env) (d : List (Bytes × TI × TI)) (h : List Call) (en : Entry) : Prop :=
  ∃ m : RegSample, deserializeReg {} (serializeReg (cliSample sname sid e (cliRun (cliNew d) h))) = some m ∧ en = cliEntry m

def CliFits (sname sid : Bytes) (e : Env) (d : List (Bytes × TI × TI)) (h : List Call) : Prop :=
  (serializeReg (cliSample sname sid e (cliRun (cliNew d) h))).length < 2 ^ 32

/-- The server has a port for every protocol that is switched on. -/
def HasPorts (e : Env) : Prop := e.v0 ≠ some 0 ∧ e.v1 ≠ some 0

/-- Number of requests for the method that were accepted by a server. -/
def accepted (h : List Call) (n : Bytes) : Nat := (h.map (fun c => if c.name = n ∧ n ≠ [] then (c.accepted.filter id).length else 0)).sum

/-! ## Maps -/

def Sorted {α : Type} (l : Map α) : Prop := l.Pairwise (fun p q => bytesLt p.1 q.1 = true)

theorem get_put {α : Type} (l : Map α) (n k : Bytes) (v : α) (h : Sorted l) : get (put l n v) k = if k = n then some v else get l k := by
  induction l with
  | nil =>
    simp only [put, get]
    by_cases hk : k = n
    · rw [if_pos hk, if_pos hk.symm]
    · rw [if_neg hk, if_neg (fun e => hk e.symm)]
  | cons q l ih =>
    have hp := List.pairwise_cons.1 h
    have ih := ih hp.2
    simp only [put]
    by_cases hq : q.1 = n
    · rw [if_pos hq]
      simp only [get]
      by_cases hk : k = n
      · rw [if_pos hk, if_pos hk.symm]
      · rw [if_neg hk, if_neg (fun e => hk e.symm), if_neg (fun e => hk (e.symm.trans hq))]
    · rw [if_neg hq]
      by_cases hl : bytesLt n q.1 = true
      · rw [if_pos hl]
        simp only [get]
        by_cases hk : k = n
        · rw [if_pos hk, if_pos hk.symm]
        · rw [if_neg hk, if_neg (fun e => hk e.symm)]
      · rw [if_neg hl]
        simp only [get, ih]
        by_cases hk : k = n
        · rw [if_pos hk, if_neg (fun e => hq (e.trans hk))]
          simp [hk]
        · simp [hk]

theorem mem_put {α : Type} (l : Map α) (n : Bytes) (v : α) (q : Bytes × α) (hq : q ∈ put l n v) : q.1 = n ∨ q ∈ l := by
  induction l with
  | nil => simp only [put, List.mem_singleton] at hq; exact Or.inl (by rw [hq])
  | cons x l ih =>
    simp only [put] at hq
    split at hq
    · rcases List.mem_cons.1 hq with rfl | hq
      · exact Or.inl rfl
      · exact Or.inr (List.mem_cons_of_mem _ hq)
    · split at hq
      · rcases List.mem_cons.1 hq with rfl | hq
        · exact Or.inl rfl
        · exact Or.inr hq
      · rcases List.mem_cons.1 hq with rfl | hq
        · exact Or.inr List.mem_cons_self
        · exact (ih hq).imp id (List.mem_cons_of_mem _)

theorem sorted_put {α : Type} (l : Map α) (n : Bytes) (v : α) (h : Sorted l) : Sorted (put l n v) := by
  induction l with
  | nil => exact List.pairwise_cons.2 ⟨by simp, List.Pairwise.nil⟩
  | cons q l ih =>
    have hp := List.pairwise_cons.1 h
    simp only [put]
    by_cases hq : q.1 = n
    · rw [if_pos hq]
      exact List.pairwise_cons.2 ⟨fun y hy => by rw [← hq]; exact hp.1 y hy, hp.2⟩
    · rw [if_neg hq]
      by_cases hl : bytesLt n q.1 = true
      · rw [if_pos hl]
        refine List.pairwise_cons.2 ⟨fun y hy => ?_, h⟩
        rcases List.mem_cons.1 hy with rfl | hy
        · exact hl
        · exact MonTopic.bytesLt_trans _ _ _ hl (hp.1 y hy)
      · rw [if_neg hl]
        have hl' : bytesLt n q.1 = false := by simpa using hl
        refine List.pairwise_cons.2 ⟨fun y hy => ?_, ih hp.2⟩
        rcases mem_put l n v y hy with e | hy
        · rw [e]; exact MonTopic.bytesLt_total _ _ (fun e => hq e.symm) hl'
        · exact hp.1 y hy

theorem get_none_of {α : Type} (l : Map α) (k : Bytes) (h : ∀ q ∈ l, q.1 ≠ k) : get l k = none := by
  induction l with
  | nil => rfl
  | cons q l ih =>
    simp only [get]
    rw [if_neg (h q List.mem_cons_self)]
    exact ih (fun x hx => h x (List.mem_cons_of_mem _ hx))

theorem get_del {α : Type} (l : Map α) (n k : Bytes) : get (del l n) k = if k = n then none else get l k := by
  by_cases hk : k = n
  · rw [if_pos hk]
    exact get_none_of _ _ (fun q hq => by
      have := (List.mem_filter.1 hq).2
      rw [hk]
      simpa using this)
  · rw [if_neg hk]
    induction l with
    | nil => rfl
    | cons q l ih =>
      unfold del at ih ⊢
      by_cases hq : q.1 = n
      · rw [List.filter_cons_of_neg (by simp [hq])]
        simp only [get]
        rw [if_neg (fun e => hk (e.symm.trans hq)), ih]
      · rw [List.filter_cons_of_pos (by simp [hq])]
        simp only [get, ih]

theorem sorted_del {α : Type} (l : Map α) (n : Bytes) (h : Sorted l) : Sorted (del l n) := List.Pairwise.filter _ h

theorem mem_get {α : Type} (l : Map α) (h : Sorted l) (n : Bytes) (v : α) : (n, v) ∈ l ↔ get l n = some v := by
  induction l with
  | nil => simp [get]
  | cons q l ih =>
    have hp := List.pairwise_cons.1 h
    simp only [get, List.mem_cons]
    by_cases hq : q.1 = n
    · rw [if_pos hq]
      constructor
      · rintro (e | hm)
        · rw [← e]
        · have := hp.1 _ hm
          rw [hq] at this
          simp only at this
          rw [Wire.bytesLt_irrefl] at this
          cases this
      · intro e
        cases e
        exact Or.inl (by rw [← hq])
    · rw [if_neg hq, ← ih hp.2]
      constructor
      · rintro (e | hm)
        · exact absurd (by rw [← e]) hq
        · exact hm
      · exact Or.inr

/-! ## Server -/

/-- What a call does to one method. -/
def upd (n : Bytes) (o : SrvOp) (m : Option M) : Option M :=
  match o with
  | .describe k req resp => if n = k then some (match m with | some m => { m with req := req, resp := resp } | none => { req := req, resp := resp }) else m
  | .addCb k req resp =>
    if n = k then some (match m with
      | some m => { m with req := { m.req with name := req }, resp := { m.resp with name := resp }, cb := true }
      | none => { req := { name := req }, resp := { name := resp }, cb := true }) else m
  | .remCb k => if n = k then none else m
  | .call k => if n = k then m.map (fun m => { m with calls := m.calls + 1 }) else m

theorem srv_step (s : Map M) (hs : Sorted s) (o : SrvOp) : Sorted (srvStep s o).1 ∧ ∀ n : Bytes, get (srvStep s o).1 n = upd n o (get s n) := by
  cases o with
  | describe k req resp =>
    simp only [srvStep, upd]
    cases hk : get s k with
    | none => exact ⟨sorted_put _ _ _ hs, fun n => by rw [get_put _ _ _ _ hs]; by_cases hn : n = k <;> simp_all⟩
    | some m => exact ⟨sorted_put _ _ _ hs, fun n => by rw [get_put _ _ _ _ hs]; by_cases hn : n = k <;> simp_all⟩
  | addCb k req resp =>
    simp only [srvStep, upd]
    cases hk : get s k with
    | none => exact ⟨sorted_put _ _ _ hs, fun n => by rw [get_put _ _ _ _ hs]; by_cases hn : n = k <;> simp_all⟩
    | some m => exact ⟨sorted_put _ _ _ hs, fun n => by rw [get_put _ _ _ _ hs]; by_cases hn : n = k <;> simp_all⟩
  | remCb k => exact ⟨sorted_del _ _ hs, fun n => by simp only [srvStep, upd]; rw [get_del]⟩
  | call k =>
    simp only [srvStep, upd]
    cases hk : get s k with
    | none => exact ⟨hs, fun n => by by_cases hn : n = k <;> simp_all⟩
    | some m => exact ⟨sorted_put _ _ _ hs, fun n => by rw [get_put _ _ _ _ hs]; by_cases hn : n = k <;> simp_all⟩

theorem srvRun_snoc (s : Map M) (h : List SrvOp) (o : SrvOp) :
    srvRun s (h ++ [o]) = ((srvStep (srvRun s h).1 o).1, (srvRun s h).2 ++ [(srvStep (srvRun s h).1 o).2]) := by
  induction h generalizing s with
  | nil => rfl
  | cons x h ih => simp only [List.cons_append, srvRun, ih]

theorem srv_sorted (h : List SrvOp) : Sorted (srvRun [] h).1 := by
  induction h using snocInd with
  | h0 => exact List.Pairwise.nil
  | h1 h o ih => rw [srvRun_snoc]; exact (srv_step _ ih o).1

theorem srv_get (h : List SrvOp) (o : SrvOp) (n : Bytes) : get (srvRun [] (h ++ [o])).1 n = upd n o (get (srvRun [] h).1 n) := by
  rw [srvRun_snoc]
  exact (srv_step _ (srv_sorted h) o).2 n

/-- The state of one method against the history. -/
theorem srv_spec (h : List SrvOp) (n : Bytes) :
    ((get (srvRun [] h).1 n).isSome = true ↔ Present h n) ∧
    ((get (srvRun [] h).1 n).any (fun m => m.req.desc ≠ [] ∨ m.resp.desc ≠ []) = true → Since (fun o => ∃ a b : TI, o = .describe n a b) (fun o => o = .remCb n) h) ∧
    ∀ m : M, get (srvRun [] h).1 n = some m → TypesAre h n m.req.name m.resp.name ∧ DescsAre h n m.req.desc m.resp.desc := by
  induction h using snocInd with
  | h0 =>
    refine ⟨⟨fun h => ?_, fun h => absurd h (since_nil _ _)⟩, fun h => ?_, fun m hm => ?_⟩
    · simp [srvRun, get] at h
    · simp [srvRun, get] at h
    · simp [srvRun, get] at hm
  | h1 h o ih =>
    rw [srv_get]
    obtain ⟨i1, i2, i3⟩ := ih
    generalize get (srvRun [] h).1 n = g at *
    simp only [Present, TypesAre, DescsAre, since_snoc] at *
    cases o with
    | describe k req resp =>
      by_cases hn : n = k
      · subst hn
        refine ⟨?_, ?_, ?_⟩
        · simp [upd]
        · simp
        · intro m hm
          simp only [upd, if_pos] at hm
          cases g <;> simp at hm <;> subst hm <;>
            exact ⟨Or.inl (Or.inl ⟨_, _, rfl⟩), Or.inl (Or.inl ⟨_, _, rfl⟩)⟩
      · have hk : ¬ k = n := fun e => hn e.symm
        simp_all [upd]
    | addCb k req resp =>
      by_cases hn : n = k
      · subst hn
        refine ⟨?_, ?_, ?_⟩
        · simp [upd]
        · intro h
          refine Or.inr ⟨by simp, i2 ?_⟩
          simp only [upd, if_pos] at h
          cases g <;> simp_all
        · intro m hm
          simp only [upd, if_pos] at hm
          cases g with
          | none =>
            simp at hm
            subst hm
            refine ⟨by simp, ?_⟩
            simp only [Option.isSome_none, Bool.false_eq_true, false_iff] at i1
            right
            refine ⟨?_, by simp, rfl, rfl⟩
            rintro (⟨a, b, e⟩ | ⟨_, a, o, b, rfl, ⟨x, y, rfl⟩, hb⟩)
            · cases e
            · exact i1 ⟨a, _, b, rfl, Or.inl ⟨x, y, rfl⟩, hb⟩
          | some m' =>
            simp at hm
            subst hm
            refine ⟨by simp, ?_⟩
            rcases (i3 m' rfl).2 with hd | ⟨hd, _, e1, e2⟩
            · exact Or.inl (Or.inr ⟨by simp, hd⟩)
            · refine Or.inr ⟨?_, by simp, e1, e2⟩
              rintro (⟨a, b, e⟩ | ⟨_, hs⟩)
              · cases e
              · exact hd hs
      · have hk : ¬ k = n := fun e => hn e.symm
        simp_all [upd]
    | remCb k =>
      by_cases hn : n = k
      · subst hn
        simp [upd]
      · have hk : ¬ k = n := fun e => hn e.symm
        simp_all [upd]
    | call k =>
      by_cases hn : n = k
      · subst hn
        cases g <;> simp_all [upd]
      · simp_all [upd]

/-- Calls of a method are counted from the moment on it is there. -/
theorem srv_calls (a b : List SrvOp) (o : SrvOp) (n : Bytes) (ha : ¬ Present a n)
    (ho : (∃ x y : TI, o = .describe n x y) ∨ ∃ x y : Bytes, o = .addCb n x y) (hb : SrvOp.remCb n ∉ b) :
    ∃ m : M, get (srvRun [] (a ++ o :: b)).1 n = some m ∧ m.calls = (b.filter (fun x => x = .call n)).length := by
  have hg : get (srvRun [] a).1 n = none := by
    cases hg : get (srvRun [] a).1 n with
    | none => rfl
    | some m => exact absurd ((srv_spec a n).1.1 (by rw [hg]; rfl)) ha
  induction b using snocInd with
  | h0 =>
    rw [srv_get, hg]
    rcases ho with ⟨x, y, rfl⟩ | ⟨x, y, rfl⟩ <;> simp [upd]
  | h1 b c ih =>
    obtain ⟨m, hm, hc⟩ := ih (fun hm => hb (List.mem_append_left _ hm))
    have hcn : c ≠ .remCb n := fun e => hb (by rw [e]; simp)
    rw [show a ++ o :: (b ++ [c]) = (a ++ o :: b) ++ [c] by simp, srv_get, hm, List.filter_append, List.length_append, ← hc]
    cases c with
    | describe k req resp => by_cases hn : n = k <;> simp [upd, hn]
    | addCb k req resp => by_cases hn : n = k <;> simp [upd, hn]
    | remCb k =>
      have : ¬ n = k := fun e => hcn (by rw [e])
      simp [upd, this]
    | call k =>
      by_cases hn : n = k
      · subst hn; simp [upd]
      · have hk : ¬ k = n := fun e => hn e.symm
        simp [upd, hn, hk]

theorem srv_entry (sname sid : Bytes) (e : Env) (h : List SrvOp) (hf : SrvFits sname sid e h) (en : Entry) :
    SrvShown sname sid e h en ↔ en = srvEntry (srvSample sname sid e (srvRun [] h).1) := by
  have hcmd : (srvSample sname sid e (srvRun [] h).1).cmd = 5 ∧ (srvSample sname sid e (srvRun [] h).1).topic.attr = [] := by
    unfold srvSample
    by_cases h0 : e.v0 = some 0
    · rw [if_pos h0]; exact ⟨rfl, rfl⟩
    · rw [if_neg h0]
      by_cases h1 : e.v1 = some 0
      · rw [if_pos h1]; exact ⟨rfl, rfl⟩
      · rw [if_neg h1]; exact ⟨rfl, rfl⟩
  have := Wire.C28_roundtrip (srvSample sname sid e (srvRun [] h).1) (by rw [hcmd.2]; exact List.Pairwise.nil) hf
  unfold SrvShown
  rw [this]
  have ht : srvEntry (Wire.transmitted (srvSample sname sid e (srvRun [] h).1)) = srvEntry (srvSample sname sid e (srvRun [] h).1) := by
    unfold Wire.transmitted
    rw [if_neg (by rw [hcmd.1]; decide), if_pos (Or.inl hcmd.1)]
    rfl
  constructor
  · rintro ⟨m', hm, rfl⟩; cases hm; exact ht
  · intro e; exact ⟨_, rfl, by rw [e, ht]⟩

theorem cli_entry (sname sid : Bytes) (e : Env) (d : List (Bytes × TI × TI)) (h : List Call) (hf : CliFits sname sid e d h) (en : Entry) :
    CliShown sname sid e d h en ↔ en = cliEntry (cliSample sname sid e (cliRun (cliNew d) h)) := by
  have := Wire.C28_roundtrip (cliSample sname sid e (cliRun (cliNew d) h)) List.Pairwise.nil hf
  unfold CliShown
  rw [this]
  have ht : cliEntry (Wire.transmitted (cliSample sname sid e (cliRun (cliNew d) h))) = cliEntry (cliSample sname sid e (cliRun (cliNew d) h)) := by
    unfold Wire.transmitted
    have hc : (cliSample sname sid e (cliRun (cliNew d) h)).cmd = 6 := rfl
    rw [if_neg (by rw [hc]; decide), if_neg (by rw [hc]; decide), if_pos (Or.inl hc)]
    rfl
  constructor
  · rintro ⟨m', hm, rfl⟩; cases hm; exact ht
  · intro e; exact ⟨_, rfl, by rw [e, ht]⟩

theorem srv_methods (sname sid : Bytes) (e : Env) (hp : HasPorts e) (s : Map M) :
    (srvEntry (srvSample sname sid e s)).methods = s.map (fun q => wireMethod q.1 q.2.req q.2.resp q.2.calls) := by
  unfold srvSample
  rw [if_neg hp.1, if_neg hp.2]
  rfl

/-! ## Client -/

theorem cliNew_sorted (d : List (Bytes × TI × TI)) : Sorted (cliNew d) := by
  induction d with
  | nil => exact List.Pairwise.nil
  | cons x d ih => obtain ⟨n, a, b⟩ := x; exact sorted_put _ _ _ ih

theorem bump_spec (s : Map CM) (hs : Sorted s) (n : Bytes) : Sorted (bump s n) ∧
    ∀ k : Bytes, get (bump s n) k = if k = n then some (match get s n with | some m => { m with calls := m.calls + 1 } | none => { calls := 1 }) else get s k := by
  unfold bump
  cases hg : get s n with
  | none => exact ⟨sorted_put _ _ _ hs, fun k => get_put _ _ _ _ hs⟩
  | some m => exact ⟨sorted_put _ _ _ hs, fun k => get_put _ _ _ _ hs⟩

theorem bumps_spec (j : Nat) (s : Map CM) (hs : Sorted s) (n : Bytes) : Sorted (bumps s n j) ∧
    ∀ k : Bytes, get (bumps s n j) k = if k = n ∧ 0 < j then some (match get s n with | some m => { m with calls := m.calls + j } | none => { calls := j }) else get s k := by
  induction j generalizing s with
  | zero => exact ⟨hs, fun k => by simp [bumps]⟩
  | succ j ih =>
    have hb := bump_spec s hs n
    have := ih (bump s n) hb.1
    refine ⟨this.1, fun k => ?_⟩
    simp only [bumps]
    rw [this.2 k, hb.2 k, hb.2 n]
    by_cases hk : k = n
    · subst hk
      cases hg : get s k <;> by_cases hj : 0 < j <;> simp [hj]
      · omega
      · omega
      · omega
      · omega
    · simp [hk]

theorem cliRun_snoc (s : Map CM) (h : List Call) (c : Call) : cliRun s (h ++ [c]) = cliStep (cliRun s h) c := by
  induction h generalizing s with
  | nil => rfl
  | cons x h ih => simp only [List.cons_append, cliRun, ih]

/-- Types of a method, empty if it was never declared. -/
def declared (d : List (Bytes × TI × TI)) (n : Bytes) : TI × TI :=
  match d with
  | [] => ({}, {})
  | (k, a, b) :: d => if k = n then (a, b) else declared d n

theorem cliNew_get (d : List (Bytes × TI × TI)) (n : Bytes) :
    get (cliNew d) n = if n ∈ d.map (·.1) then some { req := (declared d n).1, resp := (declared d n).2 } else none := by
  induction d with
  | nil => simp [cliNew, get]
  | cons x d ih =>
    obtain ⟨k, a, b⟩ := x
    simp only [cliNew]
    rw [get_put _ _ _ _ (cliNew_sorted d), ih]
    by_cases hn : n = k
    · subst hn; simp [declared]
    · have hk : ¬ k = n := fun e => hn e.symm
      simp only [declared, hn, hk, if_false, List.map_cons, List.mem_cons, false_or]

theorem accepted_snoc (h : List Call) (c : Call) (n : Bytes) :
    accepted (h ++ [c]) n = accepted h n + if c.name = n ∧ n ≠ [] then (c.accepted.filter id).length else 0 := by
  simp [accepted]

theorem declared_none (d : List (Bytes × TI × TI)) (n : Bytes) (h : n ∉ d.map (·.1)) : declared d n = ({}, {}) := by
  induction d with
  | nil => rfl
  | cons x d ih =>
    obtain ⟨k, a, b⟩ := x
    simp only [List.map_cons, List.mem_cons, not_or] at h
    simp only [declared]
    rw [if_neg (fun e => h.1 e.symm)]
    exact ih h.2

theorem cli_spec (d : List (Bytes × TI × TI)) (h : List Call) : Sorted (cliRun (cliNew d) h) ∧ ∀ n : Bytes,
    get (cliRun (cliNew d) h) n = if n ∈ d.map (·.1) ∨ 0 < accepted h n then
      some { req := (declared d n).1, resp := (declared d n).2, calls := accepted h n } else none := by
  induction h using snocInd with
  | h0 =>
    refine ⟨cliNew_sorted d, fun n => ?_⟩
    simp only [cliRun]
    rw [cliNew_get]
    have h0 : accepted [] n = 0 := rfl
    simp only [h0, Nat.lt_irrefl, or_false]
  | h1 h c ih =>
    rw [cliRun_snoc]
    unfold cliStep
    by_cases hc : c.name = []
    · rw [if_pos hc]
      refine ⟨ih.1, fun n => ?_⟩
      have hx : ¬ (c.name = n ∧ n ≠ []) := fun h => h.2 (h.1.symm.trans hc)
      rw [ih.2 n, accepted_snoc, if_neg hx]
      rfl
    · rw [if_neg hc]
      have hb := bumps_spec (c.accepted.filter id).length _ ih.1 c.name
      refine ⟨hb.1, fun n => ?_⟩
      rw [hb.2 n, ih.2 n, ih.2 c.name, accepted_snoc]
      by_cases hn : n = c.name
      · subst hn
        have hcn : (c.name = c.name ∧ c.name ≠ []) := ⟨rfl, hc⟩
        rw [if_pos hcn]
        by_cases hj : 0 < (c.accepted.filter id).length
        · rw [if_pos ⟨rfl, hj⟩, if_pos (show c.name ∈ d.map (·.1) ∨ 0 < accepted h c.name + (c.accepted.filter id).length from Or.inr (by omega))]
          by_cases hd : c.name ∈ d.map (·.1) ∨ 0 < accepted h c.name
          · rw [if_pos hd]
          · rw [if_neg hd]
            rw [not_or] at hd
            rw [declared_none d c.name hd.1]
            simp only [Option.some.injEq, CM.mk.injEq, true_and]
            omega
        · rw [if_neg (fun h => hj h.2)]
          have : (c.accepted.filter id).length = 0 := by omega
          rw [this]
          rfl
      · have h1 : ¬ (n = c.name ∧ 0 < (c.accepted.filter id).length) := fun h => hn h.1
        have h2 : ¬ (c.name = n ∧ n ≠ []) := fun h => hn h.1.symm
        rw [if_neg h1, if_neg h2]
        rfl

/-! ## Property theorems -/

/-- **C132, shown.**  A registration of a server or client that arrives is shown, with one entry only. -/
theorem C132_shown (sname sid : Bytes) (e : Env) :
    (∀ h : List SrvOp, SrvFits sname sid e h → ∃ en : Entry, SrvShown sname sid e h en ∧ ∀ en' : Entry, SrvShown sname sid e h en' → en' = en) ∧
    (∀ (d : List (Bytes × TI × TI)) (h : List Call), CliFits sname sid e d h →
      ∃ en : Entry, CliShown sname sid e d h en ∧ ∀ en' : Entry, CliShown sname sid e d h en' → en' = en) :=
  ⟨fun h hf => ⟨_, (srv_entry _ _ _ _ hf _).2 rfl, fun en' hs => (srv_entry _ _ _ _ hf en').1 hs⟩,
   fun d h hf => ⟨_, (cli_entry _ _ _ _ _ hf _).2 rfl, fun en' hs => (cli_entry _ _ _ _ _ hf en').1 hs⟩⟩

/-- Example: an environment, a history of a server. -/
def exE : Env := { host := [104], pid := 7, pname := [112], unit := [117], v0 := some 4000, v1 := some 4001 }
def exH : List SrvOp :=
  [.addCb [97] [114] [115], .call [97], .describe [98] ⟨[49], [50]⟩ ⟨[51], [52]⟩, .call [99], .addCb [98] [53] [54], .call [98], .call [98], .remCb [97]]

example : SrvFits [120] [49] exE exH ∧ HasPorts exE := ⟨by unfold SrvFits; decide +kernel, by unfold HasPorts; decide +kernel⟩

/-- **C132, identity of a server.**  Host, process, unit, service and ports are those of the moment of the registration. -/
theorem C132_server_identity_partial (sname sid : Bytes) (e : Env) (h : List SrvOp) (hf : SrvFits sname sid e h) (hp : HasPorts e) (en : Entry)
    (hs : SrvShown sname sid e h en) :
    en.hname = e.host ∧ en.pid = e.pid ∧ en.pname = e.pname ∧ en.uname = e.unit ∧ en.sname = sname ∧ en.sid = sid ∧
    (∀ p : BitVec 32, e.v0 = some p → en.portV0 = p) ∧ (e.v0 = none → en.portV0 = 0) ∧
    (∀ p : BitVec 32, e.v1 = some p → en.portV1 = p) ∧ (e.v1 = none → en.portV1 = 0) := by
  rw [(srv_entry sname sid e h hf en).1 hs]
  unfold srvSample
  rw [if_neg hp.1, if_neg hp.2]
  refine ⟨rfl, rfl, rfl, rfl, rfl, rfl, fun p hv => ?_, fun hv => ?_, fun p hv => ?_, fun hv => ?_⟩ <;> simp [srvEntry, hv]

/-- **C132, methods of a server.**  Shown are exactly the methods that were described or given a callback and not removed since, each once. -/
theorem C132_server_methods (sname sid : Bytes) (e : Env) (h : List SrvOp) (hf : SrvFits sname sid e h) (hp : HasPorts e) (en : Entry)
    (hs : SrvShown sname sid e h en) :
    (∀ n : Bytes, (∃ m ∈ en.methods, m.mname = n) ↔ Present h n) ∧ (en.methods.map (·.mname)).Nodup := by
  rw [(srv_entry sname sid e h hf en).1 hs, srv_methods sname sid e hp]
  have hso := srv_sorted h
  refine ⟨fun n => ?_, ?_⟩
  · rw [← (srv_spec h n).1, Option.isSome_iff_exists]
    constructor
    · rintro ⟨m, hm, rfl⟩
      obtain ⟨q, hq, rfl⟩ := List.mem_map.1 hm
      exact ⟨q.2, (mem_get _ hso q.1 q.2).1 hq⟩
    · rintro ⟨v, hv⟩
      exact ⟨_, List.mem_map.2 ⟨(n, v), (mem_get _ hso n v).2 hv, rfl⟩, rfl⟩
  · rw [List.map_map]
    refine List.pairwise_map.2 (List.Pairwise.imp ?_ hso)
    intro p q hpq e
    simp only [Function.comp, wireMethod] at e
    rw [e, Wire.bytesLt_irrefl] at hpq
    cases hpq

example : Present exH [98] ∧ ¬ Present exH [97] ∧ ¬ Present exH [99] :=
  ⟨(srv_spec exH [98]).1.1 (by decide +kernel), fun h => absurd ((srv_spec exH [97]).1.2 h) (by decide +kernel),
   fun h => absurd ((srv_spec exH [99]).1.2 h) (by decide +kernel)⟩

/-- **C132, types of a server.**  Names and descriptions of the types of every method shown are those given last. -/
theorem C132_server_types (sname sid : Bytes) (e : Env) (h : List SrvOp) (hf : SrvFits sname sid e h) (hp : HasPorts e) (en : Entry)
    (hs : SrvShown sname sid e h en) (m : Method) (hm : m ∈ en.methods) :
    TypesAre h m.mname m.reqType m.respType ∧ DescsAre h m.mname m.reqDesc m.respDesc := by
  rw [(srv_entry sname sid e h hf en).1 hs, srv_methods sname sid e hp] at hm
  obtain ⟨q, hq, rfl⟩ := List.mem_map.1 hm
  exact (srv_spec h q.1).2.2 q.2 ((mem_get _ (srv_sorted h) q.1 q.2).1 hq)

/-- **C132, calls of a server.**  The number of calls shown of a method is the number of requests that came in for it since it is there.
Missing: requests before it was removed and added again. -/
theorem C132_server_calls_partial (sname sid : Bytes) (e : Env) (a b : List SrvOp) (o : SrvOp) (n : Bytes) (hf : SrvFits sname sid e (a ++ o :: b))
    (hp : HasPorts e) (en : Entry) (hs : SrvShown sname sid e (a ++ o :: b) en) (ha : ¬ Present a n)
    (ho : (∃ x y : TI, o = .describe n x y) ∨ ∃ x y : Bytes, o = .addCb n x y) (hb : SrvOp.remCb n ∉ b) :
    ∃ m ∈ en.methods, m.mname = n ∧ m.callCount = BitVec.ofNat 64 (b.filter (fun x => x = .call n)).length := by
  rw [(srv_entry sname sid e _ hf en).1 hs, srv_methods sname sid e hp]
  obtain ⟨m, hm, hc⟩ := srv_calls a b o n ha ho hb
  exact ⟨_, List.mem_map.2 ⟨(n, m), (mem_get _ (srv_sorted _) n m).2 hm, rfl⟩, rfl, by simp only [wireMethod, hc]⟩

/-- **C132, requests for other methods.**  A request for a method that is not there changes nothing of what is shown. -/
theorem C132_refused_changes_nothing (sname sid : Bytes) (e : Env) (h : List SrvOp) (n : Bytes) (hf : SrvFits sname sid e h)
    (hf' : SrvFits sname sid e (h ++ [.call n])) (en en' : Entry) (hs : SrvShown sname sid e h en) (hs' : SrvShown sname sid e (h ++ [.call n]) en')
    (hn : ¬ Present h n) : en' = en := by
  rw [(srv_entry _ _ _ _ hf en).1 hs, (srv_entry _ _ _ _ hf' en').1 hs', srvRun_snoc]
  have hg : get (srvRun [] h).1 n = none := by
    cases hg : get (srvRun [] h).1 n with
    | none => rfl
    | some m => exact absurd ((srv_spec h n).1.1 (by rw [hg]; rfl)) hn
  simp only [srvStep, hg]

/-- **C132, identity of a client.** -/
theorem C132_client_identity (sname sid : Bytes) (e : Env) (d : List (Bytes × TI × TI)) (h : List Call) (hf : CliFits sname sid e d h) (en : Entry)
    (hs : CliShown sname sid e d h en) :
    en.hname = e.host ∧ en.pid = e.pid ∧ en.pname = e.pname ∧ en.uname = e.unit ∧ en.sname = sname ∧ en.sid = sid := by
  rw [(cli_entry sname sid e d h hf en).1 hs]
  exact ⟨rfl, rfl, rfl, rfl, rfl, rfl⟩

/-- **C132, methods of a client.**  Shown are exactly the methods declared and those called with success, each once; the types are the ones
declared first under the name, the number of calls is the number of requests accepted by sessions with servers. -/
theorem C132_client_methods_partial (sname sid : Bytes) (e : Env) (d : List (Bytes × TI × TI)) (h : List Call) (hf : CliFits sname sid e d h) (en : Entry)
    (hs : CliShown sname sid e d h en) :
    (∀ n : Bytes, (∃ m ∈ en.methods, m.mname = n) ↔ n ∈ d.map (·.1) ∨ 0 < accepted h n) ∧ (en.methods.map (·.mname)).Nodup ∧
    ∀ m ∈ en.methods, m.callCount = BitVec.ofNat 64 (accepted h m.mname) ∧
      ((m.mname ∉ d.map (·.1)) → m.reqType = [] ∧ m.reqDesc = [] ∧ m.respType = [] ∧ m.respDesc = []) ∧
      (∀ (d1 d2 : List (Bytes × TI × TI)) (a b : TI), d = d1 ++ (m.mname, a, b) :: d2 → m.mname ∉ d1.map (·.1) →
        m.reqType = a.name ∧ m.reqDesc = a.desc ∧ m.respType = b.name ∧ m.respDesc = b.desc) := by
  rw [(cli_entry sname sid e d h hf en).1 hs]
  have hsp := cli_spec d h
  have hmeth : (cliEntry (cliSample sname sid e (cliRun (cliNew d) h))).methods =
      (cliRun (cliNew d) h).map (fun q => wireMethod q.1 q.2.req q.2.resp q.2.calls) := rfl
  rw [hmeth]
  refine ⟨fun n => ?_, ?_, ?_⟩
  · constructor
    · rintro ⟨m, hm, rfl⟩
      obtain ⟨q, hq, rfl⟩ := List.mem_map.1 hm
      have := (mem_get _ hsp.1 q.1 q.2).1 hq
      rw [hsp.2] at this
      by_cases hc : q.1 ∈ d.map (·.1) ∨ 0 < accepted h q.1
      · exact hc
      · rw [if_neg hc] at this; cases this
    · intro hc
      have := hsp.2 n
      rw [if_pos hc] at this
      exact ⟨_, List.mem_map.2 ⟨(n, _), (mem_get _ hsp.1 n _).2 this, rfl⟩, rfl⟩
  · rw [List.map_map]
    refine List.pairwise_map.2 (List.Pairwise.imp ?_ hsp.1)
    intro p q hpq e
    simp only [Function.comp, wireMethod] at e
    rw [e, Wire.bytesLt_irrefl] at hpq
    cases hpq
  · intro m hm
    obtain ⟨q, hq, rfl⟩ := List.mem_map.1 hm
    have := (mem_get _ hsp.1 q.1 q.2).1 hq
    rw [hsp.2] at this
    by_cases hc : q.1 ∈ d.map (·.1) ∨ 0 < accepted h q.1
    · rw [if_pos hc] at this
      have hq2 := (Option.some.inj this).symm
      simp only [wireMethod]
      rw [hq2]
      refine ⟨rfl, fun hn => ?_, fun d1 d2 a b hd hn => ?_⟩
      · rw [declared_none d q.1 hn]; exact ⟨rfl, rfl, rfl, rfl⟩
      · have : declared d q.1 = (a, b) := by
          subst hd
          clear hsp hmeth hm hq hc hq2 this hs hf
          induction d1 with
          | nil => simp [declared]
          | cons x d1 ih =>
            obtain ⟨k, y, z⟩ := x
            simp only [List.map_cons, List.mem_cons, not_or] at hn
            simp only [List.cons_append, declared]
            rw [if_neg (fun e => hn.1 e.symm)]
            exact ih hn.2
        rw [this]
        exact ⟨rfl, rfl, rfl, rfl⟩
    · rw [if_neg hc] at this; cases this

example : CliFits [120] [49] exE [([97], ⟨[49], []⟩, ⟨[50], []⟩)] [⟨[98], [true, false]⟩, ⟨[97], [false]⟩] ∧
    accepted [⟨[98], [true, false]⟩, ⟨[97], [false]⟩] [98] = 1 := ⟨by unfold CliFits; decide +kernel, by decide +kernel⟩

/-- **C132 violated: protocol version.**  Servers and clients tell version 1 of their protocol, the monitoring shows 0. -/
theorem C132_violated_version (sname sid : Bytes) (e : Env) :
    (∀ (h : List SrvOp) (en : Entry), HasPorts e → SrvShown sname sid e h en → en.version = 0 ∧ (srvSample sname sid e (srvRun [] h).1).service.version = 1) ∧
    (∀ (d : List (Bytes × TI × TI)) (h : List Call) (en : Entry), CliShown sname sid e d h en →
      en.version = 0 ∧ (cliSample sname sid e (cliRun (cliNew d) h)).client.version = 1) := by
  refine ⟨fun h en hp hs => ?_, fun d h en hs => ?_⟩
  · obtain ⟨m, _, rfl⟩ := hs
    refine ⟨rfl, ?_⟩
    unfold srvSample
    rw [if_neg hp.1, if_neg hp.2]
  · obtain ⟨m, _, rfl⟩ := hs
    exact ⟨rfl, rfl⟩

/-- **C132 violated: no port.**  A server that has no port for one of its protocols is shown, but without name, process, methods and the
port of the other protocol. -/
theorem C132_violated_no_port (sname sid : Bytes) (e : Env) (h : List SrvOp) (hf : SrvFits sname sid e h) (hp : ¬ HasPorts e) :
    SrvShown sname sid e h { hname := [], pname := [], uname := [], pid := 0, sname := [], sid := [], version := 0, portV0 := 0, portV1 := 0, methods := [] } := by
  rw [srv_entry sname sid e h hf]
  unfold srvSample
  by_cases h0 : e.v0 = some 0
  · rw [if_pos h0]; rfl
  · by_cases h1 : e.v1 = some 0
    · rw [if_neg h0, if_pos h1]; rfl
    · exact absurd ⟨h0, h1⟩ hp

example : SrvFits [120] [49] { exE with v0 := some 0 } exH ∧ ¬ HasPorts { exE with v0 := some 0 } :=
  ⟨by unfold SrvFits; decide +kernel, by unfold HasPorts; decide +kernel⟩

/-- **C132 violated: calls before a removal.**  A method that was executed twice is shown with one call, because its callback was
exchanged in between by removing and adding. -/
theorem C132_violated_calls : ∃ (h : List SrvOp) (en : Entry), SrvShown [120] [49] exE h en ∧
    ((srvRun [] h).2.filter (fun r => r = some .executed)).length = 2 ∧ en.methods.map (·.callCount) = [1] :=
  ⟨[.addCb [97] [] [], .call [97], .remCb [97], .addCb [97] [] [], .call [97]], _, (srv_entry _ _ _ _ (by unfold SrvFits; decide +kernel) _).2 rfl,
   by decide +kernel, by decide +kernel⟩

/-- **C132 violated: methods that cannot be called.**  A described method without callback is shown like any other and its calls are counted,
but no request for it is executed. -/
theorem C132_violated_not_callable : ∃ (h : List SrvOp) (en : Entry), SrvShown [120] [49] exE h en ∧
    (srvRun [] h).2 = [none, some .threw] ∧ en.methods.map (·.callCount) = [1] :=
  ⟨[.describe [97] {} {}, .call [97]], _, (srv_entry _ _ _ _ (by unfold SrvFits; decide +kernel) _).2 rfl, by decide +kernel, by decide +kernel⟩

/-- **C132 violated: calls of a client.**  One call of a client is shown as two, if two servers offer the service. -/
theorem C132_violated_client_calls : ∃ en : Entry, CliShown [120] [49] exE [] [⟨[97], [true, true]⟩] en ∧ en.methods.map (·.callCount) = [2] :=
  ⟨_, (cli_entry _ _ _ _ _ (by unfold CliFits; decide +kernel) _).2 rfl, by decide +kernel⟩

end Ecal.MonSvc
