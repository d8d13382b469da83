import Verif.E2E.TypedCall
import Verif.E2E.CallProps

/-! Lemmas about typed calls from end to end. -/

namespace Ecal.E2E.TypedCall

open Ecal.E2E.Call (Sys Ask Server)
open Ecal.Msg.TypedSvc (Codec MDesc)

variable {Ty M : Type} {sv : Server} {ask : Nat → Ask}

/-- A typed run is a run of the connection. -/
theorem run_sys (c : Codec Ty M) (ms : List (MDesc Ty)) (h : List (Step M)) :
    ∀ t : State Ty M, ∃ l, (run sv ask c ms t h).sys = Call.run sv ask t.sys l := by
  induction h with
  | nil => intro t; exact ⟨[], rfl⟩
  | cons a h ih =>
    intro t
    obtain ⟨l, hl⟩ := ih (step sv ask c ms t a)
    have h1 : ∃ l1, (step sv ask c ms t a).sys = Call.run sv ask t.sys l1 := by
      cases a with
      | base b =>
        cases b with
        | handle r o => exact ⟨[], rfl⟩
        | client a => exact ⟨[.client a], rfl⟩
        | server a => exact ⟨[.server a], rfl⟩
        | take => exact ⟨[.take], rfl⟩
        | methods m => exact ⟨[.methods m], rfl⟩
        | netUp n => exact ⟨[.netUp n], rfl⟩
        | netDown n => exact ⟨[.netDown n], rfl⟩
        | svReceive => exact ⟨[.svReceive], rfl⟩
        | svRead n => exact ⟨[.svRead n], rfl⟩
        | clReceive => exact ⟨[.clReceive], rfl⟩
        | clRead n => exact ⟨[.clRead n], rfl⟩
      | handle resp =>
        exact ⟨[.handle (answer c resp (planned c t)).1 (answer c resp (planned c t)).2], rfl⟩
      | create i => exact ⟨[], rfl⟩
      | destroy => exact ⟨[], rfl⟩
    obtain ⟨l1, h1⟩ := h1
    refine ⟨l1 ++ l, ?_⟩
    show (run sv ask c ms (step sv ask c ms t a) h).sys = _
    rw [hl, h1]
    exact (List.foldl_append ..).symm

/-- Only the handler executes methods. -/
theorem execs_other (s : Sys) (a : Call.Step) (h : ∀ r o, a ≠ .handle r o) :
    (Call.step sv ask s a).execs = s.execs := by
  cases a with
  | handle r o => exact absurd rfl (h r o)
  | client a =>
    simp only [Call.step, Call.stepClient]
    split
    · split
      · split <;> rfl
      · rfl
    · rfl
  | server a =>
    simp only [Call.step, Call.stepServer]
    split
    · rfl
    · rfl
    · rfl
    · split <;> rfl
  | take =>
    simp only [Call.step, Call.stepTake]
    split
    · rfl
    · split <;> rfl
  | methods m => rfl
  | netUp n => rfl
  | netDown n => rfl
  | svReceive => simp only [Call.step]; split <;> rfl
  | svRead n => rfl
  | clReceive => simp only [Call.step]; split <;> rfl
  | clRead n => rfl

/-- What the handler executes. -/
theorem execs_handle (s : Sys) (ret : BitVec 32) (out : List UInt8) :
    (Call.step sv ask s (.handle ret out)).execs = s.execs ∨
    ∃ x : Call.Exec, (Call.step sv ask s (.handle ret out)).execs = s.execs ++ [x] ∧ x.ret = ret ∧
      x.response = out ∧ current s = some (x.method, x.request) := by
  simp only [Call.step, Call.stepHandle, current]
  split
  · exact Or.inl rfl
  · split
    · rename_i bs hph
      split
      · exact Or.inl rfl
      · exact Or.inl rfl
      · rename_i e r hs
        refine Or.inr ⟨e, rfl, ?_⟩
        unfold Call.serve at hs
        split at hs
        · cases hs
        · rename_i rq hrq
          split at hs
          · cases hs
          · split at hs
            · obtain ⟨h1, _⟩ := Call.Served.executed.inj hs
              subst h1
              refine ⟨rfl, rfl, ?_⟩
              rw [hph]
              simp only [hrq, Option.map]
            · cases hs
    · exact Or.inl rfl

structure Good (c : Codec Ty M) (ms : List (MDesc Ty)) (t : State Ty M) : Prop where
  tab : ∀ m d, t.meths.find m = some d → d ∈ ms ∧ d.name = m
  log : ∀ v ∈ t.log, ∃ x ∈ t.sys.execs, x.idx = v.idx ∧ x.method = v.method ∧ x.ret = 0 ∧
    x.response = c.asString v.resp ∧ ∃ d ∈ ms, d.name = v.method ∧ c.parse d.inTy x.request = some v.req
  exe : ∀ x ∈ t.sys.execs, (x.ret = -1 ∧ x.response = []) ∨ (x.ret = 0 ∧ ∃ v ∈ t.log, v.idx = x.idx)
  sub : (t.log.map (·.idx)).Sublist (t.sys.execs.map (·.idx))

theorem table_find (ms : List (MDesc Ty)) :
    ∀ (l : List (MDesc Ty)), (∀ d ∈ l, d ∈ ms) → ∀ t : AMap (List UInt8) (MDesc Ty),
      (∀ m d, t.find m = some d → d ∈ ms ∧ d.name = m) →
      ∀ m d, (table l t).find m = some d → d ∈ ms ∧ d.name = m := by
  intro l
  induction l with
  | nil => intro _ t ht; exact ht
  | cons e l ih =>
    intro hl t ht
    refine ih (fun d hd => hl d (List.mem_cons_of_mem _ hd)) (t.set e.name e) ?_
    intro m d h
    by_cases he : e.name = m
    · subst he
      rw [AMap.find_set_self] at h
      cases h
      exact ⟨hl _ (List.mem_cons_self ..), rfl⟩
    · rw [AMap.find_set_ne _ _ _ _ he] at h
      exact ht m d h

theorem good_same {c : Codec Ty M} {ms : List (MDesc Ty)} {t : State Ty M} (g : Good c ms t) {s : Sys}
    (h : s.execs = t.sys.execs) : Good c ms { t with sys := s } :=
  ⟨g.tab, fun v hv => by rw [h]; exact g.log v hv, fun x hx => g.exe x (h ▸ hx), by rw [h]; exact g.sub⟩

theorem accepts_some {c : Codec Ty M} {t : State Ty M} {m bs : List UInt8} {p : Nat × M}
    (h : accepts c t m bs = some p) :
    ∃ d, t.meths.find m = some d ∧ c.parse d.inTy bs = some p.2 ∧ t.svc = some p.1 := by
  unfold accepts at h
  split at h
  · cases h
  · rename_i i hs
    split at h
    · cases h
    · rename_i d hd
      split at h
      · cases h
      · rename_i req hq
        cases h
        exact ⟨d, hd, hq, hs⟩

theorem good_handle {c : Codec Ty M} {ms : List (MDesc Ty)} {t : State Ty M} (g : Good c ms t) (resp : M) :
    Good c ms (handleStep sv ask c t resp) := by
  unfold handleStep
  simp only
  rcases execs_handle (sv := sv) (ask := ask) t.sys (answer c resp (planned c t)).1 (answer c resp (planned c t)).2
    with h | ⟨x, h, hr, ho, hc⟩
  · have hl : invoked t.sys.execs
        (Call.step sv ask t.sys (.handle (answer c resp (planned c t)).1 (answer c resp (planned c t)).2)).execs
        (planned c t) resp = [] := by
      unfold invoked
      rw [h]
      split
      · rfl
      · simp
    rw [hl, List.append_nil]
    exact good_same g h
  · cases hp : planned c t with
    | none =>
      rw [hp] at h hr ho
      simp only [answer] at h hr ho
      simp only [answer, invoked, List.append_nil]
      refine ⟨g.tab, ?_, ?_, ?_⟩
      · intro v hv
        obtain ⟨y, hy, h2⟩ := g.log v hv
        exact ⟨y, by rw [h]; exact List.mem_append_left _ hy, h2⟩
      · intro y hy
        rw [h] at hy
        rcases List.mem_append.1 hy with h1 | h1
        · exact g.exe y h1
        · cases List.mem_singleton.1 h1
          exact Or.inl ⟨hr, ho⟩
      · rw [h]
        simp only [List.map_append]
        exact g.sub.trans (List.sublist_append_left ..)
    | some p =>
      rw [hp] at h hr ho
      have hpl := hp
      simp only [planned, hc] at hpl
      obtain ⟨d, hd, hq, _⟩ := accepts_some hpl
      simp only [answer] at h hr ho
      have hl : invoked t.sys.execs (Call.step sv ask t.sys (.handle 0 (c.asString resp))).execs (some p) resp =
          [⟨x.idx, p.1, x.method, p.2, resp⟩] := by
        obtain ⟨i, q⟩ := p
        unfold invoked
        rw [h, List.drop_left]
        rfl
      simp only [answer]
      rw [hl]
      refine ⟨g.tab, ?_, ?_, ?_⟩
      · intro v hv
        rcases List.mem_append.1 hv with h1 | h1
        · obtain ⟨y, hy, h2⟩ := g.log v h1
          exact ⟨y, by rw [h]; exact List.mem_append_left _ hy, h2⟩
        · cases List.mem_singleton.1 h1
          refine ⟨x, by rw [h]; exact List.mem_append_right _ (List.mem_singleton.2 rfl), rfl, rfl, hr, ho, d, ?_, ?_, ?_⟩
          · exact (g.tab _ d hd).1
          · exact (g.tab _ d hd).2
          · exact hq
      · intro y hy
        rw [h] at hy
        rcases List.mem_append.1 hy with h1 | h1
        · rcases g.exe y h1 with h2 | ⟨h2, v, hv, h3⟩
          · exact Or.inl h2
          · exact Or.inr ⟨h2, v, List.mem_append_left _ hv, h3⟩
        · cases List.mem_singleton.1 h1
          exact Or.inr ⟨hr, _, List.mem_append_right _ (List.mem_singleton.2 rfl), rfl⟩
      · rw [h]
        simp only [List.map_append, List.map_cons, List.map_nil]
        exact g.sub.append (List.Sublist.refl _)

theorem good_step {c : Codec Ty M} {ms : List (MDesc Ty)} {t : State Ty M} (g : Good c ms t) (a : Step M) :
    Good c ms (step sv ask c ms t a) := by
  cases a with
  | handle resp => exact good_handle g resp
  | create i => exact ⟨table_find ms ms (fun _ h => h) t.meths g.tab, g.log, g.exe, g.sub⟩
  | destroy => exact ⟨g.tab, g.log, g.exe, g.sub⟩
  | base b =>
    cases b with
    | handle r o => exact g
    | client a => exact good_same g (execs_other (sv := sv) (ask := ask) t.sys (.client a) (by simp))
    | server a => exact good_same g (execs_other (sv := sv) (ask := ask) t.sys (.server a) (by simp))
    | take => exact good_same g (execs_other (sv := sv) (ask := ask) t.sys .take (by simp))
    | methods m => exact good_same g rfl
    | netUp n => exact good_same g rfl
    | netDown n => exact good_same g rfl
    | svReceive => exact good_same g (execs_other (sv := sv) (ask := ask) t.sys .svReceive (by simp))
    | svRead n => exact good_same g rfl
    | clReceive => exact good_same g (execs_other (sv := sv) (ask := ask) t.sys .clReceive (by simp))
    | clRead n => exact good_same g rfl

theorem good_run {c : Codec Ty M} {ms : List (MDesc Ty)} (h : List (Step M)) :
    ∀ {t : State Ty M}, Good c ms t → Good c ms (run sv ask c ms t h) := by
  induction h with
  | nil => intro t g; exact g
  | cons a h ih => intro t g; exact ih (good_step g a)

theorem good_init (c : Codec Ty M) (ms : List (MDesc Ty)) (n : Nat) : Good c ms (init n : State Ty M) :=
  ⟨fun m d h => by simp [init] at h, fun v hv => by simp [init] at hv,
    fun x hx => by simp [init, Call.init] at hx, by simp [init]⟩

/-- Elements of a list with increasing numbers are determined by their numbers. -/
theorem idx_unique {A : Type} (f : A → Nat) {l : List A} (h : (l.map f).Pairwise (· < ·)) {x y : A} (hx : x ∈ l)
    (hy : y ∈ l) (he : f x = f y) : x = y := by
  induction l with
  | nil => cases hx
  | cons a l ih =>
    simp only [List.map_cons, List.pairwise_cons] at h
    rcases List.mem_cons.1 hx with h1 | h1
    · rcases List.mem_cons.1 hy with h2 | h2
      · rw [h1, h2]
      · have := h.1 (f y) (List.mem_map.2 ⟨y, h2, rfl⟩)
        subst h1; omega
    · rcases List.mem_cons.1 hy with h2 | h2
      · have := h.1 (f x) (List.mem_map.2 ⟨x, h1, rfl⟩)
        subst h2; omega
      · exact ih h.2 h1 h2

end Ecal.E2E.TypedCall
