import Verif.Msg.TypedSvc

/-! Lemmas about typed service servers. -/

namespace Ecal.Msg.TypedSvc

variable {Ty M : Type}

/-- Micro steps of `Create`. -/
def Micro.creates : Micro Ty → Bool
  | .setService _ => true
  | .baseCreate => true
  | .addMeth _ => true
  | .describe _ => true
  | .bind _ => true
  | _ => false

/-- Every description is followed by the callback. -/
def WfP : List (Micro Ty) → Prop
  | [] => True
  | .describe m :: rest => Micro.bind m ∈ rest ∧ WfP rest
  | _ :: rest => WfP rest

theorem wfP_methods (ms : List (MDesc Ty)) : WfP (ms.flatMap methodProg) := by
  induction ms with
  | nil => trivial
  | cons d t ih => simp [methodProg, WfP, ih]

theorem creates_methods (ms : List (MDesc Ty)) : ∀ a ∈ ms.flatMap methodProg, a.creates = true := by
  intro a ha
  simp only [List.mem_flatMap, methodProg] at ha
  obtain ⟨d, _, hd⟩ := ha
  simp at hd
  rcases hd with h | h | h <;> subst h <;> rfl

/-- Where the application is. -/
def Mode (s : State Ty M) : Prop :=
  (s.alive = true ∧ (∀ a ∈ s.pending, a.creates = true)) ∨
  (s.alive = true ∧ s.pending = [.clearService]) ∨
  (s.alive = true ∧ s.pending = [.clearService, .dropMembers, .baseClear, .baseStop]) ∨
  (s.alive = true ∧ s.pending = [.dropMembers, .baseClear, .baseStop]) ∨
  (s.alive = false ∧ s.pending = [.baseClear, .baseStop]) ∨
  (s.alive = false ∧ s.map = [] ∧ s.pending = [.baseStop]) ∨
  (s.alive = false ∧ s.map = [] ∧ s.pending = [])

/-- The thread relies on `m_service`. -/
def Rx.relies : Rx M → Bool
  | .checked .. => true
  | .parsed .. => true
  | _ => false

structure Inv1 (s : State Ty M) : Prop where
  ub   : s.ub = none
  busy : s.pending ≠ [] → ∀ x ∈ s.rx, x.active = false
  open' : ∀ m, s.map.find m = some false → Micro.bind m ∈ s.pending
  mode : Mode s
  made : s.map ≠ [] → s.created = true
  wf   : WfP s.pending
  live : ∀ x ∈ s.rx, x.active = true → s.alive = true
  has  : ∀ x ∈ s.rx, x.relies = true → s.svc.isSome = true

theorem relies_active {x : Rx M} (h : x.relies = true) : x.active = true := by
  cases x <;> simp_all [Rx.relies, Rx.active]

theorem isActive_false {s : State Ty M} : isActive s = false ↔ ∀ x ∈ s.rx, x.active = false := by
  simp [isActive]

/-- Calls of the application do not overlap with requests. -/
def Quiet (s : State Ty M) : Step M → Prop
  | .api _ => ∀ x ∈ s.rx, x.active = false
  | .arrive .. => s.pending = []
  | _ => True

theorem mem_set {l : List (Rx M)} {t : Nat} {v x : Rx M} (h : x ∈ l.set t v) : x = v ∨ x ∈ l := by
  rcases List.mem_or_eq_of_mem_set h with h | h
  · exact Or.inr h
  · exact Or.inl h

theorem inv_rx {s : State Ty M} (g : Inv1 s) {t : Nat} {v : Rx M} {l : List (Inv M)}
    (h1 : v.active = true → s.pending = [] ∧ s.alive = true) (h2 : v.relies = true → s.svc.isSome = true) :
    Inv1 { s with rx := s.rx.set t v, log := l } := by
  refine ⟨g.ub, ?_, g.open', g.mode, g.made, g.wf, ?_, ?_⟩
  · intro hp x hx
    rcases mem_set hx with h | h
    · subst h
      cases hv : x.active
      · rfl
      · exact absurd (h1 hv).1 hp
    · exact g.busy hp x h
  · intro x hx ha
    rcases mem_set hx with h | h
    · subst h; exact (h1 ha).2
    · exact g.live x h ha
  · intro x hx ha
    rcases mem_set hx with h | h
    · subst h; exact h2 ha
    · exact g.has x h ha

theorem inv_cb (c : Codec Ty M) {s : State Ty M} (g : Inv1 s) (t : Nat) (resp : M) : Inv1 (cb c s t resp) := by
  unfold cb
  cases hx : s.rx[t]? with
  | none => exact g
  | some x =>
    have hm : x ∈ s.rx := List.mem_of_getElem? hx
    have hpend : x.active = true → s.pending = [] := by
      intro ha
      cases hp : s.pending with
      | nil => rfl
      | cons a r =>
        have := g.busy (by rw [hp]; exact List.cons_ne_nil _ _) x hm
        rw [ha] at this; cases this
    cases x with
    | idle => exact g
    | unknown m => exact g
    | answered m bs ret out => exact g
    | looked m bs =>
      have hal := g.live _ hm rfl
      simp only
      rw [if_pos hal]
      split
      · exact inv_rx (l := s.log) g (t := t) (v := .answered m bs (-1) []) (by simp [Rx.active]) (by simp [Rx.relies])
      · rename_i hs
        exact inv_rx (l := s.log) g (t := t) (v := .checked m bs) (fun _ => ⟨hpend rfl, hal⟩) (fun _ => by simp [hs])
    | checked m bs =>
      have hal := g.live _ hm rfl
      have hsv := g.has _ hm rfl
      simp only
      rw [if_pos hal]
      split
      · exact inv_rx (l := s.log) g (t := t) (v := .answered m bs (-1) []) (by simp [Rx.active]) (by simp [Rx.relies])
      · split
        · rename_i hs; rw [hs] at hsv; cases hsv
        · rename_i hs
          split
          · exact inv_rx (l := s.log) g (t := t) (v := .answered m bs (-1) []) (by simp [Rx.active]) (by simp [Rx.relies])
          · exact inv_rx (l := s.log) g (t := t) (v := .parsed m bs _) (fun _ => ⟨hpend rfl, hal⟩) (fun _ => by simp [hs])
    | parsed m bs req =>
      have hal := g.live _ hm rfl
      have hsv := g.has _ hm rfl
      simp only
      rw [if_pos hal]
      split
      · rename_i hs; rw [hs] at hsv; cases hsv
      · exact inv_rx (t := t) (v := .answered m bs 0 (c.asString resp)) g (by simp [Rx.active]) (by simp [Rx.relies])

/-- The map after `describe`. -/
def described (s : State Ty M) (m : Bytes) : AMap Bytes Bool :=
  if s.created then (if s.map.find m = none then s.map.set m false else s.map) else s.map

/-- The map after `bind`. -/
def bound (s : State Ty M) (m : Bytes) : AMap Bytes Bool := if s.created then s.map.set m true else s.map

theorem mexec_describe (s : State Ty M) (m : Bytes) : mexec s (.describe m) = { s with map := described s m } := by
  simp only [mexec, described]
  by_cases hc : s.created = true
  · rw [if_pos hc, if_pos hc]
    cases hf : s.map.find m <;> simp
  · rw [if_neg hc, if_neg hc]

theorem mexec_bind (s : State Ty M) (m : Bytes) : mexec s (.bind m) = { s with map := bound s m } := by
  simp only [mexec, bound]
  by_cases hc : s.created = true
  · rw [if_pos hc, if_pos hc]
  · rw [if_neg hc, if_neg hc]

theorem inv_app {s : State Ty M} (g : Inv1 s) : Inv1 (appStep s) := by
  unfold appStep
  cases hp : s.pending with
  | nil => exact g
  | cons a rest =>
    have hb := g.busy (by rw [hp]; exact List.cons_ne_nil _ _)
    have hact : isActive s = false := isActive_false.2 hb
    have hmode := g.mode
    have hwf := g.wf
    have hopen := g.open'
    have hmade := g.made
    rw [hp] at hwf hopen
    simp only [Mode, hp] at hmode
    simp only [hact, Bool.and_false, Bool.false_eq_true, if_false]
    have hbusy' : ∀ s' : State Ty M, s'.rx = s.rx → (s'.pending ≠ [] → ∀ x ∈ s'.rx, x.active = false) := by
      intro s' h _; rw [h]; exact hb
    have hlive' : ∀ (b : Bool), ∀ x ∈ s.rx, x.active = true → b = true := by
      intro b x hx ha; rw [hb x hx] at ha; cases ha
    have hhas' : ∀ (o : Option Nat), ∀ x ∈ s.rx, x.relies = true → o.isSome = true := by
      intro o x hx ha; have := relies_active ha; rw [hb x hx] at this; cases this
    cases a with
    | setService i =>
      refine ⟨g.ub, fun _ => hb, ?_, ?_, hmade, hwf, hlive' _, hhas' _⟩
      · intro m hm; simpa using hopen m hm
      · rcases hmode with h | h | h | h | h | h | h
        · exact Or.inl ⟨h.1, fun a ha => h.2 a (List.mem_cons_of_mem _ ha)⟩
        all_goals simp at h
    | baseCreate =>
      refine ⟨g.ub, fun _ => hb, ?_, ?_, fun _ => rfl, hwf, hlive' _, hhas' _⟩
      · intro m hm; simpa using hopen m hm
      · rcases hmode with h | h | h | h | h | h | h
        · exact Or.inl ⟨h.1, fun a ha => h.2 a (List.mem_cons_of_mem _ ha)⟩
        all_goals simp at h
    | addMeth d =>
      refine ⟨g.ub, fun _ => hb, ?_, ?_, hmade, hwf, hlive' _, hhas' _⟩
      · intro m hm; simpa using hopen m hm
      · rcases hmode with h | h | h | h | h | h | h
        · exact Or.inl ⟨h.1, fun a ha => h.2 a (List.mem_cons_of_mem _ ha)⟩
        all_goals simp at h
    | describe m =>
      have hmo : s.alive = true ∧ ∀ a ∈ rest, a.creates = true := by
        rcases hmode with h | h | h | h | h | h | h
        · exact ⟨h.1, fun a ha => h.2 a (List.mem_cons_of_mem _ ha)⟩
        all_goals simp at h
      rw [mexec_describe]
      refine ⟨g.ub, fun _ => hb, ?_, Or.inl hmo, ?_, hwf.2, hlive' _, hhas' _⟩
      · intro m' hm'
        have hm2 : (described s m).find m' = some false := hm'
        by_cases he : m' = m
        · subst he; exact hwf.1
        · have he' : ¬ m = m' := fun h => he h.symm
          have h2 : s.map.find m' = some false := by
            unfold described at hm2
            split at hm2
            · split at hm2
              · rwa [AMap.find_set_ne _ _ _ _ he'] at hm2
              · exact hm2
            · exact hm2
          simpa using hopen m' h2
      · intro h
        have h2 : described s m ≠ [] := h
        show s.created = true
        by_cases hc : s.created = true
        · exact hc
        · unfold described at h2; rw [if_neg hc] at h2; exact hmade h2
    | bind m =>
      have hmo : s.alive = true ∧ ∀ a ∈ rest, a.creates = true := by
        rcases hmode with h | h | h | h | h | h | h
        · exact ⟨h.1, fun a ha => h.2 a (List.mem_cons_of_mem _ ha)⟩
        all_goals simp at h
      rw [mexec_bind]
      have hcr : bound s m ≠ [] → s.created = true := by
        intro h2
        by_cases hc : s.created = true
        · exact hc
        · unfold bound at h2; rw [if_neg hc] at h2; exact hmade h2
      refine ⟨g.ub, fun _ => hb, ?_, Or.inl hmo, hcr, hwf, hlive' _, hhas' _⟩
      intro m' hm'
      have hm2 : (bound s m).find m' = some false := hm'
      have hc : s.created = true := hcr (by intro h; rw [h] at hm2; simp at hm2)
      unfold bound at hm2; rw [if_pos hc] at hm2
      by_cases he : m' = m
      · subst he; simp at hm2
      · have he' : ¬ m = m' := fun h => he h.symm
        rw [AMap.find_set_ne _ _ _ _ he'] at hm2
        simpa [he] using hopen m' hm2
    | clearService =>
      refine ⟨g.ub, fun _ => hb, ?_, ?_, hmade, hwf, hlive' _, hhas' _⟩
      · intro m hm; simpa using hopen m hm
      · rcases hmode with h | h | h | h | h | h | h
        · have := h.2 _ (List.mem_cons_self ..); simp [Micro.creates] at this
        · simp at h
          refine Or.inl ⟨h.1, ?_⟩
          intro a ha; rw [h.2] at ha; simp at ha
        · simp at h
          exact Or.inr (Or.inr (Or.inr (Or.inl ⟨h.1, h.2⟩)))
        all_goals simp at h
    | dropMembers =>
      refine ⟨g.ub, fun _ => hb, ?_, ?_, hmade, hwf, hlive' _, hhas' _⟩
      · intro m hm; simpa using hopen m hm
      · rcases hmode with h | h | h | h | h | h | h
        · have := h.2 _ (List.mem_cons_self ..); simp [Micro.creates] at this
        · simp at h
        · simp at h
        · simp at h
          exact Or.inr (Or.inr (Or.inr (Or.inr (Or.inl ⟨rfl, h.2⟩))))
        all_goals simp at h
    | baseClear =>
      have hmap : (if s.created then ([] : AMap Bytes Bool) else s.map) = [] := by
        by_cases hc : s.created = true
        · rw [if_pos hc]
        · rw [if_neg hc]
          cases hm : s.map with
          | nil => rfl
          | cons x y => exact absurd (hmade (by rw [hm]; exact List.cons_ne_nil _ _)) hc
      have hme : mexec s .baseClear = { s with map := [] } := by unfold mexec; simp only [hmap]
      rw [hme]
      refine ⟨g.ub, fun _ => hb, ?_, ?_, fun h => absurd rfl h, hwf, hlive' _, hhas' _⟩
      · intro m hm; simp at hm
      · rcases hmode with h | h | h | h | h | h | h
        · have := h.2 _ (List.mem_cons_self ..); simp [Micro.creates] at this
        · simp at h
        · simp at h
        · simp at h
        · simp at h
          exact Or.inr (Or.inr (Or.inr (Or.inr (Or.inr (Or.inl ⟨h.1, rfl, h.2⟩)))))
        all_goals simp at h
    | baseStop =>
      have hm : s.alive = false ∧ s.map = [] ∧ rest = [] := by
        rcases hmode with h | h | h | h | h | h | h
        · have := h.2 _ (List.mem_cons_self ..); simp [Micro.creates] at this
        · simp at h
        · simp at h
        · simp at h
        · simp at h
        · simp at h; exact h
        · simp at h
      refine ⟨g.ub, fun _ => hb, ?_, ?_, fun h => absurd hm.2.1 h, hwf, hlive' _, hhas' _⟩
      · intro m h; have h' : s.map.find m = some false := h; rw [hm.2.1] at h'; simp at h'
      · exact Or.inr (Or.inr (Or.inr (Or.inr (Or.inr (Or.inr ⟨hm.1, hm.2.1, hm.2.2⟩)))))

theorem inv_api {ms : List (MDesc Ty)} {s : State Ty M} (g : Inv1 s) (a : Api) (hal : s.alive = true)
    (hq : ∀ x ∈ s.rx, x.active = false) (hp : s.pending = []) :
    Inv1 { s with pending := program ms a, rets := s.rets ++ [result a] } := by
  have hopen := g.open'
  rw [hp] at hopen
  refine ⟨g.ub, fun _ => hq, ?_, ?_, g.made, ?_, g.live, g.has⟩
  · intro m hm; exact absurd (hopen m hm) (List.not_mem_nil)
  · cases a with
    | create i =>
      cases i with
      | none => exact Or.inl ⟨hal, by intro a ha; simp [program] at ha⟩
      | some i =>
        refine Or.inl ⟨hal, ?_⟩
        intro a ha
        simp only [program, List.mem_cons] at ha
        rcases ha with h | h | h
        · subst h; rfl
        · subst h; rfl
        · exact creates_methods ms a h
    | destroy => exact Or.inr (Or.inl ⟨hal, rfl⟩)
    | delete => exact Or.inr (Or.inr (Or.inl ⟨hal, rfl⟩))
  · cases a with
    | create i =>
      cases i with
      | none => trivial
      | some i => exact wfP_methods ms
    | destroy => trivial
    | delete => trivial

theorem inv_step (c : Codec Ty M) (ms : List (MDesc Ty)) {s : State Ty M} (g : Inv1 s) (op : Step M)
    (hq : Quiet s op) : Inv1 (step c ms s op) := by
  unfold step
  have hu : s.ub.isSome = false := by rw [g.ub]; rfl
  simp only [hu, Bool.false_eq_true, if_false]
  cases op with
  | api a =>
    by_cases h : (s.alive && s.pending.isEmpty) = true
    · simp only [h, if_true]
      simp at h
      exact inv_api g a h.1 hq h.2
    · simp only [h]; exact g
  | app => exact inv_app g
  | arrive t m bs =>
    by_cases h : isIdle s t = true
    · simp only [h, if_true]
      have hp : s.pending = [] := hq
      have hopen := g.open'
      rw [hp] at hopen
      unfold look
      cases hf : s.map.find m with
      | none => exact inv_rx (l := s.log) g (t := t) (v := .unknown m) (by simp [Rx.active]) (by simp [Rx.relies])
      | some b =>
        cases b with
        | false => exact absurd (hopen m hf) (List.not_mem_nil)
        | true =>
          refine inv_rx (l := s.log) g (t := t) (v := .looked m bs) (fun _ => ⟨hp, ?_⟩) (by simp [Rx.relies])
          rcases g.mode with h | h | h | h | h | h | h
          · exact h.1
          · exact h.1
          · exact h.1
          · exact h.1
          · rw [hp] at h; simp at h
          · rw [h.2.1] at hf; simp at hf
          · rw [h.2.1] at hf; simp at hf
    · simp only [h]; exact g
  | rx t resp => exact inv_cb c g t resp
  | next t =>
    simp only
    cases hx : s.rx[t]? with
    | none => exact g
    | some x =>
      cases x with
      | unknown m => exact inv_rx (l := s.log) g (t := t) (v := .idle) (by simp [Rx.active]) (by simp [Rx.relies])
      | answered m bs ret out => exact inv_rx (l := s.log) g (t := t) (v := .idle) (by simp [Rx.active]) (by simp [Rx.relies])
      | idle => exact g
      | looked m bs => exact g
      | checked m bs => exact g
      | parsed m bs r => exact g

theorem inv_init (n : Nat) : Inv1 (init n : State Ty M) := by
  have hr : ∀ x ∈ (init n : State Ty M).rx, x = .idle := by
    intro x hx; exact (List.mem_replicate.1 hx).2
  refine ⟨rfl, fun h => absurd rfl h, fun m h => by simp [init] at h,
    Or.inl ⟨rfl, fun a ha => by simp [init] at ha⟩, fun h => absurd rfl h, trivial, ?_, ?_⟩
  · intro x hx h; rw [hr x hx] at h; cases h
  · intro x hx h; rw [hr x hx] at h; cases h

/-! ## What an answer says -/

/-- The threads tell the truth (histories of any kind). -/
structure Inv2 (c : Codec Ty M) (ms : List (MDesc Ty)) (s : State Ty M) : Prop where
  tab  : ∀ m d, s.meths.find m = some d → d ∈ ms ∧ d.name = m
  pend : ∀ d, Micro.addMeth d ∈ s.pending → d ∈ ms
  prs  : ∀ m bs req, Rx.parsed m bs req ∈ s.rx → ∃ d ∈ ms, d.name = m ∧ c.parse d.inTy bs = some req
  ans  : ∀ m bs ret out, Rx.answered m bs ret out ∈ s.rx →
    (ret = -1 ∧ out = []) ∨
    (ret = 0 ∧ ∃ v ∈ s.log, v.method = m ∧ out = c.asString v.resp ∧
      ∃ d ∈ ms, d.name = m ∧ c.parse d.inTy bs = some v.req)

theorem inv2_rx {c : Codec Ty M} {ms : List (MDesc Ty)} {s : State Ty M} (g : Inv2 c ms s) (t : Nat) (v : Rx M)
    (e : List (Inv M))
    (h1 : ∀ m bs req, v = .parsed m bs req → ∃ d ∈ ms, d.name = m ∧ c.parse d.inTy bs = some req)
    (h2 : ∀ m bs ret out, v = .answered m bs ret out → (ret = -1 ∧ out = []) ∨
      (ret = 0 ∧ ∃ v ∈ s.log ++ e, v.method = m ∧ out = c.asString v.resp ∧
        ∃ d ∈ ms, d.name = m ∧ c.parse d.inTy bs = some v.req)) :
    Inv2 c ms { s with rx := s.rx.set t v, log := s.log ++ e } := by
  refine ⟨g.tab, g.pend, ?_, ?_⟩
  · intro m bs req h
    rcases mem_set h with h | h
    · exact h1 m bs req h.symm
    · exact g.prs m bs req h
  · intro m bs ret out h
    rcases mem_set h with h | h
    · exact h2 m bs ret out h.symm
    · rcases g.ans m bs ret out h with h | ⟨h, v, hv, h3⟩
      · exact Or.inl h
      · exact Or.inr ⟨h, v, List.mem_append_left _ hv, h3⟩

theorem inv2_rx' {c : Codec Ty M} {ms : List (MDesc Ty)} {s : State Ty M} (g : Inv2 c ms s) (t : Nat) (v : Rx M)
    (h1 : ∀ m bs req, v = .parsed m bs req → ∃ d ∈ ms, d.name = m ∧ c.parse d.inTy bs = some req)
    (h2 : ∀ m bs ret out, v = .answered m bs ret out → (ret = -1 ∧ out = [])) :
    Inv2 c ms { s with rx := s.rx.set t v } := by
  have := inv2_rx g t v [] h1 (fun m bs ret out h => Or.inl (h2 m bs ret out h))
  simpa using this

theorem inv2_ub {c : Codec Ty M} {ms : List (MDesc Ty)} {s : State Ty M} (g : Inv2 c ms s) (u : Option Ub) :
    Inv2 c ms { s with ub := u } := ⟨g.tab, g.pend, g.prs, g.ans⟩

theorem inv2_cb {c : Codec Ty M} {ms : List (MDesc Ty)} {s : State Ty M} (g : Inv2 c ms s) (t : Nat) (resp : M) :
    Inv2 c ms (cb c s t resp) := by
  unfold cb
  cases hx : s.rx[t]? with
  | none => exact g
  | some x =>
    have hm : x ∈ s.rx := List.mem_of_getElem? hx
    cases x with
    | idle => exact g
    | unknown m => exact g
    | answered m bs ret out => exact g
    | looked m bs =>
      simp only
      split
      · split
        · refine inv2_rx' g t _ (by simp) ?_
          intro m' bs' ret out h; cases h; exact ⟨rfl, rfl⟩
        · exact inv2_rx' g t _ (by simp) (by simp)
      · exact inv2_ub g _
    | checked m bs =>
      simp only
      split
      · split
        · refine inv2_rx' g t _ (by simp) ?_
          intro m' bs' ret out h; cases h; exact ⟨rfl, rfl⟩
        · rename_i d hf
          split
          · exact inv2_ub g _
          · split
            · refine inv2_rx' g t _ (by simp) ?_
              intro m' bs' ret out h; cases h; exact ⟨rfl, rfl⟩
            · rename_i req hq
              refine inv2_rx' g t _ ?_ (by simp)
              intro m' bs' req' h; cases h
              exact ⟨d, (g.tab m d hf).1, (g.tab m d hf).2, hq⟩
      · exact inv2_ub g _
    | parsed m bs req =>
      simp only
      split
      · split
        · exact inv2_ub g _
        · rename_i i hs
          refine inv2_rx g t _ _ (by simp) ?_
          intro m' bs' ret out h; cases h
          refine Or.inr ⟨rfl, ⟨i, m, req, resp⟩, List.mem_append_right _ (List.mem_singleton.2 rfl), rfl, rfl, ?_⟩
          exact g.prs m bs req hm
      · exact inv2_ub g _

theorem inv2_app {c : Codec Ty M} {ms : List (MDesc Ty)} {s : State Ty M} (g : Inv2 c ms s) : Inv2 c ms (appStep s) := by
  unfold appStep
  cases hp : s.pending with
  | nil => exact g
  | cons a rest =>
    simp only
    by_cases hr : (a.writes && isActive s) = true
    · simp only [hr, if_true]; rw [← hp]; exact inv2_ub g _
    · simp only [hr]
      have hpd : ∀ d, Micro.addMeth d ∈ rest → d ∈ ms := fun d hd => g.pend d (by rw [hp]; exact List.mem_cons_of_mem _ hd)
      cases a with
      | addMeth d =>
        refine ⟨?_, hpd, g.prs, g.ans⟩
        intro m d' h
        simp only [mexec, AMap.find_set, Bool.false_eq_true, if_false] at h
        have hd : d ∈ ms := g.pend d (by rw [hp]; exact List.mem_cons_self ..)
        by_cases he : d.name = m
        · simp [he] at h; subst h; exact ⟨hd, he⟩
        · have he' : ¬ m = d.name := fun h => he h.symm
          simp [he] at h; exact g.tab m d' h
      | describe m => rw [mexec_describe]; exact ⟨g.tab, hpd, g.prs, g.ans⟩
      | bind m => rw [mexec_bind]; exact ⟨g.tab, hpd, g.prs, g.ans⟩
      | setService i => exact ⟨g.tab, hpd, g.prs, g.ans⟩
      | baseCreate => exact ⟨g.tab, hpd, g.prs, g.ans⟩
      | clearService => exact ⟨g.tab, hpd, g.prs, g.ans⟩
      | dropMembers => exact ⟨g.tab, hpd, g.prs, g.ans⟩
      | baseClear => exact ⟨g.tab, hpd, g.prs, g.ans⟩
      | baseStop => exact ⟨g.tab, hpd, g.prs, g.ans⟩

theorem pend_program (ms : List (MDesc Ty)) (a : Api) (d : MDesc Ty) (h : Micro.addMeth d ∈ program ms a) : d ∈ ms := by
  cases a with
  | create i =>
    cases i with
    | none => simp [program] at h
    | some i =>
      simp [program, methodProg] at h
      exact h
  | destroy => simp [program] at h
  | delete => simp [program] at h

theorem inv2_step (c : Codec Ty M) (ms : List (MDesc Ty)) {s : State Ty M} (g : Inv2 c ms s) (op : Step M) :
    Inv2 c ms (step c ms s op) := by
  unfold step
  by_cases hu : s.ub.isSome = true
  · rw [if_pos hu]; exact g
  · rw [if_neg hu]
    cases op with
    | api a =>
      by_cases h : (s.alive && s.pending.isEmpty) = true
      · simp only [h, if_true]
        exact ⟨g.tab, fun d hd => pend_program ms a d hd, g.prs, g.ans⟩
      · simp only [h]; exact g
    | app => exact inv2_app g
    | arrive t m bs =>
      by_cases h : isIdle s t = true
      · simp only [h, if_true]
        unfold look
        cases hf : s.map.find m with
        | none => exact inv2_rx' g t _ (by simp) (by simp)
        | some b =>
          cases b with
          | false => exact inv2_ub g _
          | true => exact inv2_rx' g t _ (by simp) (by simp)
      · simp only [h]; exact g
    | rx t resp => exact inv2_cb g t resp
    | next t =>
      simp only
      cases hx : s.rx[t]? with
      | none => exact g
      | some x =>
        cases x with
        | unknown m => exact inv2_rx' g t _ (by simp) (by simp)
        | answered m bs ret out => exact inv2_rx' g t _ (by simp) (by simp)
        | idle => exact g
        | looked m bs => exact g
        | checked m bs => exact g
        | parsed m bs r => exact g

theorem inv2_init (c : Codec Ty M) (ms : List (MDesc Ty)) (n : Nat) : Inv2 c ms (init n : State Ty M) := by
  have hr : ∀ x ∈ (init n : State Ty M).rx, x = .idle := by
    intro x hx; exact (List.mem_replicate.1 hx).2
  refine ⟨fun m d h => by simp [init] at h, fun d h => by simp [init] at h, ?_, ?_⟩
  · intro m bs req h; have := hr _ h; cases this
  · intro m bs ret out h; have := hr _ h; cases this

end Ecal.Msg.TypedSvc
