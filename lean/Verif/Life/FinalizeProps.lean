import Verif.Life.Finalize

/-! # C84: finalising and background threads -/

namespace Ecal.Life.Fin

variable {K G : Type} [DecidableEq K] [DecidableEq G]

/-! ## Vocabulary of the statements -/

/-- In the program, part `g` is not destroyed before the threads of kind `k` are joined. -/
def JoinedFirst (k : K) (g : G) (prog : List (Act K G)) : Prop :=
  ∀ p₁ p₂, prog = p₁ ++ Act.del g :: p₂ → Act.join k ∈ p₁

/-- No execution accesses a destroyed part. -/
def Safe (uses : K → G → Bool) (prog : List (Act K G)) : Prop :=
  ∀ ls : List (Label K G), run uses (start prog) ls ≠ .freed

/-! ## Lemmas -/

omit [DecidableEq K] [DecidableEq G] in
theorem joinedFirst_join (k k' : K) (g : G) (r : List (Act K G)) (h : JoinedFirst k g (.join k' :: r)) (hk : k' ≠ k) : JoinedFirst k g r := by
  intro p₁ p₂ hp
  have := h (.join k' :: p₁) p₂ (by rw [hp]; rfl)
  rcases List.mem_cons.1 this with h | h
  · cases h; exact absurd rfl hk
  · exact h

omit [DecidableEq K] [DecidableEq G] in
theorem joinedFirst_del (k : K) (g g' : G) (r : List (Act K G)) (h : JoinedFirst k g (.del g' :: r)) : JoinedFirst k g r ∧ g' ≠ g := by
  constructor
  · intro p₁ p₂ hp
    have := h (.del g' :: p₁) p₂ (by rw [hp]; rfl)
    rcases List.mem_cons.1 this with h | h
    · cases h
    · exact h
  · intro hg
    have := h [] r (by rw [hg]; rfl)
    cases this

/-- Invariant: a kind is joined, or the parts it uses live and will be destroyed only after the join. -/
structure Inv (uses : K → G → Bool) (s : State K G) : Prop where
  visit : ∀ v ∈ s.visits, v.1 ∉ s.joined ∧ uses v.1 v.2 = true
  safe : ∀ k g, uses k g = true → k ∈ s.joined ∨ (g ∉ s.deleted ∧ JoinedFirst k g s.prog)

theorem inv_step (uses : K → G → Bool) (s : State K G) (l : Label K G) (h : Inv uses s) :
    step uses s l ≠ .freed ∧ ∀ s', step uses s l = .ok s' → Inv uses s' := by
  cases l with
  | enter k g =>
    simp only [step]
    by_cases hc : uses k g = true ∧ k ∉ s.joined ∧ g ∉ s.deleted
    · rw [if_pos hc]
      refine ⟨by simp, ?_⟩
      intro s' hs'
      obtain rfl := Out.ok.inj hs'
      refine ⟨?_, h.safe⟩
      intro v hv
      rcases List.mem_cons.1 hv with rfl | hv
      · exact ⟨hc.2.1, hc.1⟩
      · exact h.visit v hv
    · rw [if_neg hc]; exact ⟨by simp, by simp⟩
  | access i =>
    simp only [step]
    cases hv : s.visits[i]? with
    | none => exact ⟨by simp, by simp⟩
    | some v =>
      have hm : v ∈ s.visits := List.mem_of_getElem? hv
      have h1 := h.visit v hm
      have h2 := (h.safe v.1 v.2 h1.2).resolve_left h1.1
      simp only [if_neg h2.1]
      refine ⟨by simp, ?_⟩
      intro s' hs'
      obtain rfl := Out.ok.inj hs'
      exact h
  | leave i =>
    simp only [step]
    by_cases hc : i < s.visits.length
    · rw [if_pos hc]
      refine ⟨by simp, ?_⟩
      intro s' hs'
      obtain rfl := Out.ok.inj hs'
      exact ⟨fun v hv => h.visit v (List.mem_of_mem_eraseIdx hv), h.safe⟩
    · rw [if_neg hc]; exact ⟨by simp, by simp⟩
  | fin =>
    simp only [step]
    cases hp : s.prog with
    | nil => exact ⟨by simp, by simp⟩
    | cons a r =>
      cases a with
      | join k =>
        by_cases hc : k ∈ s.visits.map (·.1)
        · simp only [if_pos hc]; exact ⟨by simp, by simp⟩
        · simp only [if_neg hc]
          refine ⟨by simp, ?_⟩
          intro s' hs'
          obtain rfl := Out.ok.inj hs'
          refine ⟨?_, ?_⟩
          · intro v hv
            refine ⟨?_, (h.visit v hv).2⟩
            intro hj
            rcases List.mem_cons.1 hj with hj | hj
            · exact hc (List.mem_map.2 ⟨v, hv, hj⟩)
            · exact (h.visit v hv).1 hj
          · intro k' g hu
            by_cases hk : k' = k
            · exact Or.inl (hk ▸ List.mem_cons_self)
            · rcases h.safe k' g hu with hj | ⟨hd, hj⟩
              · exact Or.inl (List.mem_cons_of_mem _ hj)
              · rw [hp] at hj
                exact Or.inr ⟨hd, joinedFirst_join k' k g r hj (fun h => hk h.symm)⟩
      | del g =>
        refine ⟨by simp, ?_⟩
        intro s' hs'
        obtain rfl := Out.ok.inj hs'
        refine ⟨h.visit, ?_⟩
        intro k g' hu
        rcases h.safe k g' hu with hj | ⟨hd, hj⟩
        · exact Or.inl hj
        · rw [hp] at hj
          have := joinedFirst_del k g' g r hj
          refine Or.inr ⟨?_, this.1⟩
          intro hm
          rcases List.mem_cons.1 hm with hm | hm
          · exact this.2 hm.symm
          · exact hd hm

theorem inv_run (uses : K → G → Bool) (ls : List (Label K G)) (s : State K G) (h : Inv uses s) : run uses s ls ≠ .freed := by
  induction ls generalizing s with
  | nil => simp [run]
  | cons l ls ih =>
    simp only [run]
    have := inv_step uses s l h
    cases hs : step uses s l with
    | ok s' => exact ih s' (this.2 s' hs)
    | blocked => simp
    | freed => exact absurd hs this.1

theorem run_append (uses : K → G → Bool) (s t : State K G) (l₁ l₂ : List (Label K G)) (h : run uses s l₁ = .ok t) :
    run uses s (l₁ ++ l₂) = run uses t l₂ := by
  induction l₁ generalizing s with
  | nil => simp only [run, Out.ok.injEq] at h; subst h; rfl
  | cons l ls ih =>
    simp only [run, List.cons_append] at h ⊢
    cases hs : step uses s l with
    | ok s' => rw [hs] at h; exact ih s' h
    | blocked => rw [hs] at h; cases h
    | freed => rw [hs] at h; cases h

/-- Without visits the program runs on. -/
theorem run_fin (uses : K → G → Bool) (p₁ p₂ : List (Act K G)) (d : List G) (j : List K) :
    ∃ d' j', run uses ⟨p₁ ++ p₂, d, j, []⟩ (List.replicate p₁.length .fin) = .ok ⟨p₂, d', j', []⟩ ∧
      (∀ g, g ∈ d' → g ∈ d ∨ Act.del g ∈ p₁) ∧ (∀ k, k ∈ j' → k ∈ j ∨ Act.join k ∈ p₁) := by
  induction p₁ generalizing d j with
  | nil => exact ⟨d, j, rfl, fun g h => Or.inl h, fun k h => Or.inl h⟩
  | cons a p ih =>
    cases a with
    | join k =>
      obtain ⟨d', j', hr, hd, hj⟩ := ih d (k :: j)
      refine ⟨d', j', ?_, ?_, ?_⟩
      · simpa [List.replicate_succ, run, step] using hr
      · intro g hg; exact (hd g hg).imp_right (List.mem_cons_of_mem _)
      · intro k' hk
        rcases hj k' hk with h | h
        · rcases List.mem_cons.1 h with rfl | h
          · exact Or.inr List.mem_cons_self
          · exact Or.inl h
        · exact Or.inr (List.mem_cons_of_mem _ h)
    | del g =>
      obtain ⟨d', j', hr, hd, hj⟩ := ih (g :: d) j
      refine ⟨d', j', ?_, ?_, ?_⟩
      · simpa [List.replicate_succ, run, step] using hr
      · intro g' hg
        rcases hd g' hg with h | h
        · rcases List.mem_cons.1 h with rfl | h
          · exact Or.inr List.mem_cons_self
          · exact Or.inl h
        · exact Or.inr (List.mem_cons_of_mem _ h)
      · intro k' hk; exact (hj k' hk).imp_right (List.mem_cons_of_mem _)

omit [DecidableEq K] in
/-- The first destruction of a part. -/
theorem first_del (g : G) (p : List (Act K G)) (h : Act.del g ∈ p) : ∃ p₁ p₂, p = p₁ ++ Act.del g :: p₂ ∧ Act.del g ∉ p₁ := by
  induction p with
  | nil => cases h
  | cons a p ih =>
    by_cases ha : a = Act.del g
    · exact ⟨[], p, by rw [ha]; rfl, by simp⟩
    · have : Act.del g ∈ p := by
        rcases List.mem_cons.1 h with h | h
        · exact absurd h.symm ha
        · exact h
      obtain ⟨p₁, p₂, hp, hn⟩ := ih this
      refine ⟨a :: p₁, p₂, by rw [hp]; rfl, ?_⟩
      intro hm
      rcases List.mem_cons.1 hm with hm | hm
      · exact ha hm.symm
      · exact hn hm

/-! ## Property theorems -/

/-- **C84, when finalising is safe.**  For every program of joins and destructions and every table of threads and
parts: no execution accesses a destroyed part exactly if no part is destroyed before all kinds of threads that use it
are joined. -/
theorem C84_safe_iff (uses : K → G → Bool) (prog : List (Act K G)) :
    Safe uses prog ↔ ∀ k g, uses k g = true → JoinedFirst k g prog := by
  constructor
  · intro hs k g hu p₁ p₂ hp
    have hd : Act.del g ∈ prog := by rw [hp]; simp
    obtain ⟨q₁, q₂, hq, hn⟩ := first_del g prog hd
    -- `q₁` is a prefix of `p₁`
    have hpre : ∃ t, p₁ = q₁ ++ t := by
      clear hs hd hu
      rw [hp] at hq
      clear hp
      induction q₁ generalizing p₁ with
      | nil => exact ⟨p₁, rfl⟩
      | cons a q ih =>
        cases p₁ with
        | nil =>
          simp only [List.nil_append, List.cons_append, List.cons.injEq] at hq
          exact absurd (hq.1 ▸ List.mem_cons_self) hn
        | cons b p =>
          simp only [List.cons_append, List.cons.injEq] at hq
          obtain ⟨t, ht⟩ := ih p hq.2 (fun h => hn (List.mem_cons_of_mem _ h))
          exact ⟨t, by rw [hq.1, ht]; rfl⟩
    obtain ⟨t, ht⟩ := hpre
    rw [ht]
    refine List.mem_append_left _ ?_
    false_or_by_contra
    rename_i hj
    obtain ⟨d', j', hr, hd', hj'⟩ := run_fin uses q₁ (Act.del g :: q₂) [] []
    have hk : k ∉ j' := by
      intro hk
      rcases hj' k hk with h | h
      · cases h
      · exact hj h
    have hg : g ∉ d' := by
      intro hg
      rcases hd' g hg with h | h
      · cases h
      · exact hn h
    apply hs (List.replicate q₁.length .fin ++ [.enter k g, .fin, .access 0])
    unfold start
    rw [hq, run_append uses _ _ _ _ hr]
    simp [run, step, hu, hk, hg]
  · intro h ls
    exact inv_run uses ls (start prog) ⟨by simp [start], fun k g hu => Or.inr ⟨by simp [start], h k g hu⟩⟩

/-- Decidable form of `JoinedFirst`. -/
def joinedFirst (k : K) (g : G) : List (Act K G) → Bool
  | [] => true
  | a :: r => a = .join k || (a ≠ .del g && joinedFirst k g r)

theorem joinedFirst_iff (k : K) (g : G) (p : List (Act K G)) (h : joinedFirst k g p = true) : JoinedFirst k g p := by
  induction p with
  | nil => intro p₁ p₂ hp; simp at hp
  | cons a r ih =>
    intro p₁ p₂ hp
    simp only [joinedFirst, Bool.or_eq_true, decide_eq_true_eq, Bool.and_eq_true] at h
    cases p₁ with
    | nil =>
      simp only [List.nil_append, List.cons.injEq] at hp
      rcases h with h | h
      · rw [hp.1] at h; cases h
      · exact absurd hp.1 h.1
    | cons b p =>
      simp only [List.cons_append, List.cons.injEq] at hp
      rcases h with h | h
      · rw [← hp.1, h]; exact List.mem_cons_self
      · exact List.mem_cons_of_mem _ (ih h.2 p p₂ hp.2)

/-- The threads that `Finalize` waits for. -/
def waited : Kind → Bool
  | .service | .regReceive | .regSend | .observer | .logReceive => true
  | .udp | .tcpReader | .tcpWriter => false

/-- **C84 (partial).**  `Finalize` never pulls a part away from the service threads, the registration threads, the
threads that observe memory files and the log receiver, whatever parts their callbacks use, in every execution.
Missing: the threads that receive UDP payloads and send and receive TCP payloads. -/
theorem C84_finalize_partial : Safe (fun k g => waited k && uses k g) finalize := by
  rw [C84_safe_iff]
  intro k g hu
  apply joinedFirst_iff
  cases k <;> simp [waited] at hu <;> cases g <;> first | decide | (simp [uses] at hu; done)

/-- A receive callback of a memory file runs while `Finalize` begins; it uses the subscribers and ends, then `Finalize`
goes on and destroys everything. -/
example : ∃ s, run (fun k g => waited k && uses k g) (start finalize)
    ([.fin, .enter .observer .subgate, .fin, .fin, .access 0, .leave 0] ++ List.replicate 15 .fin) = .ok s ∧ s.prog = [] :=
  ⟨_, rfl, rfl⟩

/-- **C84 (violated: UDP and TCP payload threads).**  Each of the threads that receive UDP or TCP payloads or send TCP
payloads can access a destroyed part: each of them alone makes `Finalize` unsafe. -/
theorem C84_violated_payload_threads (k : Kind) (h : waited k = false) :
    ¬ Safe (fun k' g => decide (k' = k) && uses k' g) finalize := by
  intro hs
  have := (C84_safe_iff _ _).1 hs k .log (by cases k <;> simp [waited, uses] at h ⊢)
    [.join .service, .join .regReceive, .join .regSend, .join .observer,
     .del .monitoring, .del .timegate, .del .servicegate, .del .clientgate, .del .pubgate, .del .subgate, .del .regReceiver,
     .del .regProvider, .del .descgate, .del .memPool, .del .memMap, .join .logReceive] [.del .ctx] rfl
  cases k <;> simp [waited] at h this

/-- The execution for UDP: the thread finds the subscriber gate, `Finalize` runs to its end, the thread uses the gate. -/
theorem C84_violated_udp : run uses (start finalize) ([.enter .udp .subgate] ++ List.replicate 18 .fin ++ [.access 0]) = .freed := by
  decide +kernel

/-- **C84, `Finalize` ends.**  From every state all visits can end, and then `Finalize` runs to its end: it waits only
for threads that are inside a visit. -/
theorem C84_ends (uses : K → G → Bool) (s : State K G) :
    ∃ ls s', run uses s ls = .ok s' ∧ s'.prog = [] ∧
      ∀ l ∈ ls, l = .fin ∨ ∃ i, l = .leave i := by
  -- end the visits
  have h1 : ∀ (n : Nat) (s : State K G), s.visits.length = n →
      run uses s (List.replicate n (.leave 0)) = .ok { s with visits := [] } := by
    intro n
    induction n with
    | zero =>
      intro s hn
      have : s.visits = [] := List.length_eq_zero_iff.1 hn
      simp [run, ← this]
    | succ n ih =>
      intro s hn
      cases hv : s.visits with
      | nil => rw [hv] at hn; cases hn
      | cons v vs =>
        rw [List.replicate_succ]
        have hs : step uses s (.leave 0) = .ok { s with visits := vs } := by simp [step, hv]
        simp only [run, hs]
        rw [hv] at hn
        exact ih _ (by simpa using hn)
  obtain ⟨d', j', hr, _, _⟩ := run_fin uses s.prog [] s.deleted s.joined
  refine ⟨List.replicate s.visits.length (.leave 0) ++ List.replicate s.prog.length .fin, ⟨[], d', j', []⟩, ?_, rfl, ?_⟩
  · rw [run_append uses _ _ _ _ (h1 _ s rfl)]
    simpa using hr
  · intro l hl
    rcases List.mem_append.1 hl with hl | hl
    · exact Or.inr ⟨0, List.eq_of_mem_replicate hl⟩
    · exact Or.inl (List.eq_of_mem_replicate hl)

end Ecal.Life.Fin
