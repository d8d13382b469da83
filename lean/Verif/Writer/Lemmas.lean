import Verif.Writer.Spec
import Verif.Reader.Lemmas

namespace Ecal.Writer

theorem mem_pubLayers (c : Config) (l : TL) : l ∈ pubLayers c ↔ Configured c l := by
  unfold pubLayers Configured
  cases l <;> cases c.udp <;> cases c.shm <;> cases c.tcp <;> simp

theorem readEnabled_iff (ls : List Gate.Layer) (t : Gate.LType) :
    readEnabled ls t = true ↔ ∃ x ∈ ls, (x.enabled = true ∨ x.version < 2) ∧ x.type = t := by
  simp only [readEnabled, List.any_eq_true, Bool.and_eq_true, beq_iff_eq, Bool.or_eq_true,
    decide_eq_true_eq]
  constructor
  · rintro ⟨x, h1, h2, h3⟩; exact ⟨x, h1, h3, h2⟩
  · rintro ⟨x, h1, h2, h3⟩; exact ⟨x, h1, h3, h2⟩

theorem mem_subLayers (ls : List Gate.Layer) (l : TL) : l ∈ subLayers ls ↔ Announced ls l := by
  unfold subLayers Announced
  cases l with
  | udp =>
    have := readEnabled_iff ls .udp
    simp only [List.mem_append]
    constructor
    · intro h
      have : readEnabled ls .udp = true := by
        rcases h with (h | h) | h <;> split at h <;> first | assumption | (simp at h)
      obtain ⟨x, a, b, d⟩ := (readEnabled_iff ls .udp).1 this
      exact ⟨x, a, b, by simp [d]⟩
    · rintro ⟨x, a, b, d⟩
      have : readEnabled ls .udp = true := (readEnabled_iff ls .udp).2 ⟨x, a, b, by simpa using d⟩
      simp [this]
  | shm =>
    simp only [List.mem_append]
    constructor
    · intro h
      have : readEnabled ls .shm = true := by
        rcases h with (h | h) | h <;> split at h <;> first | assumption | (simp at h)
      obtain ⟨x, a, b, d⟩ := (readEnabled_iff ls .shm).1 this
      exact ⟨x, a, b, by simp [d]⟩
    · rintro ⟨x, a, b, d⟩
      have : readEnabled ls .shm = true := (readEnabled_iff ls .shm).2 ⟨x, a, b, by simpa using d⟩
      simp [this]
  | tcp =>
    simp only [List.mem_append]
    constructor
    · intro h
      have : readEnabled ls .tcp = true := by
        rcases h with (h | h) | h <;> split at h <;> first | assumption | (simp at h)
      obtain ⟨x, a, b, d⟩ := (readEnabled_iff ls .tcp).1 this
      exact ⟨x, a, b, by simp [d]⟩
    · rintro ⟨x, a, b, d⟩
      have : readEnabled ls .tcp = true := (readEnabled_iff ls .tcp).2 ⟨x, a, b, by simpa using d⟩
      simp [this]
  | unknown =>
    simp only [List.mem_append]
    constructor
    · intro h
      rcases h with (h | h) | h <;> split at h <;> simp at h
    · rintro ⟨x, a, b, d⟩; simp at d

theorem determine_some (c : Config) (prio : List TL) (ls : List Gate.Layer) (l : TL) :
    determine prio (pubLayers c) (subLayers ls) = some l ↔ FirstCommon c prio ls l := by
  unfold determine FirstCommon
  rw [List.find?_eq_some_iff_append]
  simp only [Bool.and_eq_true, List.contains_iff_mem, mem_pubLayers, mem_subLayers,
    Bool.not_eq_eq_eq_not, Bool.not_true, Bool.and_eq_false_iff]
  constructor
  · rintro ⟨⟨h1, h2⟩, pre, post, h3, h4⟩
    refine ⟨pre, post, h3, h1, h2, ?_⟩
    rintro x hx ⟨ha, hb⟩
    rcases h4 x hx with h | h
    · rw [← Bool.not_eq_true, List.contains_iff_mem, mem_pubLayers] at h; exact h ha
    · rw [← Bool.not_eq_true, List.contains_iff_mem, mem_subLayers] at h; exact h hb
  · rintro ⟨pre, post, h3, h1, h2, h4⟩
    refine ⟨⟨h1, h2⟩, pre, post, h3, ?_⟩
    intro x hx
    have := h4 x hx
    rw [← Bool.not_eq_true, ← Bool.not_eq_true, List.contains_iff_mem, List.contains_iff_mem,
      mem_pubLayers, mem_subLayers]
    by_cases ha : Configured c x
    · right; exact fun hb => this ⟨ha, hb⟩
    · left; exact ha

theorem start_started (st : State) (o : Option TL) (l : TL) (hl : l ≠ .unknown) :
    Started (start st o) l ↔ Started st l ∨ o = some l := by
  cases o with
  | none => simp [start]
  | some x => cases x <;> cases l <;> simp_all [start, Started]

theorem step_started (c : Config) (st : State) (op : Op) (l : TL) (hs : op ≠ .stop) :
    Started (step c st op).1 l ↔
      Started st l ∨ ∃ p ls, op = .applySub p ls ∧ Wanted c p ls l := by
  have hunk : l = .unknown → ¬ Started st l ∧ ¬ Started (step c st op).1 l ∧
      ∀ p ls, ¬ Wanted c p ls l := by
    rintro rfl
    refine ⟨by simp [Started], by simp [Started], ?_⟩
    rintro p ls (⟨_, _, _, _, h, _⟩ | ⟨_, _, _, _, h, _⟩) <;> simp [Configured] at h
  by_cases hl : l = .unknown
  · obtain ⟨h1, h2, h3⟩ := hunk hl
    simp only [h1, h2, false_or, false_iff, not_exists, not_and]
    intro p ls _; exact h3 p ls
  cases op with
  | applySub p ls =>
    simp only [step]
    have e : ∀ (s : State) (x : List Conn.Peer), Started { s with subs := x } l ↔ Started s l := by
      intro s x; simp [Started]
    rw [e, start_started _ _ _ hl]
    have : determine (if c.host = p.host then c.prioLocal else c.prioRemote) (pubLayers c)
        (subLayers ls) = some l ↔ Wanted c p ls l := by
      rw [determine_some]
      unfold Wanted
      by_cases hh : c.host = p.host
      · simp [hh]
      · simp [hh, Ne.symm hh]
    rw [this]
    constructor
    · rintro (h | h)
      · exact Or.inl h
      · exact Or.inr ⟨p, ls, rfl, h⟩
    · rintro (h | ⟨p', ls', h, hw⟩)
      · exact Or.inl h
      · cases h; exact Or.inr hw
  | dropSub p => simp [step, Started]
  | send m =>
    simp only [step]
    split
    · simp
    · split <;> simp [write, Started]
  | stop => exact absurd rfl hs

theorem run_started (c : Config) (h : List Op) (hs : Op.stop ∉ h) (st : State) (l : TL) :
    Started (run c st h).1 l ↔
      Started st l ∨ ∃ p ls, .applySub p ls ∈ h ∧ Wanted c p ls l := by
  induction h generalizing st with
  | nil => simp [run]
  | cons op h ih =>
    simp only [List.mem_cons, not_or] at hs
    simp only [run]
    rw [ih hs.2, step_started c st op l (fun e => hs.1 e.symm)]
    constructor
    · rintro ((h | ⟨p, ls, h, hw⟩) | ⟨p, ls, h, hw⟩)
      · exact Or.inl h
      · exact Or.inr ⟨p, ls, by simp [h], hw⟩
      · exact Or.inr ⟨p, ls, by simp [h], hw⟩
    · rintro (h | ⟨p, ls, h, hw⟩)
      · exact Or.inl (Or.inl h)
      · rcases List.mem_cons.1 h with h | h
        · exact Or.inl (Or.inr ⟨p, ls, h.symm, hw⟩)
        · exact Or.inr ⟨p, ls, h, hw⟩

/-- Copies made by one step carry the counter after the step. -/
theorem step_copies (c : Config) (st : State) (op : Op) :
    ∀ s ∈ (step c st op).2, ∃ m l, op = .send m ∧ st.created = true ∧
      s = copyOf c (st.clock + 1) m l := by
  intro s hs
  cases op with
  | applySub p ls => simp [step] at hs
  | dropSub p => simp [step] at hs
  | stop => simp [step] at hs
  | send m =>
    simp only [step] at hs
    split at hs
    · simp at hs
    · next hc =>
      split at hs
      · simp at hs
      · simp only [write, List.mem_append] at hs
        rcases hs with (hs | hs) | hs <;> split at hs <;> simp at hs <;>
          exact ⟨m, _, rfl, by simpa using hc, hs⟩

/-- A send call. -/
def Op.isSend : Op → Bool
  | .send _ => true
  | _ => false

theorem step_clock (c : Config) (st : State) (op : Op) :
    (step c st op).1.clock = st.clock + (if st.created = true ∧ op.isSend = true then 1 else 0) := by
  cases op with
  | applySub p ls =>
    have : ∀ o, (start st o).clock = st.clock := by
      intro o; cases o with
      | none => rfl
      | some x => cases x <;> rfl
    simp [step, this, Op.isSend]
  | dropSub p => simp [step, Op.isSend]
  | stop => simp [step, Op.isSend]
  | send m =>
    simp only [step]
    by_cases hc : st.created = true
    · rw [if_neg (by simp [hc])]
      split <;> simp [write, hc, Op.isSend]
    · rw [if_pos (by simp [hc])]; simp [hc]

theorem step_created (c : Config) (st : State) (op : Op) (h : op ≠ .stop) :
    (step c st op).1.created = st.created := by
  cases op with
  | applySub p ls =>
    have : ∀ o, (start st o).created = st.created := by
      intro o; cases o with
      | none => rfl
      | some x => cases x <;> rfl
    simp [step, this]
  | dropSub p => simp [step]
  | stop => exact absurd rfl h
  | send m =>
    simp only [step]
    split
    · rfl
    · split <;> rfl

theorem sndHash_inj (c : Config) (a b : Nat) (ha : a < 2 ^ 63) (hb : b < 2 ^ 63)
    (h : sndHash c a = sndHash c b) : a = b := by
  unfold sndHash at h
  have h1 : (BitVec.ofNat 64 a <<< 1) = (BitVec.ofNat 64 b <<< 1) := by
    have := congrArg (fun x => c.tidHash ^^^ x) h
    simpa [← BitVec.xor_assoc] using this
  have h2 := congrArg BitVec.toNat h1
  simp only [BitVec.toNat_shiftLeft, BitVec.toNat_ofNat] at h2
  rw [Nat.mod_eq_of_lt (by omega : a < 2 ^ 64), Nat.mod_eq_of_lt (by omega : b < 2 ^ 64),
    Nat.shiftLeft_eq, Nat.shiftLeft_eq] at h2
  omega

/-- Copies of a run carry counters above the start counter, bounded by the number of sends. -/
theorem run_copies (c : Config) (h : List Op) (st : State) :
    ∀ cs ∈ (run c st h).2, ∀ s ∈ cs, ∃ (i : Nat) (m : Msg) (l : Reader.Layer), (sent h)[i]? = some m ∧
      s = copyOf c (st.clock + 1 + i) m l := by
  induction h generalizing st with
  | nil => intro cs hcs; simp [run] at hcs
  | cons op h ih =>
    intro cs hcs s hs
    simp only [run, List.mem_cons] at hcs
    rcases hcs with rfl | hcs
    · obtain ⟨m, l, rfl, _, rfl⟩ := step_copies c st op s hs
      exact ⟨0, m, l, by simp [sent], rfl⟩
    · obtain ⟨i, m, l, h1, rfl⟩ := ih (step c st op).1 cs hcs s hs
      rw [step_clock]
      by_cases hsend : ∃ m, op = .send m
      · obtain ⟨m0, rfl⟩ := hsend
        by_cases hc : st.created = true
        · refine ⟨i + 1, m, l, by simpa [sent] using h1, ?_⟩
          rw [if_pos ⟨hc, rfl⟩]
          congr 1; omega
        · -- stopped writers make no copies
          exfalso
          have dead : ∀ (h : List Op) (st : State), st.created = false →
              ∀ cs ∈ (run c st h).2, cs = [] := by
            intro h
            induction h with
            | nil => intro st _ cs hcs; simp [run] at hcs
            | cons op h ih2 =>
              intro st hst cs hcs
              simp only [run, List.mem_cons] at hcs
              rcases hcs with rfl | hcs
              · apply List.eq_nil_iff_forall_not_mem.2
                intro s hs
                obtain ⟨m, l, _, hcr, _⟩ := step_copies c st op s hs
                rw [hst] at hcr; cases hcr
              · refine ih2 (step c st op).1 ?_ cs hcs
                by_cases hstop : op = .stop
                · subst hstop; rfl
                · rw [step_created c st op hstop]; exact hst
          have := dead h (step c st (.send m0)).1
            (by rw [step_created c st _ (by simp)]; simpa using hc) cs hcs
          rw [this] at hs; cases hs
      · refine ⟨i, m, l, ?_, ?_⟩
        · have : sent (op :: h) = sent h := by
            cases op with
            | send m0 => exact absurd ⟨m0, rfl⟩ hsend
            | _ => rfl
          rw [this]; exact h1
        · rw [if_neg]
          rintro ⟨_, hx⟩
          cases op with
          | send m0 => exact hsend ⟨m0, rfl⟩
          | _ => cases hx

/-- Strictly increasing keys: a subset is a sublist. -/
theorem sublist_of_sorted {α : Type} (key : α → Int) (l1 l2 : List α)
    (h1 : (l1.map key).Pairwise (· < ·)) (h2 : (l2.map key).Pairwise (· < ·))
    (hs : ∀ x ∈ l1, x ∈ l2) : l1.Sublist l2 := by
  induction l2 generalizing l1 with
  | nil =>
    cases l1 with
    | nil => exact List.Sublist.refl _
    | cons a l => exact absurd (hs a (by simp)) (by simp)
  | cons b l2 ih =>
    cases l1 with
    | nil => exact List.nil_sublist _
    | cons a l1 =>
      simp only [List.map_cons, List.pairwise_cons, List.mem_map, forall_exists_index, and_imp,
        forall_apply_eq_imp_iff₂] at h1 h2
      rcases List.mem_cons.1 (hs a (by simp)) with rfl | ha
      · apply List.Sublist.cons_cons
        apply ih _ h1.2 h2.2
        intro x hx
        rcases List.mem_cons.1 (hs x (by simp [hx])) with rfl | h
        · have := h1.1 x hx; omega
        · exact h
      · apply List.Sublist.cons
        apply ih _ (by simpa using h1) h2.2
        intro x hx
        rcases List.mem_cons.1 (hs x hx) with rfl | h
        · have := h2.1 a ha
          rcases List.mem_cons.1 hx with rfl | hx
          · omega
          · have := h1.1 _ hx; omega
        · exact h

end Ecal.Writer
