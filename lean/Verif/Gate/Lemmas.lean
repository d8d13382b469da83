import Verif.Gate.Spec
import Verif.Conn.Props

namespace Ecal.Gate

variable {σ ω : Type}

/-- The operations of a multimap history that reach an object with name `n`. -/
def projOps (n : String) : List (GOp σ ω) → List ω
  | [] => []
  | .toTopic m op :: h => if n = m then op :: projOps n h else projOps n h
  | .toAll op :: h => op :: projOps n h
  | _ :: h => projOps n h

def GUntouched (id : Nat) (h : List (GOp σ ω)) : Prop :=
  ∀ op ∈ h, (∀ n s, op ≠ .register id n s) ∧ (∀ n, op ≠ .unregister id n)

theorem mem_eraseFirst_ne (id : Nat) (n : String) (g : List (Obj σ)) (o : Obj σ) (h : o.id ≠ id) :
    o ∈ eraseFirst id n g ↔ o ∈ g := by
  induction g with
  | nil => simp [eraseFirst]
  | cons a g ih =>
    simp only [eraseFirst]
    split
    · next hc =>
      constructor
      · exact List.mem_cons_of_mem _
      · intro hm
        rcases List.mem_cons.1 hm with e | e
        · exact absurd (by rw [e]; exact hc.1) h
        · exact e
    · simp [ih]

/-- Objects with identity `id` after one step. -/
theorem gstep_mem (f : σ → ω → σ) (g : List (Obj σ)) (op : GOp σ ω) (id : Nat)
    (hop : (∀ n s, op ≠ .register id n s) ∧ (∀ n, op ≠ .unregister id n)) (n : String) (s : σ) :
    (∀ o ∈ g, o.id = id → o = ⟨id, n, s⟩) →
    (∀ o ∈ gstep f g op, o.id = id → o = ⟨id, n, (projOps n [op]).foldl f s⟩) := by
  intro hg o ho hid
  cases op with
  | register i m s0 =>
    simp only [gstep, List.mem_append, List.mem_singleton] at ho
    rcases ho with ho | ho
    · exact hg o ho hid
    · subst ho; simp only at hid; subst hid; exact absurd rfl (hop.1 m s0)
  | unregister i m =>
    have hne : o.id ≠ i := by
      intro e; rw [hid] at e; subst e; exact hop.2 m rfl
    simp only [gstep] at ho
    rw [mem_eraseFirst_ne _ _ _ _ hne] at ho
    exact hg o ho hid
  | toTopic m w =>
    simp only [gstep, List.mem_map] at ho
    obtain ⟨a, ha, rfl⟩ := ho
    by_cases e : a.name = m
    · rw [if_pos e] at hid ⊢
      have := hg a ha hid
      subst this
      simp only at e
      simp [projOps, e]
    · rw [if_neg e] at hid ⊢
      have := hg a ha hid
      subst this
      simp only at e
      simp [projOps, e]
  | toAll w =>
    simp only [gstep, List.mem_map] at ho
    obtain ⟨a, ha, rfl⟩ := ho
    have := hg a ha hid
    subst this
    simp [projOps]

theorem gstep_exists (f : σ → ω → σ) (g : List (Obj σ)) (op : GOp σ ω) (id : Nat)
    (hop : (∀ n s, op ≠ .register id n s) ∧ (∀ n, op ≠ .unregister id n)) :
    (∃ o ∈ g, o.id = id) → ∃ o ∈ gstep f g op, o.id = id := by
  rintro ⟨o, ho, hid⟩
  cases op with
  | register i m s0 => exact ⟨o, by simp [gstep, ho], hid⟩
  | unregister i m =>
    have hne : o.id ≠ i := by
      intro e; rw [hid] at e; subst e; exact hop.2 m rfl
    exact ⟨o, by simp only [gstep]; rw [mem_eraseFirst_ne _ _ _ _ hne]; exact ho, hid⟩
  | toTopic m w =>
    refine ⟨_, by simp only [gstep]; exact List.mem_map_of_mem ho, ?_⟩
    split <;> exact hid
  | toAll w =>
    exact ⟨{ o with st := f o.st w }, by simp only [gstep]; exact List.mem_map.2 ⟨o, ho, rfl⟩, hid⟩

theorem projOps_cons (n : String) (op : GOp σ ω) (h : List (GOp σ ω)) :
    projOps n (op :: h) = projOps n [op] ++ projOps n h := by
  cases op <;> simp [projOps]
  split <;> simp

theorem grun_obj (f : σ → ω → σ) (h : List (GOp σ ω)) (g : List (Obj σ)) (id : Nat) (n : String)
    (s : σ) (hu : GUntouched id h) (hg : ∀ o ∈ g, o.id = id → o = ⟨id, n, s⟩)
    (he : ∃ o ∈ g, o.id = id) :
    (∃ o ∈ h.foldl (gstep f) g, o.id = id) ∧
    ∀ o ∈ h.foldl (gstep f) g, o.id = id → o = ⟨id, n, (projOps n h).foldl f s⟩ := by
  induction h generalizing g s with
  | nil => exact ⟨he, hg⟩
  | cons op h ih =>
    have hop := hu op (by simp)
    rw [projOps_cons, List.foldl_append]
    simp only [List.foldl_cons]
    exact ih _ _ (fun o ho => hu o (by simp [ho])) (gstep_mem f g op id hop n s hg)
      (gstep_exists f g op id hop he)

/-- No object with this identity unless it was registered. -/
theorem grun_absent (f : σ → ω → σ) (h : List (GOp σ ω)) (g : List (Obj σ)) (id : Nat)
    (hu : GUntouched id h) (hg : ∀ o ∈ g, o.id ≠ id) : ∀ o ∈ h.foldl (gstep f) g, o.id ≠ id := by
  induction h generalizing g with
  | nil => exact hg
  | cons op h ih =>
    simp only [List.foldl_cons]
    apply ih _ (fun o ho => hu o (by simp [ho]))
    intro o ho hid
    have hop := hu op (by simp)
    cases op with
    | register i m s0 =>
      simp only [gstep, List.mem_append, List.mem_singleton] at ho
      rcases ho with ho | ho
      · exact hg o ho hid
      · subst ho; simp only at hid; subst hid; exact hop.1 m s0 rfl
    | unregister i m =>
      have hne : o.id ≠ i := by
        intro e; rw [hid] at e; subst e; exact hop.2 m rfl
      simp only [gstep] at ho
      rw [mem_eraseFirst_ne _ _ _ _ hne] at ho
      exact hg o ho hid
    | toTopic m w =>
      simp only [gstep, List.mem_map] at ho
      obtain ⟨a, ha, rfl⟩ := ho
      apply hg a ha
      split at hid <;> exact hid
    | toAll w =>
      simp only [gstep, List.mem_map] at ho
      obtain ⟨a, ha, rfl⟩ := ho
      exact hg a ha hid

/-- An object registered once: after the history it is there, with the state given by the
operations addressed to its name since. -/
theorem grun_registered (f : σ → ω → σ) (h1 h2 : List (GOp σ ω)) (id : Nat) (n : String) (s0 : σ)
    (hu1 : GUntouched id h1) (hu2 : GUntouched id h2) :
    let g := (h1 ++ .register id n s0 :: h2).foldl (gstep f) []
    (∃ o ∈ g, o.id = id) ∧ ∀ o ∈ g, o.id = id → o = ⟨id, n, (projOps n h2).foldl f s0⟩ := by
  simp only [List.foldl_append, List.foldl_cons]
  have ha := grun_absent f h1 [] id hu1 (by simp)
  apply grun_obj f h2 _ id n s0 hu2
  · intro o ho hid
    simp only [gstep, List.mem_append, List.mem_singleton] at ho
    rcases ho with ho | ho
    · exact absurd hid (ha o ho)
    · exact ho
  · exact ⟨⟨id, n, s0⟩, by simp [gstep], rfl⟩

theorem cstep_foldl (l : List (Int × Conn.Op)) (s : Conn.State) (evs : List Conn.Ev) :
    l.foldl cstep (some (s, evs)) = (Conn.run s l).map (fun r => (r.1, evs ++ r.2)) := by
  induction l generalizing s evs with
  | nil => simp [Conn.run]
  | cons x l ih =>
    simp only [List.foldl_cons, Conn.run, cstep, Option.bind_some]
    cases Conn.step s x.1 x.2 with
    | none =>
      simp only [Option.map_none, Option.bind_none]
      clear ih
      induction l with
      | nil => rfl
      | cons y l ih2 => simpa [cstep] using ih2
    | some r =>
      simp only [Option.map_some, Option.bind_some, ih]
      cases Conn.run r.1 l <;> simp

/-! ### publisher gate -/

/-- The connection history of a publisher of topic `n`. -/
def pubProj (n : String) (h : List POp) : List (Int × Conn.Op) :=
  projOps n (h.flatMap pubGateOps)

theorem pubGate_untouched (id : Nat) (h : List POp) (hu : POp.Untouched id h) :
    GUntouched id (h.flatMap pubGateOps) := by
  intro op hop
  obtain ⟨a, ha, hb⟩ := List.mem_flatMap.1 hop
  have := hu a ha
  cases a with
  | create i n t =>
    simp only [pubGateOps, List.mem_singleton] at hb; subst hb
    refine ⟨?_, by simp⟩
    intro m s e; cases e; exact this.1 n t rfl
  | destroy i n =>
    simp only [pubGateOps, List.mem_singleton] at hb; subst hb
    refine ⟨by simp, ?_⟩
    intro m e; cases e; exact this.2 n rfl
  | subReg now r => simp only [pubGateOps] at hb; split at hb <;> simp at hb; subst hb; simp
  | subUnreg now r => simp only [pubGateOps] at hb; split at hb <;> simp at hb; subst hb; simp
  | cycle now => simp only [pubGateOps, List.mem_singleton] at hb; subst hb; simp

theorem pubProj_cons (n : String) (op : POp) (h : List POp) :
    pubProj n (op :: h) = projOps n (pubGateOps op) ++ pubProj n h := by
  unfold pubProj
  simp only [List.flatMap_cons]
  generalize h.flatMap pubGateOps = k
  induction pubGateOps op with
  | nil => rfl
  | cons a l ih => rw [List.cons_append, projOps_cons, ih, projOps_cons n a l, List.append_assoc]

theorem pubProj_append (n : String) (h g : List POp) :
    pubProj n (h ++ g) = pubProj n h ++ pubProj n g := by
  induction h with
  | nil => rfl
  | cons a h ih => rw [List.cons_append, pubProj_cons, pubProj_cons, ih, List.append_assoc]

theorem pubProj_mono (n : String) (h : List POp) (t0 t1 : Int) (ht : t1 ≤ t0) (hm : POp.mono t0 h) :
    Conn.Monotone t1 (pubProj n h) := by
  induction h generalizing t0 t1 with
  | nil => trivial
  | cons op h ih =>
    rw [pubProj_cons]
    cases op with
    | create i m t => exact ih t0 t1 ht hm
    | destroy i m => exact ih t0 t1 ht hm
    | subReg now r =>
      obtain ⟨a, b⟩ := hm
      simp only [pubGateOps]
      split
      · exact ih now t1 (by omega) b
      · simp only [projOps]
        split
        · exact ⟨by omega, ih now now (by omega) b⟩
        · exact ih now t1 (by omega) b
    | subUnreg now r =>
      obtain ⟨a, b⟩ := hm
      simp only [pubGateOps]
      split
      · exact ih now t1 (by omega) b
      · simp only [projOps]
        split
        · exact ⟨by omega, ih now now (by omega) b⟩
        · exact ih now t1 (by omega) b
    | cycle now =>
      obtain ⟨a, b⟩ := hm
      exact ⟨by omega, ih now now (by omega) b⟩

theorem pubProj_seen (n : String) (hn : n ≠ "") (p : Conn.Peer) (h : List POp) (acc : Option Int) :
    (pubProj n h).foldl (Conn.seen p) acc = h.foldl (pubSeen n p) acc := by
  induction h generalizing acc with
  | nil => rfl
  | cons op h ih =>
    rw [pubProj_cons, List.foldl_append, List.foldl_cons, ih]
    congr 1
    cases op with
    | create i m t => rfl
    | destroy i m => rfl
    | subReg now r =>
      simp only [pubGateOps, pubSeen]
      by_cases e0 : r.topic = ""
      · rw [if_pos e0, if_neg (by rw [e0]; intro h; exact hn h.1.symm)]; rfl
      · rw [if_neg e0]
        by_cases e1 : r.topic = n
        · by_cases e2 : r.peer = p <;> simp [projOps, e1, Conn.seen, e2]
        · simp [projOps, Ne.symm e1, e1]
    | subUnreg now r =>
      simp only [pubGateOps, pubSeen]
      by_cases e0 : r.topic = ""
      · rw [if_pos e0, if_neg (by rw [e0]; intro h; exact hn h.1.symm)]; rfl
      · rw [if_neg e0]
        by_cases e1 : r.topic = n
        · by_cases e2 : r.peer = p <;> simp [projOps, e1, Conn.seen, e2]
        · simp [projOps, Ne.symm e1, e1]
    | cycle now => rfl

/-! ### subscriber gate -/

def subProj (myHost n : String) (h : List SOp) : List (Int × Conn.Op) :=
  projOps n (h.flatMap (subGateOps myHost))

theorem subGate_untouched (myHost : String) (id : Nat) (h : List SOp) (hu : SOp.Untouched id h) :
    GUntouched id (h.flatMap (subGateOps myHost)) := by
  intro op hop
  obtain ⟨a, ha, hb⟩ := List.mem_flatMap.1 hop
  have := hu a ha
  cases a with
  | create i n t =>
    simp only [subGateOps, List.mem_singleton] at hb; subst hb
    refine ⟨?_, by simp⟩
    intro m s e; cases e; exact this.1 n t rfl
  | destroy i n =>
    simp only [subGateOps, List.mem_singleton] at hb; subst hb
    refine ⟨by simp, ?_⟩
    intro m e; cases e; exact this.2 n rfl
  | pubReg now r =>
    simp only [subGateOps] at hb
    split at hb
    · simp at hb
    · split at hb <;> simp at hb; subst hb; simp
  | pubUnreg now r => simp only [subGateOps] at hb; split at hb <;> simp at hb; subst hb; simp
  | cycle now => simp only [subGateOps, List.mem_singleton] at hb; subst hb; simp

theorem projOps_append (n : String) (a b : List (GOp σ ω)) :
    projOps n (a ++ b) = projOps n a ++ projOps n b := by
  induction a with
  | nil => rfl
  | cons x l ih => rw [List.cons_append, projOps_cons, ih, projOps_cons n x l, List.append_assoc]

theorem subProj_cons (myHost n : String) (op : SOp) (h : List SOp) :
    subProj myHost n (op :: h) = projOps n (subGateOps myHost op) ++ subProj myHost n h := by
  unfold subProj
  rw [List.flatMap_cons, projOps_append]

theorem subProj_append (myHost n : String) (h g : List SOp) :
    subProj myHost n (h ++ g) = subProj myHost n h ++ subProj myHost n g := by
  unfold subProj
  rw [List.flatMap_append, projOps_append]

theorem subProj_mono (myHost n : String) (h : List SOp) (t0 t1 : Int) (ht : t1 ≤ t0)
    (hm : SOp.mono t0 h) : Conn.Monotone t1 (subProj myHost n h) := by
  induction h generalizing t0 t1 with
  | nil => trivial
  | cons op h ih =>
    rw [subProj_cons]
    cases op with
    | create i m t => exact ih t0 t1 ht hm
    | destroy i m => exact ih t0 t1 ht hm
    | pubReg now r =>
      obtain ⟨a, b⟩ := hm
      simp only [subGateOps]
      split
      · exact ih now t1 (by omega) b
      · split
        · simp only [projOps]
          split
          · exact ⟨by omega, ih now now (by omega) b⟩
          · exact ih now t1 (by omega) b
        · exact ih now t1 (by omega) b
    | pubUnreg now r =>
      obtain ⟨a, b⟩ := hm
      simp only [subGateOps]
      split
      · exact ih now t1 (by omega) b
      · simp only [projOps]
        split
        · exact ⟨by omega, ih now now (by omega) b⟩
        · exact ih now t1 (by omega) b
    | cycle now =>
      obtain ⟨a, b⟩ := hm
      exact ⟨by omega, ih now now (by omega) b⟩

theorem subProj_seen (myHost n : String) (hn : n ≠ "") (p : Conn.Peer) (h : List SOp)
    (acc : Option Int) :
    (subProj myHost n h).foldl (Conn.seen p) acc = h.foldl (subSeen myHost n p) acc := by
  induction h generalizing acc with
  | nil => rfl
  | cons op h ih =>
    rw [subProj_cons, List.foldl_append, List.foldl_cons, ih]
    congr 1
    cases op with
    | create i m t => rfl
    | destroy i m => rfl
    | pubReg now r =>
      simp only [subGateOps, subSeen]
      by_cases e0 : r.topic = ""
      · rw [if_pos e0, if_neg (by rw [e0]; intro h; exact hn h.1.symm)]; rfl
      · rw [if_neg e0]
        by_cases e1 : r.topic = n
        · by_cases e2 : r.peer = p
          · subst e2
            by_cases e3 : r.peer.host = myHost
            · by_cases e4 : r.connLoc > 0 <;> simp [confirmed, projOps, e1, Conn.seen, e3, e4]
            · by_cases e4 : r.connExt > 0 <;> simp [confirmed, projOps, e1, Conn.seen, e3, e4]
          · cases confirmed myHost r <;> simp [projOps, e1, Conn.seen, e2]
        · cases confirmed myHost r <;> simp [projOps, Ne.symm e1, e1]
    | pubUnreg now r =>
      simp only [subGateOps, subSeen]
      by_cases e0 : r.topic = ""
      · rw [if_pos e0, if_neg (by rw [e0]; intro h; exact hn h.1.symm)]; rfl
      · rw [if_neg e0]
        by_cases e1 : r.topic = n
        · by_cases e2 : r.peer = p <;> simp [projOps, e1, Conn.seen, e2]
        · simp [projOps, Ne.symm e1, e1]
    | cycle now => rfl

/-! ### samples -/

theorem dataGate_untouched (id : Nat) (h : List DOp) (hu : DOp.Untouched id h) :
    GUntouched id (h.flatMap dataOps) := by
  intro op hop
  obtain ⟨a, ha, hb⟩ := List.mem_flatMap.1 hop
  have := hu a ha
  cases a with
  | create i n =>
    simp only [dataOps, List.mem_singleton] at hb; subst hb
    refine ⟨?_, by simp⟩
    intro m s e; cases e; exact this.1 n rfl
  | destroy i n =>
    simp only [dataOps, List.mem_singleton] at hb; subst hb
    refine ⟨by simp, ?_⟩
    intro m e; cases e; exact this.2 n rfl
  | sample t s => simp only [dataOps, List.mem_singleton] at hb; subst hb; simp

theorem dataProj (n : String) (h : List DOp) :
    projOps n (h.flatMap dataOps) = (samplesOf n h).map Reader.Op.sample := by
  induction h with
  | nil => rfl
  | cons op h ih =>
    rw [List.flatMap_cons, projOps_append, ih]
    cases op with
    | create i m => rfl
    | destroy i m => rfl
    | sample t s =>
      by_cases e : t = n
      · simp [dataOps, projOps, samplesOf, e]
      · simp [dataOps, projOps, samplesOf, e, Ne.symm e]

theorem rstep_foldl (c : Reader.Config) (l : List Reader.Op) (s : Reader.State) (evs : List Reader.Ev) :
    l.foldl (rstep c) (s, evs) = ((Reader.run c s l).1, evs ++ (Reader.run c s l).2) := by
  induction l generalizing s evs with
  | nil => simp [Reader.run]
  | cons x l ih =>
    simp only [List.foldl_cons, Reader.run, rstep, ih, List.append_assoc]

end Ecal.Gate
