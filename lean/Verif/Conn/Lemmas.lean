import Verif.Conn.Spec
import Verif.ExpMap.Lemmas

namespace Ecal.Conn

/-- The expiring-map call behind each operation. -/
def toMapOp : Op → ExpMap.Op Peer Unit
  | .apply p  => .assign p ()
  | .remove p => .erase p
  | .check    => .eraseExpired

def toMapHist (h : List (Int × Op)) : List (Int × ExpMap.Op Peer Unit) :=
  h.map (fun x => (x.1, toMapOp x.2))

theorem toMapHist_mono (t0 : Int) (h : List (Int × Op)) (hm : Monotone t0 h) :
    ExpMap.MonotoneFrom t0 (toMapHist h) := by
  induction h generalizing t0 with
  | nil => trivial
  | cons x h ih => exact ⟨hm.1, ih _ hm.2⟩

theorem toMapHist_noReinsert (timeout : Int) (h : List (Int × Op)) (t : ExpMap.Table Peer Unit) :
    ExpMap.NoReinsert timeout () t (toMapHist h) := by
  induction h generalizing t with
  | nil => trivial
  | cons x h ih =>
    refine ⟨?_, ih _⟩
    intro k v e
    cases hx : x.2 <;> simp [toMapOp, hx] at e

theorem step_map (s : State) (now : Int) (op : Op) :
    (step s now op).map (fun r => r.1.map) = ExpMap.step () s.map now (toMapOp op) := by
  cases op with
  | apply p => simp [step, applyPeer, toMapOp, ExpMap.step, Option.map_map, Function.comp_def]
  | remove p => simp [step, removePeer, toMapOp, ExpMap.step, Option.map_map, Function.comp_def]
  | check =>
    simp only [step, check, toMapOp, ExpMap.step, Option.map_some]
    split <;> rfl

theorem run_map (s : State) (h : List (Int × Op)) :
    (run s h).map (fun r => r.1.map) = ExpMap.run () s.map (toMapHist h) := by
  induction h generalizing s with
  | nil => rfl
  | cons x h ih =>
    have hs := step_map s x.1 x.2
    simp only [run, toMapHist, List.map_cons, ExpMap.run]
    rw [← hs]
    cases hx : step s x.1 x.2 with
    | none => rfl
    | some r =>
      simp only [Option.bind_some, Option.map_some]
      have := ih r.1
      rw [toMapHist] at this
      rw [← this, Option.map_map]
      rfl

/-- The table of the expiring map against the history. -/
theorem spec_lastSeen (timeout t0 : Int) (h : List (Int × Op)) (hm : Monotone t0 h) (p : Peer) :
    let t := ExpMap.specRun timeout () (fun _ => none) (toMapHist h)
    let l := h.foldl (fun _ x => x.1) t0
    (∀ r, t p = some ((), r) → lastSeen p h = some r) ∧
    (t p = none → lastSeen p h = none ∨ ∃ r, lastSeen p h = some r ∧ r < l - timeout) := by
  -- generalise over the starting table
  have key : ∀ (h : List (Int × Op)) (t0 : Int) (t : ExpMap.Table Peer Unit) (acc : Option Int),
      Monotone t0 h →
      (∀ r, t p = some ((), r) → acc = some r) →
      (t p = none → acc = none ∨ ∃ r, acc = some r ∧ r < t0 - timeout) →
      let t' := ExpMap.specRun timeout () t (toMapHist h)
      let acc' := h.foldl (seen p) acc
      (∀ r, t' p = some ((), r) → acc' = some r) ∧
      (t' p = none → acc' = none ∨
        ∃ r, acc' = some r ∧ r < h.foldl (fun _ x => x.1) t0 - timeout) := by
    intro h
    induction h with
    | nil => intro t0 t acc _ h1 h2; exact ⟨h1, h2⟩
    | cons x h ih =>
      intro t0 t acc hm h1 h2
      obtain ⟨now, op⟩ := x
      obtain ⟨hle, hm⟩ := hm
      simp only [toMapHist, List.map_cons, ExpMap.specRun, List.foldl_cons]
      apply ih now _ _ hm
      · intro r hr
        cases op with
        | apply q =>
          simp only [toMapOp, ExpMap.specStep, seen] at hr ⊢
          by_cases e : q = p
          · subst e; simp only [if_true, Option.some.injEq, Prod.mk.injEq, true_and] at hr ⊢; exact hr
          · rw [if_neg (Ne.symm e)] at hr; rw [if_neg e]; exact h1 r hr
        | remove q =>
          simp only [toMapOp, ExpMap.specStep, seen] at hr ⊢
          by_cases e : q = p
          · subst e; simp at hr
          · rw [if_neg (Ne.symm e)] at hr; rw [if_neg e]; exact h1 r hr
        | check =>
          simp only [toMapOp, ExpMap.specStep, seen] at hr ⊢
          cases ht : t p with
          | none => simp [ht] at hr
          | some w =>
            obtain ⟨u, r'⟩ := w
            simp only [ht] at hr
            split at hr
            · cases hr
            · exact h1 r (by rw [ht]; exact hr)
      · intro hr
        cases op with
        | apply q =>
          simp only [toMapOp, ExpMap.specStep, seen] at hr ⊢
          by_cases e : q = p
          · subst e; simp at hr
          · rw [if_neg (Ne.symm e)] at hr; rw [if_neg e]
            rcases h2 hr with h | ⟨r, ha, hb⟩
            · exact Or.inl h
            · exact Or.inr ⟨r, ha, by omega⟩
        | remove q =>
          simp only [toMapOp, ExpMap.specStep, seen] at hr ⊢
          by_cases e : q = p
          · subst e; simp
          · rw [if_neg (Ne.symm e)] at hr; rw [if_neg e]
            rcases h2 hr with h | ⟨r, ha, hb⟩
            · exact Or.inl h
            · exact Or.inr ⟨r, ha, by omega⟩
        | check =>
          simp only [toMapOp, ExpMap.specStep, seen] at hr ⊢
          cases ht : t p with
          | none =>
            rcases h2 ht with h | ⟨r, ha, hb⟩
            · exact Or.inl h
            · exact Or.inr ⟨r, ha, by omega⟩
          | some w =>
            obtain ⟨u, r'⟩ := w
            simp only [ht] at hr
            split at hr
            · next hlt => exact Or.inr ⟨r', h1 r' (by rw [ht]), hlt⟩
            · cases hr
  exact key h t0 (fun _ => none) none hm (by simp) (fun _ => Or.inl rfl)

theorem Monotone.append {t0 : Int} {h g : List (Int × Op)} (hm : Monotone t0 (h ++ g)) :
    Monotone t0 h ∧ Monotone (h.foldl (fun _ x => x.1) t0) g := by
  induction h generalizing t0 with
  | nil => exact ⟨trivial, hm⟩
  | cons x h ih =>
    obtain ⟨a, b⟩ := ih hm.2
    exact ⟨⟨hm.1, a⟩, b⟩

theorem toMapHist_append (h g : List (Int × Op)) :
    toMapHist (h ++ g) = toMapHist h ++ toMapHist g := by simp [toMapHist]

theorem run_append (s : State) (h g : List (Int × Op)) :
    run s (h ++ g) = (run s h).bind (fun r => (run r.1 g).map (fun r2 => (r2.1, r.2 ++ r2.2))) := by
  induction h generalizing s with
  | nil =>
    simp only [List.nil_append, run, Option.bind_some]
    cases run s g <;> simp
  | cons x h ih =>
    simp only [List.cons_append, run]
    cases step s x.1 x.2 with
    | none => rfl
    | some r =>
      simp only [Option.bind_some, ih]
      cases run r.1 h with
      | none => rfl
      | some r2 =>
        simp only [Option.bind_some, Option.map_some]
        cases run r2.1 g with
        | none => rfl
        | some r3 => simp [List.append_assoc]

theorem lastIsConnected_append (a b : List Ev) :
    lastIsConnected (a ++ b) = b.foldl after (lastIsConnected a) := by
  simp [lastIsConnected, List.foldl_append]

/-- Notifications of one step against the flag. -/
theorem step_evs (s s' : State) (now : Int) (op : Op) (evs : List Ev)
    (h : step s now op = some (s', evs)) (rest : List Ev) :
    (Alternates s'.connected rest → Alternates s.connected (evs ++ rest)) ∧
    s'.connected = evs.foldl after s.connected := by
  cases op with
  | apply p =>
    simp only [step, applyPeer, Option.map_eq_some_iff] at h
    obtain ⟨m, _, hm⟩ := h
    cases hm
    cases s.connected <;> simp [fireConnect, Alternates, after]
  | remove p =>
    simp only [step, removePeer, Option.map_eq_some_iff] at h
    obtain ⟨m, _, hm⟩ := h
    cases hm
    simp
  | check =>
    simp only [step, Option.some.injEq, check] at h
    split at h
    · next hc =>
      cases h
      simp only [Bool.and_eq_true] at hc
      simp [Alternates, hc.2, after]
    · cases h; simp

theorem run_evs (h : List (Int × Op)) (s s' : State) (evs : List Ev)
    (hr : run s h = some (s', evs)) :
    Alternates s.connected evs ∧
    s'.connected = evs.foldl after s.connected := by
  induction h generalizing s evs with
  | nil => cases hr; exact ⟨trivial, rfl⟩
  | cons x h ih =>
    simp only [run, Option.bind_eq_some_iff, Option.map_eq_some_iff] at hr
    obtain ⟨r, h1, r2, h2, h3⟩ := hr
    cases h3
    obtain ⟨i1, i2⟩ := ih r.1 r2.2 h2
    obtain ⟨j1, j2⟩ := step_evs s r.1 x.1 x.2 r.2 h1 r2.2
    refine ⟨j1 i1, ?_⟩
    rw [List.foldl_append, ← j2]; exact i2

/-- The map is non-empty only while connected. -/
theorem run_nonempty (h : List (Int × Op)) (s s' : State) (evs : List Ev)
    (h0 : s.map.map ≠ [] → s.connected = true) (hr : run s h = some (s', evs)) :
    s'.map.map ≠ [] → s'.connected = true := by
  induction h generalizing s evs with
  | nil => cases hr; exact h0
  | cons x h ih =>
    simp only [run, Option.bind_eq_some_iff, Option.map_eq_some_iff] at hr
    obtain ⟨r, h1, r2, h2, h3⟩ := hr
    cases h3
    refine ih r.1 r2.2 ?_ h2
    obtain ⟨now, op⟩ := x
    cases op with
    | apply p =>
      simp only [step, applyPeer, Option.map_eq_some_iff] at h1
      obtain ⟨m, _, hm⟩ := h1
      cases hm; simp
    | remove p =>
      simp only [step, removePeer, Option.map_eq_some_iff] at h1
      obtain ⟨m, he, hm⟩ := h1
      cases hm
      simp only
      intro hne
      apply h0
      intro hnil
      apply hne
      unfold ExpMap.erase at he
      rw [hnil] at he
      simp [AMap.find] at he
      rw [← he]; exact hnil
    | check =>
      simp only [step, Option.some.injEq, check] at h1
      split at h1
      · next hc =>
        cases h1
        simp only [Bool.and_eq_true, List.isEmpty_iff] at hc
        intro hne; exact absurd hc.1 hne
      · next hc =>
        cases h1
        simp only [Bool.and_eq_true, List.isEmpty_iff, not_and] at hc
        intro hne
        apply h0
        intro hnil
        apply hne
        have : ∀ (ns : List (ExpMap.Node Peer)) (l : Int),
            (ExpMap.eraseExpiredLoop (V := Unit) l ns []).2.1 = [] := by
          intro ns
          induction ns with
          | nil => intro l; rfl
          | cons n ns ih =>
            intro l
            simp only [ExpMap.eraseExpiredLoop]
            split
            · simpa [AMap.erase] using ih l
            · rfl
        simp only [ExpMap.eraseExpired, hnil]
        exact this _ _

end Ecal.Conn
