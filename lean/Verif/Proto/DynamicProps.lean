import Verif.Proto.Dynamic

/-!
# Properties of dynamic subscribers (C100)
-/

namespace Ecal.Proto.Dynamic

variable {T D M : Type}

/-- What the user should see for a message of a publisher of type `t`: the message, or an error if it is none. -/
def should (w : World T D M) (t : Option T) (d : D) : Ev M :=
  match t with
  | none => .error
  | some t =>
    if w.create t then
      match w.parse t d with
      | some m => .message m
      | none => .error
    else .error

/-- **Well-formed messages of a type that does not change are delivered**, decoded, each once and in order, by both
deserializers, also when the type becomes known after the first messages, which are reported as errors.  Part of C100: the type
must not change, the descriptions must be usable and the messages well-formed. -/
theorem C100_delivers_partial (w : World T D M) (k : Kind) (t : T) (hc : w.create t = true) (s : St T)
    (hcb : s.cb = true) (ha : s.alive = true) (hi : s.info = some t ∨ (s.info = none ∧ s.known = some t))
    (ds : List D) (hp : ∀ d ∈ ds, (w.parse t d).isSome) :
    (run w k s (ds.map .data)).2 = ds.map (should w (some t)) := by
  induction ds generalizing s with
  | nil => rfl
  | cons d ds ih =>
    obtain ⟨m, hm⟩ := Option.isSome_iff_exists.1 (hp d (by simp))
    have hpop : (populate s).info = some t := by
      unfold populate
      rcases hi with h | ⟨h, h'⟩
      · rw [h]; exact h
      · rw [h]; exact h'
    have hpc : (populate s).cb = true ∧ (populate s).alive = true := by
      unfold populate
      split <;> exact ⟨hcb, ha⟩
    have hres : deserialize w k t d = .ok m := by
      cases k <;> simp [deserialize, hc, hm]
    have hstep : step w k s (.data d) = (populate s, [.message m]) := by
      simp only [step, ha, if_true, receive, hcb, hpop, hres]
    simp only [List.map_cons, run, hstep]
    rw [ih (populate s) hpc.1 hpc.2 (.inl hpop) (fun d hd => hp d (by simp [hd]))]
    simp [should, hc, hm]

/-- **Without a known type every message is reported as an error** and none is delivered. -/
theorem C100_unknown_reported (w : World T D M) (k : Kind) (s : St T) (hcb : s.cb = true) (he : s.err = true)
    (ha : s.alive = true) (hi : s.info = none) (hk : s.known = none) (ds : List D) :
    (run w k s (ds.map .data)).2 = ds.map (fun _ => Ev.error) := by
  induction ds with
  | nil => rfl
  | cons d ds ih =>
    have hpop : populate s = s := by unfold populate; rw [hi]; cases s; simp_all
    have hstep : step w k s (.data d) = (s, [.error]) := by
      simp only [step, ha, if_true, receive, hcb, hpop, hi, report, he]
    simp only [List.map_cons, run, hstep, ih, List.singleton_append]

/-- **The message deserializer never ends the process.** -/
theorem C100_message_survives (w : World T D M) (s : St T) (ha : s.alive = true) (os : List (Op T D)) :
    (run w .message s os).1.alive = true ∧ Ev.terminate ∉ (run w .message s os).2 := by
  induction os generalizing s with
  | nil => exact ⟨ha, by simp [run]⟩
  | cons o os ih =>
    have hstep : (step w .message s o).1.alive = true ∧ Ev.terminate ∉ (step w .message s o).2 := by
      have hpa : (populate s).alive = true := by unfold populate; split <;> exact ha
      cases o with
      | data d =>
        simp only [step, ha, if_true, receive]
        split
        · split
          · refine ⟨hpa, ?_⟩; unfold report; split <;> simp
          · rename_i t _
            simp only [deserialize]
            split
            · rename_i h; split at h <;> simp at h; exact ⟨hpa, by simp⟩
            · refine ⟨hpa, ?_⟩; unfold report; split <;> simp
            · rename_i h; split at h <;> simp at h
        · exact ⟨ha, by simp⟩
      | _ => exact ⟨ha, by simp [step]⟩
    obtain ⟨h1, h2⟩ := ih (step w .message s o).1 hstep.1
    simp only [run]
    exact ⟨h1, by simp [hstep.2, h2]⟩

/-- **A description from which the type cannot be made is reported** for each message (by the deserializer for messages). -/
theorem C100_unusable_reported (w : World T D M) (t : T) (hc : w.create t = false) (s : St T)
    (hcb : s.cb = true) (he : s.err = true) (ha : s.alive = true) (hi : s.info = some t ∨ (s.info = none ∧ s.known = some t))
    (ds : List D) : (run w .message s (ds.map .data)).2 = ds.map (should w (some t)) := by
  induction ds generalizing s with
  | nil => rfl
  | cons d ds ih =>
    have hpop : (populate s).info = some t := by
      unfold populate
      rcases hi with h | ⟨h, h'⟩
      · rw [h]; exact h
      · rw [h]; exact h'
    have hpc : (populate s).cb = true ∧ (populate s).err = true ∧ (populate s).alive = true := by
      unfold populate
      split <;> exact ⟨hcb, he, ha⟩
    have hres : deserialize w .message t d = .throws := by simp [deserialize, hc]
    have hstep : step w .message s (.data d) = (populate s, [.error]) := by
      simp only [step, ha, if_true, receive, hcb, hpop, hres, report, he]
    simp only [List.map_cons, run, hstep]
    rw [ih (populate s) hpc.1 hpc.2.1 hpc.2.2 (.inl hpop)]
    simp [should, hc]

/-- **Moving keeps the delivery**: a moved subscriber delivers the well-formed messages of the type known for the topic. -/
theorem C100_move_delivers (w : World T D M) (k : Kind) (t : T) (hc : w.create t = true) (s : St T)
    (hcb : s.cb = true) (ha : s.alive = true) (hk : s.known = some t) (ds : List D) (hp : ∀ d ∈ ds, (w.parse t d).isSome) :
    (run w k s (.move :: ds.map .data)).2 = ds.map (should w (some t)) := by
  have := C100_delivers_partial w k t hc (step w k s .move : St T × List (Ev M)).1 hcb ha (.inr ⟨rfl, hk⟩) ds hp
  simp only [run, step, List.nil_append] at this ⊢
  exact this

/-- Violated: **the type is never looked at again**: whatever is announced for the topic after the first message, messages are
decoded as the first type, until the object is moved. -/
theorem C100_violated_type_frozen (w : World T D M) (k : Kind) (t : T) (s : St T) (hi : s.info = some t)
    (os : List (Op T D)) (hm : Op.move ∉ os) : (run w k s os).1.info = some t := by
  induction os generalizing s with
  | nil => exact hi
  | cons o os ih =>
    simp only [run]
    apply ih
    · have hpop : populate s = s := by unfold populate; rw [hi]
      cases o with
      | data d =>
        simp only [step, receive, hpop, hi]
        split
        · split
          · split <;> first | exact hi | rfl
          · exact hi
        · exact hi
      | move => simp at hm
      | _ => exact hi
    · intro h; exact hm (by simp [h])

/-- What it looks like: the publisher restarts with another type; its well-formed messages are delivered as messages of the old
type (here: type 1 reads a content as it is, type 2 doubles it). -/
theorem C100_violated_restart :
    let w : World Nat Nat Nat := ⟨fun _ => true, fun t d => some (t * d), fun _ _ => 0⟩
    (run w .message {} [.addReceive, .announce (some 1), .data 5, .announce (some 2), .data 5]).2 = [.message 5, .message 5] ∧
    should w (some 2) 5 = .message 10 := by
  decide

/-- Violated: **data that is no message of the type is delivered as if it were one**; no error is reported. -/
theorem C100_violated_malformed (w : World T D M) (t : T) (hc : w.create t = true) (s : St T) (hcb : s.cb = true)
    (ha : s.alive = true) (hi : s.info = some t) (d : D) (hp : w.parse t d = none) :
    (run w .message s [.data d]).2 = [.message (w.rest t d)] ∧ should w (some t) d = .error := by
  have hpop : populate s = s := by unfold populate; rw [hi]
  constructor
  · simp [run, step, ha, receive, hcb, hpop, hi, deserialize, hc, hp]
  · simp [should, hc, hp]

/-- Violated: **with JSON such data ends the process**, and so does a description from which the type cannot be made: a pointer
is thrown, which the handler for exceptions of this type does not catch. -/
theorem C100_violated_json_terminates (w : World T D M) (t : T) (s : St T) (hcb : s.cb = true) (ha : s.alive = true)
    (hi : s.info = some t) (d : D) (hp : w.create t = false ∨ w.parse t d = none) :
    (run w .json s [.data d]).2 = [.terminate] ∧ (run w .json s [.data d]).1.alive = false ∧
      should w (some t) d = .error := by
  have hpop : populate s = s := by unfold populate; rw [hi]
  have hres : deserialize w .json t d = .throwsPointer := by
    rcases hp with h | h
    · simp [deserialize, h]
    · cases hc : w.create t <;> simp [deserialize, hc, h]
  refine ⟨?_, ?_, ?_⟩
  · simp [run, step, ha, receive, hcb, hpop, hi, hres]
  · simp [run, step, ha, receive, hcb, hpop, hi, hres]
  · rcases hp with h | h
    · simp [should, h]
    · cases hc : w.create t <;> simp [should, hc, h]

/-- Violated: **a moved subscriber has lost its error callback**: a message without known type is reported before the move and
not after it. -/
theorem C100_violated_move (w : World T D M) (k : Kind) (s : St T) (hcb : s.cb = true) (he : s.err = true) (ha : s.alive = true)
    (hi : s.info = none) (hk : s.known = none) (d : D) :
    (run w k s [.data d, .move, .data d]).2 = [.error] := by
  simp [run, step, ha, receive, hcb, hi, report, he, populate, hk]

example : (run (⟨fun _ => true, fun t d => if d < 10 then some (t * d) else none, fun _ _ => 0⟩ : World Nat Nat Nat) .json {}
    [.addError, .addReceive, .data 3, .announce (some 2), .data 3, .data 4, .data 12]).2 =
    [.error, .message 6, .message 8, .terminate] := by decide

/-- **C100** Without a callback - none was ever added, or the last one was removed - data have no effect at all. -/
theorem C100_no_callback (w : World T D M) (k : Kind) (s : St T) (h : s.cb = false) (ds : List D) :
    run w k s (ds.map .data) = (s, []) := by
  induction ds with
  | nil => rfl
  | cons d ds ih => simp [run, step, receive, h, ih]

/-- … in particular in the beginning and after a removal. -/
theorem C100_removed_is_silent (w : World T D M) (k : Kind) (s : St T) (ds : List D) :
    (run w k s (.remReceive :: ds.map .data)).2 = [] ∧ (run w k ({} : St T) (ds.map .data)).2 = [] := by
  constructor
  · show (run w k (step w k s .remReceive).1 (ds.map .data)).2 = []
    rw [C100_no_callback w k _ rfl]
  · rw [C100_no_callback w k _ rfl]

/-- **C100** Without an error callback nothing is reported. -/
theorem C100_no_error_callback (w : World T D M) (k : Kind) (os : List (Op T D)) (h : .addError ∉ os) :
    Ev.error ∉ (run w k ({} : St T) os).2 := by
  have key : ∀ (os : List (Op T D)) (s : St T), s.err = false → .addError ∉ os → Ev.error ∉ (run w k s os).2 := by
    intro os
    induction os with
    | nil => intro s _ _; simp [run]
    | cons o os ih =>
      intro s he hn
      have hpop : (populate s).err = false := by unfold populate; split <;> exact he
      have h1 : (step w k s o : St T × List (Ev M)).1.err = false ∧ Ev.error ∉ (step w k s o : St T × List (Ev M)).2 := by
        cases o with
        | addError => simp at hn
        | data d =>
          simp only [step]
          split
          · simp only [receive]
            split
            · split
              · exact ⟨hpop, by simp [report, he]⟩
              · split <;> simp [report, he, hpop]
            · simp [he]
          · simp [he]
        | _ => simp [step, he]
      simp only [run, List.mem_append, not_or]
      exact ⟨h1.2, ih _ h1.1 (fun hm => hn (by simp [hm]))⟩
  exact key os {} rfl h

end Ecal.Proto.Dynamic
