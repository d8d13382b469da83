import Verif.Shm.Partial

/-! # Properties of zero-copy writing (C102) -/

namespace Ecal.Shm.Partial

/-- A payload object whose complete write works and writes what it should. -/
def Writes (p : Pl) : Prop := p.full = some p.want ∧ p.want.length = p.len

theorem put_take (mem bs : List Byte) : (put mem bs).take bs.length = bs := by
  simp [put]

/-- Everything told to the readers is what was meant. -/
def AllRight (w : Writer) : Prop := ∀ o ∈ w.out, o.1 = o.2

theorem send_out (reserve : Nat → Nat) (w : Writer) (p : Pl) (e : Env)
    (h : ∀ f, (write f p (decide (1 < w.files.length)) e).2 = none ∨
      (write f p (decide (1 < w.files.length)) e).2 = some p.want) (hr : AllRight w) :
    AllRight (send reserve w p e) := by
  unfold send
  simp only
  cases hf : w.files[w.idx % w.files.length]? with
  | none => exact hr
  | some f =>
    simp only
    rcases h (checkSize reserve f p.len e.create1) with h' | h' <;> rw [h']
    · exact hr
    · intro o ho
      simp only [List.mem_append, List.mem_singleton] at ho
      rcases ho with ho | rfl
      · exact hr o ho
      · rfl

/-- A complete write shows what was meant. -/
theorem writeLocked_force (f : MFile) (p : Pl) (hp : Writes p) :
    (writeLocked f p true).2 = none ∨ (writeLocked f p true).2 = some p.want := by
  unfold writeLocked
  by_cases h0 : p.len = 0
  · rw [if_pos h0]; right; simp; exact List.eq_nil_of_length_eq_zero (by rw [hp.2, h0])
  · rw [if_neg h0]
    unfold writePayload
    by_cases h1 : f.mem.length < p.len
    · simp [h1]
    · right
      simp [h1, full, hp.1]
      have := put_take f.mem p.want
      rwa [hp.2] at this

theorem writeLocked_nopatch (f : MFile) (p : Pl) (hp : Writes p) (hn : p.patch = none) (force : Bool) :
    (writeLocked f p force).2 = none ∨ (writeLocked f p force).2 = some p.want := by
  unfold writeLocked
  by_cases h0 : p.len = 0
  · rw [if_pos h0]; right; simp; exact List.eq_nil_of_length_eq_zero (by rw [hp.2, h0])
  · rw [if_neg h0]
    unfold writePayload
    by_cases h1 : f.mem.length < p.len
    · simp [h1]
    · right
      have := put_take f.mem p.want
      rw [hp.2] at this
      by_cases h2 : (!f.init || force) = true
      · simp only [h1, if_false, if_pos h2, full, hp.1]; simpa using this
      · simp only [h1, if_false, if_neg h2, modified, hn, full, hp.1]; simpa using this

theorem write_of_locked (p : Pl) (force : Bool) (e : Env)
    (h : ∀ f, (writeLocked f p force).2 = none ∨ (writeLocked f p force).2 = some p.want) (f : MFile) :
    (write f p force e).2 = none ∨ (write f p force e).2 = some p.want := by
  unfold write
  by_cases h1 : (!f.created) = true
  · simp [h1]
  · rw [if_neg h1]
    by_cases h2 : e.lock1 = true
    · rw [if_pos h2]; exact h f
    · rw [if_neg h2]
      simp only
      split
      · exact h _
      · exact .inl rfl

theorem length_send (reserve : Nat → Nat) (w : Writer) (p : Pl) (e : Env) :
    (send reserve w p e).files.length = w.files.length := by
  unfold send
  simp only
  cases hf : w.files[w.idx % w.files.length]? <;> simp

/-! ## C102 -/

/-- **C102 (several memory files).** With at least two memory files every sample the readers are told of
has exactly the content that was meant, for payload objects of any sizes in any order, whatever
`WriteModified` would do, and whatever happens to locks and files. -/
theorem C102_several_files_partial (reserve : Nat → Nat) (files : List MFile) (hlen : 1 < files.length)
    (h : List (Pl × Env)) (hp : ∀ o ∈ h, Writes o.1) :
    AllRight (run reserve { files := files } h) := by
  have key : ∀ h (w : Writer), 1 < w.files.length → (∀ o ∈ h, Writes o.1) → AllRight w →
      AllRight (run reserve w h) := by
    intro h
    induction h with
    | nil => intro w _ _ hr; exact hr
    | cons o h ih =>
      intro w hl hp hr
      refine ih _ ?_ (fun x hx => hp x (List.mem_cons_of_mem _ hx)) ?_
      · show 1 < (send reserve w o.1 o.2).files.length
        rw [length_send]; exact hl
      · refine send_out reserve w o.1 o.2 ?_ hr
        rw [decide_eq_true hl]
        exact write_of_locked _ _ _
          (fun f => writeLocked_force f o.1 (hp o (List.mem_cons_self ..)))
  exact key h _ hlen hp (by intro o ho; simp at ho)

/-- Two files, and payload objects whose partial write would be wrong. -/
example : (run (fun _ => 0) { files := [fresh 4, fresh 4] }
    [(⟨2, some [1, 2], some [], [1, 2]⟩, {}), (⟨3, some [3, 4, 5], some [], [3, 4, 5]⟩, {}),
     (⟨2, some [6, 7], some [], [6, 7]⟩, {})]).out =
    [([1, 2], [1, 2]), ([3, 4, 5], [3, 4, 5]), ([6, 7], [6, 7])] := by decide +kernel

/-- **C102 (payload objects without a partial write).** The same with any number of files for payloads that
do not override `WriteModified`, in particular for every `Send(buffer, length)`. -/
theorem C102_no_partial_write_partial (reserve : Nat → Nat) (files : List MFile)
    (h : List (Pl × Env)) (hp : ∀ o ∈ h, Writes o.1 ∧ o.1.patch = none) :
    AllRight (run reserve { files := files } h) := by
  have key : ∀ h (w : Writer), (∀ o ∈ h, Writes o.1 ∧ o.1.patch = none) → AllRight w →
      AllRight (run reserve w h) := by
    intro h
    induction h with
    | nil => intro w _ hr; exact hr
    | cons o h ih =>
      intro w hp hr
      refine ih _ (fun x hx => hp x (List.mem_cons_of_mem _ hx)) ?_
      have ho := hp o (List.mem_cons_self ..)
      exact send_out reserve w o.1 o.2
        (write_of_locked _ _ _ (fun f => writeLocked_nopatch f o.1 ho.1 ho.2 _)) hr
  exact key h _ hp (by intro o ho; simp at ho)

/-- Buffers of any sizes meet the hypothesis. -/
example (bs : List Byte) : Writes (buffer bs) ∧ (buffer bs).patch = none := ⟨⟨rfl, rfl⟩, rfl⟩

/-- The content last told to the readers. -/
def last (w : Writer) : Option (List Byte) := w.out.getLast?.map (·.2)

/-- The documented duty of `WriteModified`: it turns the content written last into the new one, touching
nothing outside. -/
def Turns (p : Pl) (c : List Byte) : Prop :=
  ∀ ps, p.patch = some ps → applyPatch c ps = p.want

/-- All payloads of a run meet that duty. -/
def Dutiful (reserve : Nat → Nat) : Writer → List (Pl × Env) → Prop
  | _, [] => True
  | w, o :: h => (∀ c, last w = some c → Turns o.1 c) ∧ Dutiful reserve (send reserve w o.1 o.2) h

theorem length_applyPatch (ps : List (Nat × Byte)) : ∀ mem : List Byte,
    (applyPatch mem ps).length = mem.length := by
  induction ps with
  | nil => intro _; rfl
  | cons p ps ih => intro mem; simp only [applyPatch, List.foldl_cons]; exact (ih _).trans (by simp)

theorem take_applyPatch (n : Nat) (ps : List (Nat × Byte)) : ∀ mem : List Byte,
    (applyPatch mem ps).take n = applyPatch (mem.take n) ps := by
  induction ps with
  | nil => intro _; rfl
  | cons p ps ih =>
    intro mem
    have : (mem.set p.1 p.2).take n = (mem.take n).set p.1 p.2 := by
      rw [List.take_set]
    simp only [applyPatch, List.foldl_cons] at ih ⊢
    rw [ih, this]

/-- With one file: an initialised file holds the content told last. -/
def One (n : Nat) (w : Writer) : Prop :=
  AllRight w ∧ ∃ f, w.files = [f] ∧ w.idx = 0 ∧
    (f.init = true → f.created = true → last w = some (f.mem.take n) ∧ n ≤ f.mem.length)

theorem one_step (reserve : Nat → Nat) (n : Nat) (hn : 0 < n) (w : Writer) (o : Pl × Env)
    (hp : Writes o.1) (hl : o.1.len = n) (ht : ∀ c, last w = some c → Turns o.1 c) (hi : One n w) :
    One n (send reserve w o.1 o.2) := by
  obtain ⟨hr, f, hf, hidx, hlast⟩ := hi
  obtain ⟨p, e⟩ := o
  simp only at hp hl ht ⊢
  -- what a locked write does
  have locked : ∀ g : MFile, g.created = true →
      (g.init = true → last w = some (g.mem.take n) ∧ n ≤ g.mem.length) →
      ((writeLocked g p false).2 = none ∧ (writeLocked g p false).1 = g ∧ g.mem.length < n) ∨
      ((writeLocked g p false).2 = some p.want ∧ (writeLocked g p false).1.mem.take n = p.want ∧
        n ≤ (writeLocked g p false).1.mem.length) := by
    intro g _ hg
    unfold writeLocked
    rw [if_neg (by omega)]
    unfold writePayload
    by_cases h1 : g.mem.length < p.len
    · left; simp [h1]; omega
    · right
      have hw : p.want.length = n := hp.2.trans hl
      have h1' : ¬ g.mem.length < n := by omega
      have hput : (put g.mem p.want).take n = p.want := by
        have := put_take g.mem p.want
        rwa [hw] at this
      have hlen : n ≤ (put g.mem p.want).length := by simp [put]; omega
      by_cases h2 : g.init = true
      · obtain ⟨hla, hle⟩ := hg h2
        cases hpat : p.patch with
        | none =>
          simp only [hl, if_neg h1', h2, modified, hpat, full, hp.1]
          exact ⟨congrArg some hput, hput, hlen⟩
        | some ps =>
          have h3 : (applyPatch g.mem ps).take n = p.want := by
            rw [take_applyPatch]
            exact ht _ hla ps hpat
          simp only [hl, if_neg h1', h2, modified, hpat]
          exact ⟨congrArg some h3, h3, Nat.le_trans hle (Nat.le_of_eq (length_applyPatch ps g.mem).symm)⟩
      · have h2' : (!g.init || false) = true := by simpa using h2
        simp only [hl, if_neg h1', if_pos h2', full, hp.1]
        exact ⟨congrArg some hput, hput, hlen⟩
  -- the result of the whole write
  have main : ∀ g : MFile, (g.init = true → g.created = true → last w = some (g.mem.take n) ∧
        n ≤ g.mem.length) →
      ((write g p false e).2 = none ∧ ((write g p false e).1.init = true →
          (write g p false e).1.created = true → last w = some ((write g p false e).1.mem.take n) ∧
          n ≤ (write g p false e).1.mem.length)) ∨
      ((write g p false e).2 = some p.want ∧ (write g p false e).1.mem.take n = p.want ∧
        n ≤ (write g p false e).1.mem.length) := by
    intro g hg
    unfold write
    by_cases h1 : g.created = true
    · rw [if_neg (by simp [h1])]
      by_cases h2 : e.lock1 = true
      · rw [if_pos h2]
        rcases locked g h1 (fun h => hg h h1) with ⟨a, b, _⟩ | h
        · left; rw [b]; exact ⟨a, hg⟩
        · exact .inr h
      · rw [if_neg h2]
        simp only
        by_cases h3 : ((recreate g g.mem.length e.create2).created && e.lock2) = true
        · rw [if_pos h3]
          have hc : (recreate g g.mem.length e.create2).created = true := by
            simp only [Bool.and_eq_true] at h3; exact h3.1
          have hini : (recreate g g.mem.length e.create2).init = true →
              last w = some ((recreate g g.mem.length e.create2).mem.take n) ∧
              n ≤ (recreate g g.mem.length e.create2).mem.length := by
            intro hi'
            unfold recreate at hi' hc
            cases hok : e.create2 <;> simp [hok, fresh] at hi' hc
          rcases locked _ hc hini with ⟨a, b, _⟩ | h
          · left; rw [b]; exact ⟨a, fun h _ => hini h⟩
          · exact .inr h
        · rw [if_neg h3]
          left
          refine ⟨rfl, ?_⟩
          intro hi' hc
          unfold recreate at hi' hc
          cases hok : e.create2 <;> simp [hok, fresh] at hi' hc
    · rw [if_pos (by simp [h1])]
      exact .inl ⟨rfl, fun _ h => absurd h h1⟩
  have hck : ((checkSize reserve f p.len e.create1).init = true →
      (checkSize reserve f p.len e.create1).created = true →
      last w = some ((checkSize reserve f p.len e.create1).mem.take n) ∧
      n ≤ (checkSize reserve f p.len e.create1).mem.length) := by
    intro h1 h2
    unfold checkSize at h1 h2 ⊢
    by_cases hc : f.created = true
    · rw [if_neg (by simp [hc])] at h1 h2 ⊢
      by_cases hs : f.mem.length < p.len
      · rw [if_pos hs] at h1 h2
        unfold recreate at h1 h2
        cases hok : e.create1 <;> simp [hok, fresh] at h1 h2
      · rw [if_neg hs] at h1 h2 ⊢
        exact hlast h1 h2
    · rw [if_pos (by simp [hc])] at h2
      exact absurd h2 hc
  have hfile : w.files[w.idx % w.files.length]? = some f := by simp [hf, hidx]
  have hforce : decide (1 < w.files.length) = false := by simp [hf]
  unfold send
  simp only [hfile, hforce]
  rcases main _ hck with ⟨a, b⟩ | ⟨a, b, c⟩
  · rw [a]
    refine ⟨hr, _, ?_, ?_, b⟩
    · simp [hf, hidx]
    · simp [hf, hidx]
  · rw [a]
    refine ⟨?_, (write (checkSize reserve f p.len e.create1) p false e).1, ?_, ?_, ?_⟩
    · intro x hx
      simp only [List.mem_append, List.mem_singleton] at hx
      rcases hx with hx | rfl
      · exact hr x hx
      · rfl
    · simp [hf, hidx]
    · simp [hf, hidx]
    · intro _ _
      refine ⟨?_, c⟩
      simp [last, b]

/-- **C102 (one memory file, all payloads of the same size).** If every payload object's `WriteModified`
turns the content written last into the new content, then every sample the readers are told of has exactly
the content that was meant - with lost locks, recreated files and failed sends in between.
Missing: payloads of growing size, see `C102_violated_growing`; failing writers, see
`C102_violated_failed_write`. -/
theorem C102_one_file_partial (reserve : Nat → Nat) (n : Nat) (hn : 0 < n) (cap : Nat)
    (h : List (Pl × Env)) (hp : ∀ o ∈ h, Writes o.1 ∧ o.1.len = n)
    (hd : Dutiful reserve { files := [fresh cap] } h) :
    AllRight (run reserve { files := [fresh cap] } h) := by
  have key : ∀ h (w : Writer), (∀ o ∈ h, Writes o.1 ∧ o.1.len = n) → Dutiful reserve w h → One n w →
      One n (run reserve w h) := by
    intro h
    induction h with
    | nil => intro w _ _ hi; exact hi
    | cons o h ih =>
      intro w hp hd hi
      have ho := hp o (List.mem_cons_self ..)
      exact ih _ (fun x hx => hp x (List.mem_cons_of_mem _ hx)) hd.2
        (one_step reserve n hn w o ho.1 ho.2 hd.1 hi)
  refine (key h _ hp hd ⟨?_, fresh cap, rfl, rfl, ?_⟩).1
  · intro o ho; simp at ho
  · intro hi; simp [fresh] at hi

/-- Three sends with partial writes, the second after a lost lock. -/
example : Dutiful (fun _ => 0) { files := [fresh 4] }
      [(⟨3, some [1, 2, 3], some [], [1, 2, 3]⟩, {}),
       (⟨3, some [1, 9, 3], some [(1, 9)], [1, 9, 3]⟩, { lock1 := false }),
       (⟨3, some [1, 9, 8], some [(2, 8)], [1, 9, 8]⟩, {})] ∧
    (run (fun _ => 0) { files := [fresh 4] }
      [(⟨3, some [1, 2, 3], some [], [1, 2, 3]⟩, {}),
       (⟨3, some [1, 9, 3], some [(1, 9)], [1, 9, 3]⟩, { lock1 := false }),
       (⟨3, some [1, 9, 8], some [(2, 8)], [1, 9, 8]⟩, {})]).out =
      [([1, 2, 3], [1, 2, 3]), ([1, 9, 3], [1, 9, 3]), ([1, 9, 8], [1, 9, 8])] := by
  refine ⟨?_, by decide +kernel⟩
  simp [Dutiful, send, checkSize, fresh, write, writeLocked, writePayload, full, put, last, Turns,
    applyPatch, recreate]

/-- **C102 (violated: a growing payload).** `m_payload_initialized` does not depend on the size. A payload
that grew, but still fits into the file, is written with `WriteModified` although the added bytes were
never written by `WriteFull`: the third byte readers get is the zero of the new file - or whatever an
earlier, longer payload left there. `WriteModified` does its duty for the bytes that existed. -/
theorem C102_violated_growing :
    (run (fun _ => 8) { files := [fresh 8] }
      [(⟨2, some [1, 2], some [], [1, 2]⟩, {}),
       (⟨3, some [1, 5, 7], some [(1, 5)], [1, 5, 7]⟩, {})]).out =
      [([1, 2], [1, 2]), ([1, 5, 0], [1, 5, 7])] := by decide +kernel

/-- A payload that grew beyond the file is written completely, because the file is replaced. -/
theorem C102_grown_beyond_file (reserve : Nat → Nat) (f : MFile) (p : Pl) (hc : f.created = true)
    (hp : Writes p) (h : f.mem.length < p.len) :
    (send reserve { files := [f] } p {}).out = [(p.want, p.want)] := by
  have h1 : checkSize reserve f p.len true = fresh (p.len + reserve p.len) := by
    simp [checkSize, hc, h, recreate]
  have h0 : ¬ p.len = 0 := by omega
  have h2 : ¬ (p.len + reserve p.len < p.len) := by omega
  have h3 := put_take (List.replicate (p.len + reserve p.len) 0) p.want
  rw [hp.2] at h3
  simp [send, h1, write, fresh, writeLocked, h0, writePayload, h2, full, hp.1, h3]

example : (send (fun n => n) { files := [fresh 1] } ⟨2, some [1, 2], some [], [1, 2]⟩ {}).out =
    [([1, 2], [1, 2])] := by decide +kernel

/-- **C102 (violated: a failed write).** If the payload object reports that it could not write, the readers
are told of a sample all the same and find the previous content again (with a new counter value). -/
theorem C102_violated_failed_write :
    (run (fun _ => 0) { files := [fresh 2] }
      [(buffer [1, 2], {}), (⟨2, none, none, [3, 4]⟩, {})]).out =
      [([1, 2], [1, 2]), ([1, 2], [3, 4])] := by decide +kernel

/-- **C102 (violated: other content in between).** A payload object that tracks its own changes is not told
that something else was sent by the same publisher: after `Send(buffer)` its partial write changes the
buffer's bytes. -/
theorem C102_violated_other_content :
    (run (fun _ => 0) { files := [fresh 2] }
      [(⟨2, some [1, 2], some [], [1, 2]⟩, {}), (buffer [8, 8], {}),
       (⟨2, some [1, 3], some [(1, 3)], [1, 3]⟩, {})]).out =
      [([1, 2], [1, 2]), ([8, 8], [8, 8]), ([8, 3], [1, 3])] := by decide +kernel

/-- **C102 (in turn).** The memory files are used one after the other. -/
theorem C102_files_in_turn (reserve : Nat → Nat) (w : Writer) (hf : w.files ≠ []) (hi : w.idx < w.files.length)
    (h : List (Pl × Env)) : (run reserve w h).idx = (w.idx + h.length) % w.files.length ∧
      (run reserve w h).files.length = w.files.length := by
  have hpos : 0 < w.files.length := List.length_pos_iff.2 hf
  induction h generalizing w with
  | nil => exact ⟨by simp [run, Nat.mod_eq_of_lt hi], rfl⟩
  | cons o h ih =>
    have hm : w.idx % w.files.length = w.idx := Nat.mod_eq_of_lt hi
    have hs : (send reserve w o.1 o.2).idx = (w.idx + 1) % w.files.length ∧
        (send reserve w o.1 o.2).files.length = w.files.length := by
      simp only [send, hm, List.getElem?_eq_getElem hi, List.length_set, and_self]
    have hlt : (send reserve w o.1 o.2).idx < (send reserve w o.1 o.2).files.length := by
      rw [hs.1, hs.2]; exact Nat.mod_lt _ hpos
    have hne : (send reserve w o.1 o.2).files ≠ [] := by
      rw [← List.length_pos_iff, hs.2]; exact hpos
    obtain ⟨h1, h2⟩ := ih _ hne hlt (by rw [hs.2]; exact hpos)
    refine ⟨?_, h2.trans hs.2⟩
    show (run reserve (send reserve w o.1 o.2) h).idx = _
    rw [h1, hs.1, hs.2, List.length_cons, Nat.mod_add_mod]
    congr 1
    omega

end Ecal.Shm.Partial
