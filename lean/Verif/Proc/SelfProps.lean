import Verif.Proc.Self
import Verif.Text.CmdLineProps
import Verif.Wire.RegistrationProps

/-!
# C130: what a process says about itself

The specification looks at the calls only: which call has named the unit last, which state was set last, what the operating system
has answered.  A text for the command line is read by `readArgs`, which is not a part of the library.
-/

namespace Ecal.Proc.Self
open Ecal.Text (Str)
open Ecal.Text.CmdLine (toCommandLine toArgv escArg escC blank dquote squote bslash)
open Ecal.Wire (RegSample serializeReg deserializeReg)

/-! ## Specification -/

/-- The call gives the unit this name. -/
def Names (u : Str) (o : Op) : Prop := u ≠ [] ∧ (o = .init (some u) ∨ o = .setUnit (some u))

/-- The call says nothing about the name of the unit. -/
def Quiet (o : Op) : Prop := (∀ u : Str, o ≠ .init (some u)) ∧ (∀ u : Str, u ≠ [] → o ≠ .setUnit (some u))

/-- What other processes show after a registration that was made after the history and has arrived. -/
def Shown (h : List (Env × Op)) (e : Env) (en : Entry) : Prop :=
  ∃ m m' : RegSample, answer h e .register = .sent m ∧ deserializeReg {} (serializeReg m) = some m' ∧ en = entry m'

/-- The registration fits into what the serialisation can count. -/
def Fits (h : List (Env × Op)) (e : Env) : Prop := ∀ m : RegSample, answer h e .register = .sent m → (serializeReg m).length < 2 ^ 32

/-- Reads a command line: parts are separated by blanks, except between double quotes and behind a backslash. -/
def readGo (q : Bool) (cur : Str) : Str → List Str
  | [] => [cur]
  | c :: r =>
    if c = 92 then
      match r with
      | [] => [cur]
      | d :: r' => readGo q (cur ++ [d]) r'
    else if c = 34 then readGo (!q) cur r
    else if c = 32 ∧ q = false then cur :: readGo false [] r
    else readGo q (cur ++ [c]) r

def readArgs (s : Str) : List Str := if s = [] then [] else readGo false [] s

/-- How the system stores arguments in `/proc/self/cmdline`. -/
def stored (args : List Str) : Str := args.flatMap (fun a => a ++ [0])

/-! ## Lemmas -/

theorem after_append (s : St) (h k : List (Env × Op)) : after s (h ++ k) = after (after s h) k := by
  induction h generalizing s with
  | nil => rfl
  | cons x h ih => exact ih _

theorem getName_fields (e : Env) (s : St) :
    (getName e s).1.unit = s.unit ∧ (getName e s).1.par = s.par ∧ (getName e s).1.severity = s.severity ∧
    (getName e s).1.level = s.level ∧ (getName e s).1.info = s.info ∧ (getName e s).1.task = s.task := by
  unfold getName; split
  · split <;> simp
  · simp

theorem getPar_fields (e : Env) (s : St) :
    (getPar e s).1.unit = s.unit ∧ (getPar e s).1.pname = s.pname ∧ (getPar e s).1.severity = s.severity ∧
    (getPar e s).1.level = s.level ∧ (getPar e s).1.info = s.info ∧ (getPar e s).1.task = s.task := by
  unfold getPar; split
  · split <;> simp
  · simp

theorem getName_congr (e : Env) (s t : St) (h : s.pname = t.pname) : (getName e s).2 = (getName e t).2 ∧ (getName e s).1.pname = (getName e t).1.pname := by
  unfold getName; rw [h]
  by_cases hp : t.pname = []
  · rw [if_pos hp, if_pos hp]; cases e.exe <;> simp [h, hp]
  · rw [if_neg hp, if_neg hp]; exact ⟨rfl, h⟩

theorem getPar_congr (e : Env) (s t : St) (h : s.par = t.par) : (getPar e s).2 = (getPar e t).2 ∧ (getPar e s).1.par = (getPar e t).1.par := by
  unfold getPar; rw [h]
  by_cases hp : t.par = []
  · rw [if_pos hp, if_pos hp]; cases e.cmdline <;> simp [h, hp]
  · rw [if_neg hp, if_neg hp]; exact ⟨rfl, h⟩

theorem quiet_unit (e : Env) (s : St) (o : Op) (h : Quiet o) : (step e s o).1.unit = s.unit := by
  cases o with
  | init u => cases u with
    | none => rfl
    | some u => exact absurd rfl (h.1 u)
  | setUnit u => cases u with
    | none => rfl
    | some u =>
      by_cases hu : u = []
      · simp [step, hu]
      · exact absurd rfl (h.2 u hu)
  | setState v l i => cases i <;> rfl
  | name => exact (getName_fields e s).1
  | par => exact (getPar_fields e s).1
  | register => simp [step, sample, (getPar_fields _ _).1, (getName_fields _ _).1]
  | _ => rfl

theorem quiet_units (s : St) (h : List (Env × Op)) (hq : ∀ x ∈ h, Quiet x.2) : (after s h).unit = s.unit := by
  induction h generalizing s with
  | nil => rfl
  | cons x h ih =>
    rw [after, ih _ (fun y hy => hq y (List.mem_cons_of_mem _ hy)), quiet_unit _ _ _ (hq x List.mem_cons_self)]

/-- How a step changes the kept process name. -/
theorem step_pname (e : Env) (s : St) (o : Op) : (step e s o).1.pname = s.pname ∨ (step e s o).1.pname = (getName e s).1.pname := by
  cases o with
  | init u => cases u with
    | none => exact Or.inl rfl
    | some u =>
      by_cases hu : u = []
      · right
        simp only [step, setGlobal, if_pos hu]
        exact (getName_congr e { s with unit := u } s rfl).2
      · left; simp [step, setGlobal, hu]
  | setUnit u => cases u with
    | none => exact Or.inl rfl
    | some u => left; simp only [step]; split <;> rfl
  | setState v l i => cases i <;> exact Or.inl rfl
  | name => exact Or.inr rfl
  | par => exact Or.inl (getPar_fields e s).2.1
  | register => right; simp [step, sample, (getPar_fields _ _).2.1]
  | _ => exact Or.inl rfl

/-- How a step changes the kept command line. -/
theorem step_par (e : Env) (s : St) (o : Op) : (step e s o).1.par = s.par ∨ (step e s o).1.par = (getPar e s).1.par := by
  cases o with
  | init u => cases u with
    | none => exact Or.inl rfl
    | some u =>
      left
      by_cases hu : u = []
      · simp only [step, setGlobal, if_pos hu, (getName_fields _ _).2.1]
      · simp [step, setGlobal, hu]
  | setUnit u => cases u with
    | none => exact Or.inl rfl
    | some u => left; simp only [step]; split <;> rfl
  | setState v l i => cases i <;> exact Or.inl rfl
  | name => exact Or.inl (getName_fields e s).2.1
  | par => exact Or.inr rfl
  | register => right; exact (getPar_congr e _ _ (getName_fields e s).2.1).2
  | _ => exact Or.inl rfl

theorem getName_pname (e : Env) (s : St) (p : Str) (he : e.exe = none ∨ e.exe = some p) (h : s.pname = [] ∨ s.pname = p.take pathMax) :
    (getName e s).1.pname = [] ∨ (getName e s).1.pname = p.take pathMax := by
  unfold getName
  by_cases hp : s.pname = []
  · rw [if_pos hp]
    rcases he with he | he <;> rw [he]
    · exact Or.inl hp
    · exact Or.inr rfl
  · rw [if_neg hp]; exact h

theorem pname_inv (p : Str) (s : St) (h : List (Env × Op)) (he : ∀ x ∈ h, x.1.exe = none ∨ x.1.exe = some p)
    (hs : s.pname = [] ∨ s.pname = p.take pathMax) : (after s h).pname = [] ∨ (after s h).pname = p.take pathMax := by
  induction h generalizing s with
  | nil => exact hs
  | cons x h ih =>
    refine ih _ (fun y hy => he y (List.mem_cons_of_mem _ hy)) ?_
    rcases step_pname x.1 s x.2 with hp | hp <;> rw [hp]
    · exact hs
    · exact getName_pname _ _ _ (he x List.mem_cons_self) hs

theorem getName_answer (e : Env) (s : St) (p : Str) (he : e.exe = some p) (h : s.pname = [] ∨ s.pname = p.take pathMax) :
    (getName e s).2 = p.take pathMax := by
  unfold getName
  by_cases hp : s.pname = []
  · rw [if_pos hp, he]
  · rw [if_neg hp]
    rcases h with h | h
    · exact absurd h hp
    · exact h

theorem getPar_par (e : Env) (s : St) (f : Str) (he : e.cmdline = none ∨ e.cmdline = some f)
    (h : s.par = [] ∨ s.par = toCommandLine (pieces [] f)) :
    (getPar e s).1.par = [] ∨ (getPar e s).1.par = toCommandLine (pieces [] f) := by
  unfold getPar
  by_cases hp : s.par = []
  · rw [if_pos hp]
    rcases he with he | he <;> rw [he]
    · exact Or.inl hp
    · exact Or.inr rfl
  · rw [if_neg hp]; exact h

theorem par_inv (f : Str) (s : St) (h : List (Env × Op)) (he : ∀ x ∈ h, x.1.cmdline = none ∨ x.1.cmdline = some f)
    (hs : s.par = [] ∨ s.par = toCommandLine (pieces [] f)) :
    (after s h).par = [] ∨ (after s h).par = toCommandLine (pieces [] f) := by
  induction h generalizing s with
  | nil => exact hs
  | cons x h ih =>
    refine ih _ (fun y hy => he y (List.mem_cons_of_mem _ hy)) ?_
    rcases step_par x.1 s x.2 with hp | hp <;> rw [hp]
    · exact hs
    · exact getPar_par _ _ _ (he x List.mem_cons_self) hs

theorem getPar_answer (e : Env) (s : St) (f : Str) (he : e.cmdline = some f) (h : s.par = [] ∨ s.par = toCommandLine (pieces [] f)) :
    (getPar e s).2 = toCommandLine (pieces [] f) := by
  unfold getPar
  by_cases hp : s.par = []
  · rw [if_pos hp, he]
  · rw [if_neg hp]
    rcases h with h | h
    · exact absurd h hp
    · exact h

theorem afterSlash_clean (n : Str) (h : (47 : UInt8) ∉ n) : afterSlash n = n := by
  cases n with
  | nil => rfl
  | cons c r =>
    have h1 : (47 : UInt8) ∉ r := fun hm => h (List.mem_cons_of_mem _ hm)
    have h2 : c ≠ 47 := fun hc => h (hc ▸ List.mem_cons_self)
    simp [afterSlash, h1, h2]

theorem afterSlash_path (dir n : Str) (h : (47 : UInt8) ∉ n) : afterSlash (dir ++ 47 :: n) = n := by
  induction dir with
  | nil => simp [afterSlash, h]
  | cons c dir ih => simp [afterSlash, ih]

theorem pieces_arg (cur a r : Str) (h : (0 : UInt8) ∉ a) : pieces cur (a ++ 0 :: r) = (cur ++ a) :: pieces [] r := by
  induction a generalizing cur with
  | nil => simp [pieces]
  | cons c a ih =>
    have h1 : c ≠ 0 := fun hc => h (hc ▸ List.mem_cons_self)
    rw [List.cons_append, pieces, if_neg h1, ih _ (fun hm => h (List.mem_cons_of_mem _ hm))]
    simp

theorem pieces_stored (args : List Str) (h : ∀ a ∈ args, (0 : UInt8) ∉ a) : pieces [] (stored args) = args := by
  induction args with
  | nil => rfl
  | cons a l ih =>
    have : stored (a :: l) = a ++ 0 :: stored l := by simp [stored]
    rw [this, pieces_arg _ _ _ (h a List.mem_cons_self), ih (fun b hb => h b (List.mem_cons_of_mem _ hb))]
    simp

theorem read_chars (q : Bool) (a cur r : Str) (h : q = true ∨ (32 : UInt8) ∉ a) :
    readGo q cur (a.flatMap escC ++ r) = readGo q (cur ++ a) r := by
  induction a generalizing cur with
  | nil => simp
  | cons c a ih =>
    have ih' := ih (cur ++ [c]) (h.imp id (fun hn hm => hn (List.mem_cons_of_mem _ hm)))
    rw [List.flatMap_cons, List.append_assoc]
    by_cases hc : (c == bslash || c == dquote || c == squote) = true
    · simp only [escC, hc, if_true, List.cons_append, List.nil_append]
      rw [readGo.eq_def]
      simp only [bslash, if_true]
      rw [ih']; simp
    · have hc' : c ≠ 92 ∧ c ≠ 34 := by
        simp only [Bool.or_eq_true, beq_iff_eq, not_or, bslash, dquote] at hc
        exact ⟨hc.1.1, hc.1.2⟩
      have hb : ¬ (c = 32 ∧ q = false) := by
        rintro ⟨h1, h2⟩
        rcases h with h | h
        · rw [h] at h2; cases h2
        · exact h (h1 ▸ List.mem_cons_self)
      rw [Bool.not_eq_true] at hc
      rw [show escC c = [c] by simp [escC, hc], List.cons_append, List.nil_append, readGo.eq_def]
      simp only [if_neg hc'.1, if_neg hc'.2, if_neg hb]
      rw [ih']; simp

theorem read_arg (a r : Str) : readGo false [] (escArg a ++ r) = readGo false a r := by
  unfold escArg
  by_cases hb : a.contains blank = true
  · rw [if_pos hb]
    have h1 : [dquote] ++ a.flatMap escC ++ [dquote] ++ r = dquote :: (a.flatMap escC ++ (dquote :: r)) := by simp
    rw [h1, readGo.eq_def]
    simp only [dquote, show ¬ ((34 : UInt8) = 92) by decide, if_false, if_true, Bool.not_false]
    rw [read_chars true a [] (34 :: r) (Or.inl rfl), readGo.eq_def]
    simp only [show ¬ ((34 : UInt8) = 92) by decide, if_false, if_true, Bool.not_true, List.nil_append]
  · rw [if_neg hb]
    by_cases he : a.flatMap escC = []
    · have := Ecal.Text.CmdLine.esc_nil a he
      subst this
      rw [if_pos he]
      have h1 : [dquote, dquote] ++ r = 34 :: 34 :: r := rfl
      rw [h1, readGo.eq_def]
      simp only [show ¬ ((34 : UInt8) = 92) by decide, if_false, if_true, Bool.not_false]
      rw [readGo.eq_def]
      simp only [show ¬ ((34 : UInt8) = 92) by decide, if_false, if_true, Bool.not_true]
    · rw [if_neg he]
      have : (32 : UInt8) ∉ a := by
        intro hm; exact hb (by simpa [blank] using hm)
      simpa using read_chars false a [] r (Or.inr this)

theorem escArg_ne (a : Str) : escArg a ≠ [] := by
  unfold escArg; split
  · simp
  · split
    · simp
    · assumption

theorem read_join (a : Str) (l : List Str) : readGo false [] (toCommandLine (a :: l)) = a :: l := by
  unfold toCommandLine
  induction l generalizing a with
  | nil =>
    have := read_arg a []
    rw [List.append_nil] at this
    simpa [Ecal.Text.join, readGo] using this
  | cons b l ih =>
    have h1 : Ecal.Text.join [blank] ((a :: b :: l).map escArg) = escArg a ++ (blank :: Ecal.Text.join [blank] ((b :: l).map escArg)) := by
      simp [Ecal.Text.join]
    rw [h1, read_arg, readGo.eq_def]
    simp only [blank, show ¬ ((32 : UInt8) = 92) by decide, show ¬ ((32 : UInt8) = 34) by decide, if_false, and_self, if_true]
    rw [← show blank = (32 : UInt8) from rfl, ih]

theorem line_ne (a : Str) (l : List Str) : toCommandLine (a :: l) ≠ [] := by
  unfold toCommandLine
  cases l with
  | nil => simpa [Ecal.Text.join] using escArg_ne a
  | cons b l => simp [Ecal.Text.join]

/-- What arrives is what was sent, for the registration of a process. -/
theorem shown_of (h : List (Env × Op)) (e : Env) (hf : Fits h e) : Shown h e (entry (sample e (after {} h)).2) := by
  refine ⟨_, _, rfl, Ecal.Wire.C28_roundtrip _ ?_ (hf _ rfl), ?_⟩
  · exact List.Pairwise.nil
  · unfold Ecal.Wire.transmitted
    rw [if_pos (Or.inl (show (sample e (after {} h)).2.cmd = 4 from rfl))]
    rfl

theorem shown_eq (h : List (Env × Op)) (e : Env) (hf : Fits h e) (en : Entry) (hs : Shown h e en) :
    en = entry (sample e (after {} h)).2 := by
  obtain ⟨m, m', hm, hd, rfl⟩ := hs
  obtain ⟨k, k', hk, hd', hen⟩ := shown_of h e hf
  rw [hm] at hk
  cases hk
  rw [hd] at hd'
  cases hd'
  rw [hen]

/-! ## Property theorems -/

/-- **C130, shown.**  A registration that arrives is shown, with one entry only. -/
theorem C130_shown (h : List (Env × Op)) (e : Env) (hf : Fits h e) : ∃ en : Entry, Shown h e en ∧ ∀ en' : Entry, Shown h e en' → en' = en :=
  ⟨_, shown_of h e hf, fun en' hs => shown_eq h e hf en' hs⟩

example : Fits [({}, .init (some [97]))] {} := by
  intro m hm
  have : answer [({}, .init (some [97]))] {} .register = .sent m → (serializeReg m).length < 2 ^ 32 := by
    intro h; cases h; decide +kernel
  exact this hm

/-- **C130, given names.**  After a call that names the unit, and until another call says something about the name, the process
answers that name and is shown under it. -/
theorem C130_given (h1 h2 : List (Env × Op)) (e0 e : Env) (o : Op) (u : Str) (ho : Names u o) (hq : ∀ x ∈ h2, Quiet x.2)
    (hf : Fits (h1 ++ (e0, o) :: h2) e) :
    answer (h1 ++ (e0, o) :: h2) e .unit = .text u ∧
    ∀ en : Entry, Shown (h1 ++ (e0, o) :: h2) e en → en.uname = u := by
  have hu : (after {} (h1 ++ (e0, o) :: h2)).unit = u := by
    rw [after_append, after, quiet_units _ _ hq]
    rcases ho with ⟨hne, rfl | rfl⟩
    · simp [step, setGlobal, hne]
    · simp [step, hne]
  refine ⟨?_, ?_⟩
  · exact congrArg Out.text hu
  · intro en hs
    rw [shown_eq _ _ hf en hs]
    exact hu

example : Names [97] (.init (some [97])) ∧ Quiet .finalize ∧ Quiet (.init none) ∧ Quiet (.setUnit (some [])) := by
  refine ⟨⟨by simp, Or.inl rfl⟩, ⟨?_, ?_⟩, ⟨?_, ?_⟩, ⟨?_, ?_⟩⟩
  all_goals first | (intro u h; cases h; done) | (intro u hu h; cases h; done) | (intro u hu h; cases h; exact hu rfl)

/-- **C130, name of the program.**  A process that asks for the default name is known under the file name of its program, whatever it
did before, as long as the system has named the same program all the time (or refused to answer) and answers now. -/
theorem C130_default_partial (h : List (Env × Op)) (e0 e : Env) (h2 : List (Env × Op)) (dir n : Str) (hn : (47 : UInt8) ∉ n)
    (hlen : dir.length + 1 + n.length ≤ 4096) (henv : ∀ x ∈ h, x.1.exe = none ∨ x.1.exe = some (dir ++ 47 :: n))
    (he : e0.exe = some (dir ++ 47 :: n)) (hq : ∀ x ∈ h2, Quiet x.2) :
    answer (h ++ (e0, .init (some [])) :: h2) e .unit = .text n := by
  have hu : (after {} (h ++ (e0, .init (some [])) :: h2)).unit = n := by
    rw [after_append, after, quiet_units _ _ hq]
    have hinv := pname_inv (dir ++ 47 :: n) {} h henv (Or.inl rfl)
    have := getName_answer e0 { after {} h with unit := [] } _ he hinv
    simp only [step, setGlobal, if_true]
    rw [this, List.take_of_length_le (by simp [pathMax]; omega)]
    exact afterSlash_path dir n hn
  exact congrArg Out.text hu

example : answer [({ exe := some [47, 98, 47, 120] }, .init (some []))] {} .unit = .text [120] := by decide +kernel

/-- **C130, name of the process.**  The process answers the path of its program. -/
theorem C130_process_name (h : List (Env × Op)) (e : Env) (p : Str) (hlen : p.length ≤ 4096)
    (henv : ∀ x ∈ h, x.1.exe = none ∨ x.1.exe = some p) (he : e.exe = some p) (hf : Fits h e) :
    answer h e .name = .text p ∧ ∀ en : Entry, Shown h e en → en.pname = p := by
  have hinv := pname_inv p {} h henv (Or.inl rfl)
  have hn := getName_answer e (after {} h) p he hinv
  rw [show p.take pathMax = p from List.take_of_length_le hlen] at hn
  refine ⟨congrArg Out.text hn, ?_⟩
  intro en hs
  rw [shown_eq _ _ hf en hs]
  exact hn

example : answer [({}, .name), ({ exe := some [47, 120] }, .register)] { exe := some [47, 120] } .name = .text [47, 120] := by decide +kernel

theorem getName_kept (e : Env) (s : St) (h : s.pname ≠ []) : getName e s = (s, s.pname) := by unfold getName; rw [if_neg h]

theorem getPar_kept (e : Env) (s : St) (h : s.par ≠ []) : getPar e s = (s, s.par) := by unfold getPar; rw [if_neg h]

theorem pname_kept (s : St) (h : List (Env × Op)) (hs : s.pname ≠ []) : (after s h).pname = s.pname := by
  induction h generalizing s with
  | nil => rfl
  | cons x h ih =>
    have : (step x.1 s x.2).1.pname = s.pname := by
      rcases step_pname x.1 s x.2 with hp | hp
      · exact hp
      · rw [hp, getName_kept _ _ hs]
    rw [after, ih _ (this ▸ hs), this]

theorem par_kept (s : St) (h : List (Env × Op)) (hs : s.par ≠ []) : (after s h).par = s.par := by
  induction h generalizing s with
  | nil => rfl
  | cons x h ih =>
    have : (step x.1 s x.2).1.par = s.par := by
      rcases step_par x.1 s x.2 with hp | hp
      · exact hp
      · rw [hp, getPar_kept _ _ hs]
    rw [after, ih _ (this ▸ hs), this]

theorem getName_stores (e : Env) (s : St) (h : (getName e s).2 ≠ []) : (getName e s).1.pname = (getName e s).2 := by
  unfold getName at h ⊢
  by_cases hp : s.pname = []
  · rw [if_pos hp] at h ⊢
    cases hx : e.exe with
    | none => rw [hx] at h; exact absurd rfl h
    | some p => rfl
  · rw [if_neg hp]

theorem getPar_stores (e : Env) (s : St) (h : (getPar e s).2 ≠ []) : (getPar e s).1.par = (getPar e s).2 := by
  unfold getPar at h ⊢
  by_cases hp : s.par = []
  · rw [if_pos hp] at h ⊢
    cases hx : e.cmdline with
    | none => rw [hx] at h; exact absurd rfl h
    | some p => rfl
  · rw [if_neg hp]

/-- **C130, one name.**  A process that has answered its name or its command line once answers the same for ever, whatever the system
would say later. -/
theorem C130_stable (h h2 : List (Env × Op)) (e0 e : Env) (t : Str) (ht : t ≠ []) :
    (answer h e0 .name = .text t → answer (h ++ (e0, .name) :: h2) e .name = .text t) ∧
    (answer h e0 .par = .text t → answer (h ++ (e0, .par) :: h2) e .par = .text t) := by
  constructor
  · intro ha
    have hn : (getName e0 (after {} h)).2 = t := by simpa [answer, step] using ha
    have hp := getName_stores e0 (after {} h) (by rw [hn]; exact ht)
    rw [hn] at hp
    have hk : (after {} (h ++ (e0, .name) :: h2)).pname = t := by
      rw [after_append, after]
      exact (pname_kept _ _ (by simp only [step]; rw [hp]; exact ht)).trans hp
    exact congrArg Out.text (by rw [getName_kept _ _ (by rw [hk]; exact ht)]; exact hk)
  · intro ha
    have hn : (getPar e0 (after {} h)).2 = t := by simpa [answer, step] using ha
    have hp := getPar_stores e0 (after {} h) (by rw [hn]; exact ht)
    rw [hn] at hp
    have hk : (after {} (h ++ (e0, .par) :: h2)).par = t := by
      rw [after_append, after]
      exact (par_kept _ _ (by simp only [step]; rw [hp]; exact ht)).trans hp
    exact congrArg Out.text (by rw [getPar_kept _ _ (by rw [hk]; exact ht)]; exact hk)

example : answer [] { exe := some [120] } .name = .text [120] ∧ answer [] { cmdline := some [120, 0] } .par = .text [120] := by
  decide +kernel

/-- **C130, command line read back.**  Every list of arguments, whatever characters it contains, is read back from the text for it. -/
theorem C130_readable (args : List Str) : readArgs (toCommandLine args) = args := by
  unfold readArgs
  cases args with
  | nil => rfl
  | cons a l => rw [if_neg (line_ne a l), read_join]

/-- **C130, command line.**  The process answers and shows a text from which exactly its arguments can be read. -/
theorem C130_arguments (h : List (Env × Op)) (e : Env) (args : List Str) (hz : ∀ a ∈ args, (0 : UInt8) ∉ a)
    (henv : ∀ x ∈ h, x.1.cmdline = none ∨ x.1.cmdline = some (stored args)) (he : e.cmdline = some (stored args)) (hf : Fits h e) :
    (∃ t : Str, answer h e .par = .text t ∧ readArgs t = args) ∧ ∀ en : Entry, Shown h e en → readArgs en.pparam = args := by
  have hinv := par_inv (stored args) {} h henv (Or.inl rfl)
  have hp := getPar_answer e (after {} h) _ he hinv
  rw [pieces_stored args hz] at hp
  refine ⟨⟨_, rfl, by rw [hp]; exact C130_readable args⟩, ?_⟩
  intro en hs
  rw [shown_eq _ _ hf en hs]
  have hc := (getPar_congr e (getName e (after {} h)).1 (after {} h) (getName_fields _ _).2.1).1
  show readArgs (getPar e (getName e (after {} h)).1).2 = args
  rw [hc, hp]
  exact C130_readable args

example : answer [] { cmdline := some (stored [[120], [97, 32, 98], [], [9]]) } .par =
    .text [120, 32, 34, 97, 32, 98, 34, 32, 34, 34, 32, 9] := by decide +kernel

/-- **C130, told apart.**  Processes that are shown with the same command line were started with the same arguments. -/
theorem C130_told_apart (h k : List (Env × Op)) (e d : Env) (args brgs : List Str) (hz : ∀ a ∈ args, (0 : UInt8) ∉ a)
    (hz' : ∀ a ∈ brgs, (0 : UInt8) ∉ a)
    (henv : ∀ x ∈ h, x.1.cmdline = none ∨ x.1.cmdline = some (stored args)) (he : e.cmdline = some (stored args)) (hf : Fits h e)
    (henv' : ∀ x ∈ k, x.1.cmdline = none ∨ x.1.cmdline = some (stored brgs)) (he' : d.cmdline = some (stored brgs)) (hf' : Fits k d)
    (en en' : Entry) (hs : Shown h e en) (hs' : Shown k d en') (heq : en.pparam = en'.pparam) : args = brgs := by
  rw [← (C130_arguments h e args hz henv he hf).2 en hs, ← (C130_arguments k d brgs hz' henv' he' hf').2 en' hs', heq]

/-- **C130, started again.**  The function that starts processes takes the answered text apart into the same arguments exactly if
every argument with white space contains a blank. -/
theorem C130_started_again_partial (h : List (Env × Op)) (e : Env) (args : List Str) (hz : ∀ a ∈ args, (0 : UInt8) ∉ a)
    (henv : ∀ x ∈ h, x.1.cmdline = none ∨ x.1.cmdline = some (stored args)) (he : e.cmdline = some (stored args)) :
    ∃ t : Str, answer h e .par = .text t ∧
      (toArgv t = args ↔ ∀ a ∈ args, (∃ c ∈ a, Ecal.Text.CmdLine.White c) → (32 : UInt8) ∈ a) := by
  have hinv := par_inv (stored args) {} h henv (Or.inl rfl)
  have hp := getPar_answer e (after {} h) _ he hinv
  rw [pieces_stored args hz] at hp
  exact ⟨_, rfl, by rw [hp]; exact Ecal.Text.CmdLine.C82_roundtrip_partial args⟩

theorem state_kept (s : St) (h : List (Env × Op)) (hq : ∀ x ∈ h, ∀ (v l : BitVec 32) (i : Option Str), x.2 ≠ .setState v l i) :
    (after s h).severity = s.severity ∧ (after s h).level = s.level ∧ (after s h).info = s.info := by
  induction h generalizing s with
  | nil => exact ⟨rfl, rfl, rfl⟩
  | cons x h ih =>
    have hs : (step x.1 s x.2).1.severity = s.severity ∧ (step x.1 s x.2).1.level = s.level ∧ (step x.1 s x.2).1.info = s.info := by
      have hx := hq x List.mem_cons_self
      obtain ⟨e, o⟩ := x
      cases o with
      | init u => cases u with
        | none => exact ⟨rfl, rfl, rfl⟩
        | some u =>
          by_cases hu : u = []
          · have := getName_fields e { s with unit := u }
            simp only [step, setGlobal, if_pos hu]
            exact ⟨this.2.2.1, this.2.2.2.1, this.2.2.2.2.1⟩
          · simp [step, setGlobal, hu]
      | setUnit u => cases u with
        | none => exact ⟨rfl, rfl, rfl⟩
        | some u => simp only [step]; split <;> exact ⟨rfl, rfl, rfl⟩
      | setState v l i => exact absurd rfl (hx v l i)
      | name => have := getName_fields e s; exact ⟨this.2.2.1, this.2.2.2.1, this.2.2.2.2.1⟩
      | par => have := getPar_fields e s; exact ⟨this.2.2.1, this.2.2.2.1, this.2.2.2.2.1⟩
      | register =>
        have h1 := getName_fields e s
        have h2 := getPar_fields e (getName e s).1
        exact ⟨h2.2.2.1.trans h1.2.2.1, h2.2.2.2.1.trans h1.2.2.2.1, h2.2.2.2.2.1.trans h1.2.2.2.2.1⟩
      | _ => exact ⟨rfl, rfl, rfl⟩
    have := ih (step x.1 s x.2).1 (fun y hy => hq y (List.mem_cons_of_mem _ hy))
    exact ⟨this.1.trans hs.1, this.2.1.trans hs.2.1, this.2.2.trans hs.2.2⟩

/-- **C130, state.**  The state and the text shown for a process are those it has set last; a state set without text is shown with the
text that was set before. -/
theorem C130_state_partial (h1 h2 : List (Env × Op)) (e0 e : Env) (v l : BitVec 32) (i : Option Str)
    (hq : ∀ x ∈ h2, ∀ (v l : BitVec 32) (i : Option Str), x.2 ≠ .setState v l i)
    (hf : Fits (h1 ++ (e0, .setState v l i) :: h2) e) (hf1 : Fits h1 e0) (en en0 : Entry)
    (hs : Shown (h1 ++ (e0, .setState v l i) :: h2) e en) (hs0 : Shown h1 e0 en0) :
    en.severity = v ∧ en.level = l ∧ en.info = i.getD en0.info := by
  rw [shown_eq _ _ hf en hs, shown_eq _ _ hf1 en0 hs0]
  have hk := state_kept (step e0 (after {} h1) (.setState v l i)).1 h2 hq
  have ha : after {} (h1 ++ (e0, .setState v l i) :: h2) = after (step e0 (after {} h1) (.setState v l i)).1 h2 := by
    rw [after_append, after]
  show (after {} (h1 ++ (e0, .setState v l i) :: h2)).severity = v ∧ (after {} (h1 ++ (e0, .setState v l i) :: h2)).level = l ∧
    (after {} (h1 ++ (e0, .setState v l i) :: h2)).info = i.getD (after {} h1).info
  rw [ha, hk.1, hk.2.1, hk.2.2]
  cases i <;> exact ⟨rfl, rfl, rfl⟩

example : ∃ m : RegSample, answer [({}, .setState 3 2 (some [98])), ({}, .name)] {} .register = .sent m ∧ m.process.severity = 3 ∧
    m.process.severityLevel = 2 ∧ m.process.info = [98] := ⟨_, rfl, rfl, rfl, rfl⟩

/-- **C130 is violated** by a state set without a text: the process is shown as healthy with the text of its failure. -/
theorem C130_violated_old_text : ∃ m : RegSample,
    answer [({}, .setState 4 1 (some [102])), ({}, .setState 1 1 none)] {} .register = .sent m ∧ m.process.severity = 1 ∧
    m.process.info = [102] := ⟨_, rfl, rfl, rfl⟩

/-- **C130, the rest.**  Host, group, process id, time synchronisation, components and version are shown as they were when the
registration was made. -/
theorem C130_rest (h : List (Env × Op)) (e : Env) (hf : Fits h e) (en : Entry) (hs : Shown h e en) :
    en.hname = e.host ∧ en.hgname = e.group ∧ en.pid = e.pid ∧ en.tsync = e.tsync ∧ en.tsyncBy = e.tsyncBy ∧ en.initSt = e.comps ∧
    en.version = e.version := by
  rw [shown_eq _ _ hf en hs]
  exact ⟨rfl, rfl, rfl, rfl, rfl, rfl, rfl⟩

/-- The text for a list of components. -/
def bars : List Str → Str
  | [] => []
  | [a] => a
  | a :: b :: r => a ++ 124 :: bars (b :: r)

/-- **C130, components.**  The text of the components names publishing, subscribing, logging and time synchronisation exactly if they
are initialised. -/
theorem C130_components_partial (h : List (Env × Op)) (e : Env) (hf : Fits h e) (en : Entry) (hs : Shown h e en) :
    en.initInfo = bars ((if e.comps &&& 1 ≠ 0 then ["pub".toUTF8.toList] else []) ++ (if e.comps &&& 2 ≠ 0 then ["sub".toUTF8.toList] else []) ++
      (if e.comps &&& 16 ≠ 0 then ["log".toUTF8.toList] else []) ++ (if e.comps &&& 32 ≠ 0 then ["time".toUTF8.toList] else [])) := by
  rw [shown_eq _ _ hf en hs]
  show compInfo e.comps = _
  rw [show "pub".toUTF8.toList = [112, 117, 98] by decide +kernel, show "sub".toUTF8.toList = [115, 117, 98] by decide +kernel,
    show "log".toUTF8.toList = [108, 111, 103] by decide +kernel, show "time".toUTF8.toList = [116, 105, 109, 101] by decide +kernel]
  unfold compInfo compText
  by_cases h1 : e.comps &&& 1 ≠ 0 <;> by_cases h2 : e.comps &&& 2 ≠ 0 <;> by_cases h3 : e.comps &&& 16 ≠ 0 <;>
    by_cases h4 : e.comps &&& 32 ≠ 0 <;> (first | rw [if_pos h1, if_pos h1] | rw [if_neg h1, if_neg h1]) <;>
    (first | rw [if_pos h2, if_pos h2] | rw [if_neg h2, if_neg h2]) <;> (first | rw [if_pos h3, if_pos h3] | rw [if_neg h3, if_neg h3]) <;>
    (first | rw [if_pos h4, if_pos h4] | rw [if_neg h4, if_neg h4]) <;> rfl

/-- **C130 is violated** for the components that are not in the text: services and monitoring do not change it. -/
theorem C130_violated_components : compInfo 0x3f = compInfo 0x33 ∧ compInfo 0x0c = [] := by decide +kernel

/-- **C130 is violated** by a process that names no unit: unless a call has said something about the name, the process is known under
the empty name, not under the name of its program. -/
theorem C130_violated_nameless (h : List (Env × Op)) (e : Env) (hq : ∀ x ∈ h, Quiet x.2) (hf : Fits h e) :
    answer h e .unit = .text [] ∧ ∀ en : Entry, Shown h e en → en.uname = [] := by
  have hu : (after {} h).unit = [] := quiet_units {} h hq
  refine ⟨congrArg Out.text hu, ?_⟩
  intro en hs
  rw [shown_eq _ _ hf en hs]
  exact hu

/-- The case of the default arguments: the program `/b/x` is initialised without a name. -/
example : answer [({ exe := some [47, 98, 47, 120] }, .init none)] { exe := some [47, 98, 47, 120] } .unit = .text [] := by decide +kernel

/-- **C130 is violated** after `Finalize`: a process that is initialised again without a name has the name of its former unit. -/
theorem C130_violated_left_over :
    answer [({}, .init (some [97])), ({}, .finalize), ({}, .init none)] {} .unit = .text [97] := by decide +kernel

/-- **C130 is violated** by replaced programs: if the file of the program was deleted before the process asked for its name, the system
adds ` (deleted)` to the path, and this becomes a part of the name of the unit. -/
theorem C130_violated_deleted :
    answer [({ exe := some ([47, 120] ++ " (deleted)".toUTF8.toList) }, .init (some []))] {} .unit =
      .text (120 :: " (deleted)".toUTF8.toList) ∧
    answer [({ exe := some [47, 120] }, .name), ({ exe := some ([47, 120] ++ " (deleted)".toUTF8.toList) }, .init (some []))] {} .unit =
      .text [120] := by decide +kernel

theorem task_kept (s : St) (h : List (Env × Op)) : (after s h).task = s.task := by
  induction h generalizing s with
  | nil => rfl
  | cons x h ih =>
    rw [after, ih]
    obtain ⟨e, o⟩ := x
    cases o with
    | init u => cases u with
      | none => rfl
      | some u =>
        by_cases hu : u = []
        · simp only [step, setGlobal, if_pos hu]; exact (getName_fields e _).2.2.2.2.2
        · simp [step, setGlobal, hu]
    | setUnit u => cases u with
      | none => rfl
      | some u => simp only [step]; split <;> rfl
    | setState v l i => cases i <;> rfl
    | name => exact (getName_fields e s).2.2.2.2.2
    | par => exact (getPar_fields e s).2.2.2.2.2
    | register => exact (getPar_fields e _).2.2.2.2.2.trans (getName_fields e s).2.2.2.2.2
    | _ => rfl

/-- **C130 is violated** by the task parameters: nothing sets them, and every process answers the empty text. -/
theorem C130_violated_task (h : List (Env × Op)) (e : Env) (sep : Str) : answer h e (.task sep) = .text [] := by
  have : (after {} h).task = [] := task_kept {} h
  exact congrArg Out.text (by rw [this]; rfl)

end Ecal.Proc.Self
