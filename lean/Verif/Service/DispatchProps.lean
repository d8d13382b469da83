import Verif.Service.Dispatch

/-! # C39: method dispatch -/

namespace Ecal.Service.Dispatch

/-! ## Specification: the history of one method name -/

/-- What the history says about a method: unknown, described only, or with a callback. -/
inductive View where
  | unknown
  | described (req resp : String) (count : Nat)
  | callable (cb : Nat) (req resp : String) (count : Nat)
deriving DecidableEq, Repr

/-- The effect of one operation on the view of method `m`. -/
def viewStep (m : String) (v : View) : Step → View
  | .describe n req resp =>
    if n = m then
      match v with
      | .unknown => .described req resp 0
      | .described _ _ c => .described req resp c
      | .callable cb _ _ c => .callable cb req resp c
    else v
  | .add n req resp cb =>
    if n = m then
      match v with
      | .unknown => .callable cb req resp 0
      | .described _ _ c => .callable cb req resp c
      | .callable _ _ _ c => .callable cb req resp c
    else v
  | .remove n => if n = m then .unknown else v
  | .stop => .unknown
  | .request (some (n, _)) =>
    if n = m then
      match v with
      | .unknown => .unknown
      | .described req resp c => .described req resp (c + 1)
      | .callable cb req resp c => .callable cb req resp (c + 1)
    else v
  | .request none => v

def view (m : String) (hist : List Step) : View := hist.foldl (viewStep m) .unknown

/-- The entry of the method map that a view stands for. -/
def viewOf : Option Method → View
  | none => .unknown
  | some ⟨req, resp, none, c⟩ => .described req resp c
  | some ⟨req, resp, some cb, c⟩ => .callable cb req resp c

theorem viewOf_inj {a b : Option Method} (h : viewOf a = viewOf b) : a = b := by
  rcases a with _ | ⟨r, s, _ | cb, c⟩ <;> rcases b with _ | ⟨r', s', _ | cb', c'⟩ <;>
    simp_all [viewOf]

theorem find_step (st : State) (a : Step) (m : String) :
    viewOf ((step st a).methods.find m) = viewStep m (viewOf (st.methods.find m)) a := by
  cases a with
  | describe n req resp =>
    simp only [step, describe, viewStep]
    by_cases h : n = m
    · subst h
      simp only [if_true]
      rcases hf : st.methods.find n with _ | ⟨r, s, _ | cb, c⟩ <;> simp [viewOf]
    · simp only [if_neg h]
      cases st.methods.find n <;> simp [AMap.find_set_ne _ _ _ _ h]
  | add n req resp cb =>
    simp only [step, add, viewStep]
    by_cases h : n = m
    · subst h
      simp only [if_true]
      rcases hf : st.methods.find n with _ | ⟨r, s, _ | cb, c⟩ <;> simp [viewOf]
    · simp only [if_neg h]
      cases st.methods.find n <;> simp [AMap.find_set_ne _ _ _ _ h]
  | remove n =>
    simp only [step, viewStep, AMap.find_erase]
    by_cases h : n = m <;> simp [h, viewOf]
  | stop => rfl
  | request r =>
    cases r with
    | none => rfl
    | some p =>
      obtain ⟨n, payload⟩ := p
      simp only [step, request, viewStep]
      by_cases h : n = m
      · subst h
        simp only [if_true]
        rcases hf : st.methods.find n with _ | ⟨r, s, _ | cb, c⟩ <;> simp [viewOf, hf]
      · simp only [if_neg h]
        rcases hf : st.methods.find n with _ | ⟨r, s, _ | cb, c⟩ <;>
          simp [AMap.find_set_ne _ _ _ _ h]

theorem find_run (hist : List Step) (m : String) :
    viewOf ((run {} hist).methods.find m) = view m hist := by
  have key : ∀ (l : List Step) (st : State),
      viewOf ((run st l).methods.find m) = l.foldl (viewStep m) (viewOf (st.methods.find m)) := by
    intro l
    induction l with
    | nil => intro st; rfl
    | cons a l ih =>
      intro st
      have := ih (step st a)
      rw [find_step] at this
      exact this
  exact key hist {}

/-- **C39.**  After every history of registrations, removals and requests: a request for a method
with a callback runs exactly that callback (the one registered last), once, with the names and
the payload of the request, and is answered `executed`. -/
theorem C39_executes_registered (hist : List Step) (m payload : String) (cb : Nat) (req resp : String)
    (count : Nat) (h : view m hist = .callable cb req resp count) :
    let st := run {} hist
    (step st (.request (some (m, payload)))).execs = st.execs ++ [⟨cb, m, req, resp, payload⟩] ∧
    (step st (.request (some (m, payload)))).replies =
      st.replies ++ [.response (some m) .executed] := by
  simp only
  rw [← find_run] at h
  have hf : (run {} hist).methods.find m = some ⟨req, resp, some cb, count⟩ :=
    viewOf_inj (by rw [h]; rfl)
  simp only [step, request, hf, and_self]

/-- **C39.**  A request for an unknown (or removed) method runs nothing and is answered `failed`. -/
theorem C39_unknown_fails (hist : List Step) (m payload : String) (h : view m hist = .unknown) :
    let st := run {} hist
    (step st (.request (some (m, payload)))).execs = st.execs ∧
    (step st (.request (some (m, payload)))).replies = st.replies ++ [.response (some m) .failed] ∧
    (step st (.request (some (m, payload)))).methods = st.methods := by
  simp only
  rw [← find_run] at h
  have hf : (run {} hist).methods.find m = none := viewOf_inj (by rw [h]; rfl)
  simp only [step, request, hf, and_self]

/-- **C39.**  An undecodable request runs nothing, changes nothing and is answered `failed`. -/
theorem C39_undecodable_fails (st : State) :
    (step st (.request none)).execs = st.execs ∧
    (step st (.request none)).methods = st.methods ∧
    (step st (.request none)).replies = st.replies ++ [.response none .failed] :=
  ⟨rfl, rfl, rfl⟩

/-- **C39 (counting).**  A callable method's count goes up by one with each request for it, and no
other method's count changes. -/
theorem C39_counts_once (hist : List Step) (m payload : String) (cb : Nat) (req resp : String)
    (count : Nat) (h : view m hist = .callable cb req resp count) :
    (step (run {} hist) (.request (some (m, payload)))).methods.find m =
      some ⟨req, resp, some cb, count + 1⟩ ∧
    ∀ n, n ≠ m → (step (run {} hist) (.request (some (m, payload)))).methods.find n =
      (run {} hist).methods.find n := by
  constructor
  · apply viewOf_inj
    rw [find_step, find_run, h]
    simp [viewStep, viewOf]
  · intro n hn
    apply viewOf_inj
    rw [find_step]
    simp [viewStep, Ne.symm hn]

/-- The number of requests for `m` since the method was last (re)created. -/
theorem C39_count_is_number_of_requests (hist reqs : List Step) (m : String) (cb : Nat)
    (req resp : String) (count : Nat) (h : view m hist = .callable cb req resp count)
    (hreq : ∀ s ∈ reqs, ∃ r, s = .request r) :
    view m (hist ++ reqs) = .callable cb req resp
      (count + (reqs.filter (fun s => match s with
        | .request (some (n, _)) => n = m
        | _ => false)).length) := by
  unfold view at h ⊢
  rw [List.foldl_append, h]
  clear h
  induction reqs generalizing count with
  | nil => rfl
  | cons s l ih =>
    obtain ⟨r, rfl⟩ := hreq s (by simp)
    have hl : ∀ s ∈ l, ∃ r, s = Step.request r := fun s hs => hreq s (by simp [hs])
    cases r with
    | none => simpa [viewStep] using ih count hl
    | some p =>
      obtain ⟨n, payload⟩ := p
      by_cases hn : n = m
      · subst hn
        simp only [List.foldl_cons, viewStep, if_true]
        rw [ih (count + 1) hl]
        simp
        omega
      · simp only [List.foldl_cons, viewStep, if_neg hn]
        rw [ih count hl]
        simp [hn]

/-- The trace of executions contains nothing else: each step adds at most one execution, and only a
request for a callable method does. -/
theorem C39_no_other_execution (hist : List Step) (a : Step) :
    (step (run {} hist) a).execs = (run {} hist).execs ∨
    ∃ m payload cb req resp count, a = .request (some (m, payload)) ∧
      view m hist = .callable cb req resp count ∧
      (step (run {} hist) a).execs = (run {} hist).execs ++ [⟨cb, m, req, resp, payload⟩] := by
  cases a with
  | describe m req resp => left; simp only [step, describe]; split <;> rfl
  | add m req resp cb => left; simp only [step, add]; split <;> rfl
  | remove m => exact Or.inl rfl
  | stop => exact Or.inl rfl
  | request r =>
    cases r with
    | none => exact Or.inl rfl
    | some p =>
      obtain ⟨m, payload⟩ := p
      have hv := find_run hist m
      rcases hf : (run {} hist).methods.find m with _ | ⟨r, s, _ | cb, c⟩
      · left; simp only [step, request, hf]
      · left; simp only [step, request, hf]
      · right
        refine ⟨m, payload, cb, r, s, c, rfl, ?_, ?_⟩
        · rw [← hv, hf]; rfl
        · simp only [step, request, hf]

/-- **C39 is violated for described-only methods.**  A method that has a description but no callback
(`AddDescription` without `AddMethodCallback`) is found in the map; calling it invokes an empty
function: the server process gets an exception in its IO thread instead of answering `failed`. -/
theorem C39_violated_described_only (hist : List Step) (m payload req resp : String) (count : Nat)
    (h : view m hist = .described req resp count) :
    (step (run {} hist) (.request (some (m, payload)))).replies =
      (run {} hist).replies ++ [.crash] := by
  rw [← find_run] at h
  have hf : (run {} hist).methods.find m = some ⟨req, resp, none, count⟩ :=
    viewOf_inj (by rw [h]; rfl)
  simp only [step, request, hf]

example : view "echo" [.describe "echo" "A" "B"] = .described "A" "B" 0 := by decide +kernel

example : view "echo" [.add "echo" "A" "B" 7, .request (some ("echo", "x")), .add "echo" "A" "C" 8,
    .request (some ("ping", "x"))] = .callable 8 "A" "C" 1 := by decide +kernel

example : view "echo" [.add "echo" "A" "B" 7, .remove "echo"] = .unknown := by decide +kernel

end Ecal.Service.Dispatch
