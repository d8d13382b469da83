import Verif.Sync.ShutdownAll
import Verif.Sync.ShutdownProps

/-!
# C118: exactly the processes that are meant are asked to shut down
-/

namespace Ecal.Sync.ShutdownAll

open Ecal Ecal.Sync

/-- The steps on the event of process `p`. -/
def on (p : Nat) (l : List (Nat × Shutdown.Step)) : List Shutdown.Step := (l.filter fun x => x.1 == p).map (·.2)

/-- Every process only sees the steps on its own event. -/
theorem oks_wrun (p : Nat) (l : List (Nat × Shutdown.Step)) :
    ∀ w : World, oks p (wrun w l).2 = (Shutdown.run (w p) (on p l)).2 := by
  induction l with
  | nil => intro w; rfl
  | cons a l ih =>
    intro w
    have h := ih (wstep w a)
    simp only [wrun, oks, List.filter_append, List.map_append] at h ⊢
    by_cases e : a.1 = p
    · have e1 : on p (a :: l) = a.2 :: on p l := by simp [on, e]
      rw [e1]
      simp only [Shutdown.run]
      have e2 : wstep w a p = (Shutdown.step (w p) a.2).1 := by simp [wstep, e]
      rw [e2] at h
      rw [h]
      congr 1
      rw [e]
      cases (Shutdown.step (w p) a.2).2 <;> simp
    · have e1 : on p (a :: l) = on p l := by simp [on, e]
      rw [e1]
      have e2 : wstep w a p = w p := by simp [wstep, Ne.symm e]
      rw [e2] at h
      rw [h]
      have e3 : ((Shutdown.step (w a.1) a.2).2.toList.map (fun b => (a.1, b))).filter (fun x => x.1 == p) = [] := by
        cases (Shutdown.step (w a.1) a.2).2 <;> simp [e]
      rw [e3]; rfl

/-- The process has called `Ok` before, and nobody has asked it to shut down. -/
structure Waiting (st : Shutdown.State) : Prop where
  obj : ∃ o, st.target = some o ∧ st.link = some o ∧ st.objs[o]? = some false
  reqs : ∀ r, st.reqs.find r = none

/-- `n` complete requests by `r`. -/
def rounds (r : Nat) : Nat → List Shutdown.Step
  | 0 => []
  | n + 1 => [.rOpen r, .rSet r, .rClose r] ++ rounds r n

theorem flagged_ok (l : List Shutdown.Step) : ∀ st, Shutdown.Flagged st →
    false ∈ (Shutdown.run st (l ++ [.ok])).2 := by
  induction l with
  | nil =>
    intro st h
    obtain ⟨o, h1, h2⟩ := h
    simp [Shutdown.run, Shutdown.step, h1, h2]
  | cons a l ih =>
    intro st h
    simp only [List.cons_append, Shutdown.run, List.mem_append]
    by_cases ha : a = .ok
    · subst ha
      left
      obtain ⟨o, h1, h2⟩ := h
      simp [Shutdown.step, h1, h2]
    · right; exact ih _ (Shutdown.flagged_step st a ha h)

/-- Before the first `rSet`: requesters have not opened the event, or have opened the process's own one. -/
def Before (st : Shutdown.State) (l : List Shutdown.Step) : Prop :=
  ∃ o, st.target = some o ∧ st.link = some o ∧ st.objs[o]? = some false ∧
    ∀ r, (∃ n, l.filter (byReq r) = rounds r n ∧ st.reqs.find r = none) ∨
      (∃ n, l.filter (byReq r) = [.rSet r, .rClose r] ++ rounds r n ∧ st.reqs.find r = some o)

theorem first_set (l : List Shutdown.Step) : ∀ st, Before st l → (∃ r, Shutdown.Step.rSet r ∈ l) →
    false ∈ (Shutdown.run st (l ++ [.ok])).2 := by
  induction l with
  | nil => intro st _ h; obtain ⟨r, hr⟩ := h; cases hr
  | cons a l ih =>
    intro st hb hs
    obtain ⟨o, h1, h2, h3, h4⟩ := hb
    simp only [List.cons_append, Shutdown.run, List.mem_append]
    right
    have hlt : o < st.objs.length := (List.getElem?_eq_some_iff.mp h3).1
    cases a with
    | ok =>
      have e : (Shutdown.step st .ok).1 = st := by simp [Shutdown.step, h1, h3]; cases st; simp_all
      rw [e]
      refine ih st ⟨o, h1, h2, h3, fun r => ?_⟩ ?_
      · have := h4 r; simpa [byReq] using this
      · obtain ⟨r, hr⟩ := hs; exact ⟨r, by simpa using hr⟩
    | rOpen k =>
      have hk := h4 k
      have hf : (Shutdown.Step.rOpen k :: l).filter (byReq k) = .rOpen k :: l.filter (byReq k) := by simp [byReq]
      rw [hf] at hk
      rcases hk with ⟨n, hn, hr⟩ | ⟨n, hn, hr⟩
      · cases n with
        | zero => cases hn
        | succ n =>
          simp only [rounds, List.cons_append, List.cons.injEq, List.nil_append, true_and] at hn
          have e : (Shutdown.step st (.rOpen k)).1 = { st with reqs := st.reqs.set k o } := by
            simp [Shutdown.step, hr, Shutdown.openOrCreate, h2]
          rw [e]
          refine ih _ ⟨o, h1, h2, h3, fun r => ?_⟩ ?_
          · by_cases e : k = r
            · subst e
              right
              exact ⟨n, by rw [hn]; rfl, by simp⟩
            · have := h4 r
              simp only [AMap.find_set, if_neg e]
              have hb : byReq r (.rOpen k) = false := by simp [byReq, e]
              rw [List.filter_cons, hb] at this
              exact this
          · obtain ⟨r, hr⟩ := hs; exact ⟨r, by simpa using hr⟩
      · simp at hn
    | rSet k =>
      have hk := h4 k
      have hf : (Shutdown.Step.rSet k :: l).filter (byReq k) = .rSet k :: l.filter (byReq k) := by simp [byReq]
      rw [hf] at hk
      rcases hk with ⟨n, hn, hr⟩ | ⟨n, hn, hr⟩
      · cases n <;> simp [rounds] at hn
      · refine flagged_ok l _ ⟨o, ?_, ?_⟩
        · simp [Shutdown.step, hr, h1]
        · simp [Shutdown.step, hr, hlt]
    | rClose k =>
      have hk := h4 k
      have hf : (Shutdown.Step.rClose k :: l).filter (byReq k) = .rClose k :: l.filter (byReq k) := by simp [byReq]
      rw [hf] at hk
      rcases hk with ⟨n, hn, hr⟩ | ⟨n, hn, hr⟩
      · cases n <;> simp [rounds] at hn
      · simp at hn

theorem only_ok (l : List Shutdown.Step) (hl : ∀ a ∈ l, a = .ok) : ∀ st, Waiting st →
    ∀ b ∈ (Shutdown.run st l).2, b = true := by
  induction l with
  | nil => intro st _ b hb; cases hb
  | cons a l ih =>
    intro st hw b hb
    have := hl a (by simp)
    subst this
    obtain ⟨o, h1, h2, h3⟩ := hw.obj
    have e : (Shutdown.step st .ok).1 = st := by simp [Shutdown.step, h1, h3]; cases st; simp_all
    have e2 : (Shutdown.step st .ok).2 = some true := by simp [Shutdown.step, h1, h3]
    simp only [Shutdown.run, e, e2, List.mem_append] at hb
    rcases hb with hb | hb
    · simpa using hb
    · exact ih (fun a ha => hl a (by simp [ha])) st hw b hb

/-- The requests of `r` to `p` among a list of requests. -/
theorem filter_requests (r p : Nat) (ps : List Nat) :
    ∃ n, (on p (ps.flatMap (request r))).filter (byReq r) = rounds r n ∧ (p ∈ ps ↔ 0 < n) := by
  induction ps with
  | nil => exact ⟨0, rfl, by simp⟩
  | cons q ps ih =>
    obtain ⟨n, h1, h2⟩ := ih
    simp only [on] at h1
    by_cases e : q = p
    · refine ⟨n + 1, ?_, by simp [e]⟩
      simp [on, request, e, byReq, rounds]
      simpa using h1
    · refine ⟨n, ?_, by simp [Ne.symm e, h2]⟩
      simp [on, request, e]
      simpa using h1

theorem on_filter (r p : Nat) (H : List (Nat × Shutdown.Step)) :
    (on p H).filter (byReq r) = (on p (H.filter fun x => byReq r x.2)) := by
  induction H with
  | nil => rfl
  | cons a H ih =>
    simp only [on] at ih
    by_cases e : a.1 = p <;> by_cases b : byReq r a.2 = true <;> simp [on, e, b] <;> simpa using ih

/-- What requester `r` goes through: its calls, each with the list its monitoring gave. -/
def targets (host : String) (cs : List (Call × List Entry)) : List Nat := cs.flatMap fun c => asked host c.2 c.1

/-- A history in which every requester does exactly what its calls do, in its order; everything else are calls
of `Ok`, by any process at any time. -/
def Does (host : String) (calls : Nat → List (Call × List Entry)) (H : List (Nat × Shutdown.Step)) : Prop :=
  ∀ r, (H.filter fun x => byReq r x.2) = (targets host (calls r)).flatMap (request r)

/-- C118 (holds for processes that have called `Ok` once and have not been asked before): if one of the calls
goes through its process id, one of the calls of `Ok` by the process, at the latest the next one, returns
false; if none does, all return true.  For any number of requesters and every interleaving.  Missing:
processes that have not called `Ok` yet and second requests (C49). -/
theorem C118_asked_iff_told_partial (host : String) (calls : Nat → List (Call × List Entry)) (w : World)
    (H : List (Nat × Shutdown.Step)) (hH : Does host calls H) (p : Nat) (hw : Waiting (w p)) :
    false ∈ oks p (wrun w (H ++ [(p, .ok)])).2 ↔ ∃ r, p ∈ targets host (calls r) := by
  have e1 : on p (H ++ [(p, Shutdown.Step.ok)]) = on p H ++ [.ok] := by simp [on]
  rw [oks_wrun, e1]
  have hr : ∀ r, ∃ n, (on p H).filter (byReq r) = rounds r n ∧ (p ∈ targets host (calls r) ↔ 0 < n) := by
    intro r
    obtain ⟨n, h1, h2⟩ := filter_requests r p (targets host (calls r))
    refine ⟨n, ?_, h2⟩
    rw [on_filter, hH r]
    rw [on_filter] at h1
    rw [← h1]
    congr 1
    rw [List.filter_eq_self.2]
    intro x hx
    simp only [List.mem_flatMap, request, List.mem_cons, List.not_mem_nil, or_false] at hx
    obtain ⟨q, _, hx⟩ := hx
    rcases hx with hx | hx | hx <;> subst hx <;> simp [byReq]
  constructor
  · intro hf
    by_cases hex : ∃ r, p ∈ targets host (calls r)
    · exact hex
    · exfalso
      have hall : ∀ a ∈ on p H ++ [Shutdown.Step.ok], a = .ok := by
        intro a ha
        rcases List.mem_append.1 ha with ha | ha
        · have key : ∀ r, byReq r a = false := by
            intro r
            obtain ⟨n, h1, h2⟩ := hr r
            have hn : n = 0 := by
              rcases Nat.eq_zero_or_pos n with h | h
              · exact h
              · exact absurd ⟨r, h2.2 h⟩ hex
            subst hn
            simp only [rounds, List.filter_eq_nil_iff] at h1
            simpa using h1 a ha
          cases a with
          | ok => rfl
          | rOpen k => have := key k; simp [byReq] at this
          | rSet k => have := key k; simp [byReq] at this
          | rClose k => have := key k; simp [byReq] at this
        · simpa using ha
      have := only_ok _ hall (w p) hw false hf
      cases this
  · rintro ⟨r, hp⟩
    obtain ⟨o, h1, h2, h3⟩ := hw.obj
    refine first_set (on p H) (w p) ⟨o, h1, h2, h3, fun r => ?_⟩ ⟨r, ?_⟩
    · obtain ⟨n, g1, _⟩ := hr r
      exact Or.inl ⟨n, g1, hw.reqs r⟩
    · obtain ⟨n, g1, g2⟩ := hr r
      have hn := g2.1 hp
      obtain ⟨m, rfl⟩ : ∃ m, n = m + 1 := ⟨n - 1, by omega⟩
      have : Shutdown.Step.rSet r ∈ (on p H).filter (byReq r) := by rw [g1]; simp [rounds]
      exact (List.mem_filter.1 this).1

/-- The processes a caller of the function means. -/
def Meant (e : Entry) : Call → Prop
  | .name n => e.pname = n
  | .pid p => e.pid = p
  | .processes => e.uname ∉ ["eCALMon", "eCALPlay", "eCALPlayGUI", "eCALRec", "eCALRecGUI", "eCALSys", "eCALSysGUI",
      "eCALStop", "eCALTopic"]
  | .core => e.uname ∈ ["eCALMon", "eCALPlay", "eCALPlayGUI", "eCALRec", "eCALRecGUI", "eCALSys", "eCALSysGUI",
      "eCALStop", "eCALTopic"]

/-- The list shows the living processes of the host and, of the host, nothing else. -/
def Exact (host : String) (alive : Nat → Option Entry) (l : List Entry) : Prop :=
  (∀ e ∈ l, e.host = host → alive e.pid = some e) ∧ (∀ p e, alive p = some e → e.pid = p ∧ e.host = host ∧ e ∈ l)

theorem asked_iff_meant (host : String) (alive : Nat → Option Entry) (l : List Entry) (hl : Exact host alive l)
    (p : Nat) (e : Entry) (he : alive p = some e) (c : Call) : p ∈ asked host l c ↔ Meant e c := by
  obtain ⟨h1, h2⟩ := hl
  obtain ⟨g1, g2, g3⟩ := h2 p e he
  have key : ∀ f : Entry → Bool, p ∈ (l.filter fun e => f e && e.host == host).map (·.pid) ↔ f e = true := by
    intro f
    simp only [List.mem_map, List.mem_filter, Bool.and_eq_true, beq_iff_eq]
    constructor
    · rintro ⟨e', ⟨m1, m2, m3⟩, m4⟩
      have := h1 e' m1 m3
      rw [m4, he] at this
      cases this
      exact m2
    · intro hf; exact ⟨e, ⟨g3, hf, g2⟩, g1⟩
  cases c with
  | name n => simp only [asked, Meant]; rw [key (fun e => e.pname == n)]; simp
  | pid q =>
    simp only [asked, Meant, List.mem_singleton, g1]
  | processes => simp only [asked, Meant]; rw [key isUser]; simp [isUser, and_assoc]
  | core => simp only [asked, Meant]; rw [key isCore]; simp [isCore, or_assoc]

/-- C118 (holds when the lists are exact): of the living processes that have called `Ok` and have not been asked
before, exactly those that are meant by one of the calls are told, whatever the interleaving. -/
theorem C118_meant_iff_told_partial (host : String) (alive : Nat → Option Entry) (calls : Nat → List (Call × List Entry))
    (hx : ∀ r, ∀ c ∈ calls r, Exact host alive c.2) (w : World) (H : List (Nat × Shutdown.Step)) (hH : Does host calls H)
    (p : Nat) (e : Entry) (he : alive p = some e) (hw : Waiting (w p)) :
    false ∈ oks p (wrun w (H ++ [(p, .ok)])).2 ↔ ∃ r, ∃ c ∈ calls r, Meant e c.1 := by
  rw [C118_asked_iff_told_partial host calls w H hH p hw]
  simp only [targets, List.mem_flatMap]
  constructor
  · rintro ⟨r, c, hc, h⟩
    exact ⟨r, c, hc, (asked_iff_meant host alive c.2 (hx r c hc) p e he c.1).1 h⟩
  · rintro ⟨r, c, hc, h⟩
    exact ⟨r, c, hc, (asked_iff_meant host alive c.2 (hx r c hc) p e he c.1).2 h⟩

/-- C118: whatever the list, a call by name or kind asks only process ids the list shows on the own host. -/
theorem C118_own_host_only (host : String) (l : List Entry) (c : Call) (hc : ∀ q, c ≠ .pid q) (p : Nat)
    (hp : p ∈ asked host l c) : ∃ e ∈ l, e.pid = p ∧ e.host = host ∧ Meant e c := by
  have key : ∀ f : Entry → Bool, p ∈ (l.filter fun e => f e && e.host == host).map (·.pid) →
      ∃ e ∈ l, e.pid = p ∧ e.host = host ∧ f e = true := by
    intro f hf
    simp only [List.mem_map, List.mem_filter, Bool.and_eq_true, beq_iff_eq] at hf
    obtain ⟨e', ⟨m1, m2, m3⟩, m4⟩ := hf
    exact ⟨e', m1, m4, m3, m2⟩
  cases c with
  | name n =>
    obtain ⟨e, h1, h2, h3, h4⟩ := key (fun e => e.pname == n) hp
    exact ⟨e, h1, h2, h3, by simpa [Meant] using h4⟩
  | pid q => exact absurd rfl (hc q)
  | processes =>
    obtain ⟨e, h1, h2, h3, h4⟩ := key isUser hp
    exact ⟨e, h1, h2, h3, by simpa [Meant, isUser, and_assoc] using h4⟩
  | core =>
    obtain ⟨e, h1, h2, h3, h4⟩ := key isCore hp
    exact ⟨e, h1, h2, h3, by simpa [Meant, isCore, or_assoc] using h4⟩

/-- C118: `ShutdownProcesses` and `ShutdownCore` together ask every listed process of the host, and, if no two
listed processes of the host have the same process id, none is asked by both. -/
theorem C118_kinds_partition (host : String) (l : List Entry) :
    (∀ e ∈ l, e.host = host → e.pid ∈ asked host l .processes ∨ e.pid ∈ asked host l .core) ∧
    ((∀ a ∈ l, ∀ b ∈ l, a.host = host → b.host = host → a.pid = b.pid → a = b) →
      ∀ p, p ∈ asked host l .processes → p ∉ asked host l .core) := by
  constructor
  · intro e he hh
    by_cases hc : e.uname ∈ ["eCALMon", "eCALPlay", "eCALPlayGUI", "eCALRec", "eCALRecGUI", "eCALSys", "eCALSysGUI",
      "eCALStop", "eCALTopic"]
    · right
      refine List.mem_map.2 ⟨e, List.mem_filter.2 ⟨he, ?_⟩, rfl⟩
      simpa [isCore, hh, or_assoc] using hc
    · left
      refine List.mem_map.2 ⟨e, List.mem_filter.2 ⟨he, ?_⟩, rfl⟩
      simpa [isUser, hh, and_assoc] using hc
  · intro hu p h1 h2
    obtain ⟨a, a1, a2, a3, a4⟩ := C118_own_host_only host l .processes (by intro q; simp) p h1
    obtain ⟨b, b1, b2, b3, b4⟩ := C118_own_host_only host l .core (by intro q; simp) p h2
    have := hu a a1 b b1 a3 b3 (by rw [a2, b2])
    subst this
    exact a4 b4

/-! ### The hypotheses are met -/

/-- Two processes of the own host and one of another with the same process id as the second. -/
def sampleList : List Entry :=
  [⟨"a", "/usr/bin/camera", "camera", 10⟩, ⟨"a", "/usr/bin/ecal_rec", "eCALRec", 11⟩, ⟨"b", "/usr/bin/camera", "camera", 11⟩]

def sampleAlive : Nat → Option Entry
  | 10 => some ⟨"a", "/usr/bin/camera", "camera", 10⟩
  | 11 => some ⟨"a", "/usr/bin/ecal_rec", "eCALRec", 11⟩
  | _ => none

/-- All processes have called `Ok` once. -/
def sampleWorld : World := fun _ => { objs := [false], link := some 0, target := some 0 }

def sampleHist : List (Nat × Shutdown.Step) :=
  [(10, .ok), (10, .rOpen 1), (11, .rOpen 2), (10, .ok), (10, .rSet 1), (11, .ok), (10, .ok), (11, .rSet 2), (10, .rClose 1),
    (11, .rClose 2)]

def sampleCalls : Nat → List (Call × List Entry)
  | 1 => [(.name "/usr/bin/camera", sampleList)]
  | 2 => [(.core, sampleList)]
  | _ => []

example : Exact "a" sampleAlive sampleList ∧ (∀ p, Waiting (sampleWorld p)) ∧ Does "a" sampleCalls sampleHist ∧
    (wrun sampleWorld (sampleHist ++ [(11, .ok)])).2 = [(10, true), (10, true), (11, true), (10, false), (11, false)] := by
  refine ⟨⟨by decide, fun p e h => ?_⟩, fun p => ⟨⟨0, rfl, rfl, rfl⟩, fun _ => rfl⟩, fun r => ?_, by decide⟩
  · unfold sampleAlive at h
    split at h <;> first | (cases h; decide) | cases h
  · by_cases h1 : r = 1
    · subst h1; decide
    · by_cases h2 : r = 2
      · subst h2; decide
      · have e : sampleCalls r = [] := by
          unfold sampleCalls; split <;> first | rfl | omega
        rw [e]
        simp [sampleHist, byReq, targets, Ne.symm h1, Ne.symm h2]

/-! ### Violations -/

/-- C118 is violated by lists that are not up to date: the process of the name has ended, its id belongs to
another process now, and that one is told to shut down. -/
theorem C118_violated_reused_pid :
    ∃ (alive : Nat → Option Entry) (e : Entry), alive 10 = some e ∧ ¬ Meant e (.name "/usr/bin/camera") ∧
      (wrun sampleWorld ((asked "a" sampleList (.name "/usr/bin/camera")).flatMap (request 1) ++ [(10, .ok)])).2 =
        [(10, false)] :=
  ⟨fun p => if p = 10 then some ⟨"a", "/usr/bin/brake", "brake", 10⟩ else none, _, rfl, by simp [Meant], by decide⟩

/-- C118 is violated by processes the caller's monitoring has not heard of yet: the call returns, the process
runs on. -/
theorem C118_violated_not_listed :
    (wrun sampleWorld ((asked "a" sampleList .processes).flatMap (request 1) ++ [(10, .ok), (12, .ok), (12, .ok)])).2 =
      [(10, false), (12, true), (12, true)] := by decide

/-- C118 is violated by hosts of the same name: a process id of the other host is asked on the own one. -/
theorem C118_violated_same_host_name :
    (wrun sampleWorld ((asked "localhost" [⟨"localhost", "/usr/bin/camera", "camera", 10⟩] (.name "/usr/bin/camera")).flatMap
      (request 1) ++ [(10, .ok)])).2 = [(10, false)] := by decide

/-- C118 is violated by users that name their unit like a tool of eCAL: `ShutdownProcesses` leaves them out. -/
theorem C118_violated_unit_name :
    asked "a" [⟨"a", "/usr/bin/camera", "eCALRec", 10⟩] .processes = [] := by decide

/-- C118 is violated by the documentation of the function (core/include/ecal/ecal_util.h L135-140, "using it's unit name",
`eCAL_Util_ShutdownUnitName`): the given name is compared with the name of the program, so a unit name, which is never the
name of a program, asks no process at all, whatever is listed. -/
theorem C118_violated_by_unit_name (host u : String) (l : List Entry) (hu : ∀ e ∈ l, e.pname ≠ u) :
    asked host l (.name u) = [] := by
  simp only [asked, List.map_eq_nil_iff, List.filter_eq_nil_iff, Bool.and_eq_true, beq_iff_eq, not_and]
  intro e he h
  exact absurd h (hu e he)

example : ∀ e ∈ sampleList, e.pname ≠ "camera" := by decide

end Ecal.Sync.ShutdownAll
