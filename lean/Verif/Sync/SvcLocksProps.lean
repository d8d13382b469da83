import Verif.Sync.SvcLocks

/-! # C86: calls of services from callbacks of services do not deadlock -/

namespace Ecal.Sync.SvcLocks
open Ecal.Sync.Locks Ecal.Sync.LockOrder

/-! ## Which calls are safe in which callback -/

inductive Ctx where
  /-- no callback, or a method of a server -/
  | free
  | response
  /-- connected, disconnected and timeout events of a client -/
  | clientEvent
  | serverEvent
deriving DecidableEq, Repr

/-- The calls a callback may make: a method everything; a response callback may call without response callback, call
asynchronously, ask for the connection, set event callbacks, and do everything with servers; an event callback of a
client may do everything with servers; an event callback of a server may set methods. -/
def permits : Ctx → Op → Bool
  | .free, _ => true
  | _, .setMethod _ => true
  | .serverEvent, _ => false
  | _, .serverCreate => true
  | _, .serverDestroy _ => true
  | _, .setServerEvent _ => true
  | .response, .setClientEvent _ => true
  | .response, .callAsync _ => true
  | .response, .clientConnected _ => true
  | .response, .call _ cb _ _ _ => !cb
  | _, _ => false

mutual
/-- The call is permitted, and so are the calls of the callbacks that run inside it. -/
def ok : Ctx → Op → Bool
  | x, .call c cb resp limit tmo => permits x (.call c cb resp limit tmo) && oks .response resp && oks .clientEvent tmo
  | x, .callFail c resp => permits x (.callFail c resp) && oks .response resp
  | x, .clientCreate => permits x .clientCreate
  | x, .clientDestroy c => permits x (.clientDestroy c)
  | x, .setResponse c => permits x (.setResponse c)
  | x, .setClientEvent c => permits x (.setClientEvent c)
  | x, .callAsync c => permits x (.callAsync c)
  | x, .clientConnected c => permits x (.clientConnected c)
  | x, .serverCreate => permits x .serverCreate
  | x, .serverDestroy s => permits x (.serverDestroy s)
  | x, .setMethod s => permits x (.setMethod s)
  | x, .setServerEvent s => permits x (.setServerEvent s)
  | x, .finalize cs ss => permits x (.finalize cs ss)

def oks : Ctx → List Op → Bool
  | _, [] => true
  | x, o :: r => ok x o && oks x r
end

def okEv (x : Ctx) : Option (List Op) → Bool
  | none => true
  | some ops => oks x ops

/-- All callbacks of a thread keep to the table. -/
def keeps : Work → Bool
  | .user ops => oks .free ops
  | .response _ ops => oks .response ops
  | .request _ ops => oks .free ops
  | .serverEvent _ ops => okEv .serverEvent ops
  | .regService cs => cs.all (fun p => okEv .clientEvent p.2)
  | .cycle _ cs => cs.all (fun p => okEv .clientEvent p.2)

/-! ## The order of the locks -/

def rank : Lk → Nat
  | .applier => 0
  | .clientSet => 1
  | .cResp _ => 2
  | .cConn _ => 3
  | .svcMap => 4
  | .cMap _ => 5
  | .cEv _ => 6
  | .serverSet => 7
  | .sEv _ => 8
  | .sMeth _ => 9
  | .sConn _ => 10
  | .mgr => 11
  | .cMeth _ => 12
  | .regList => 13

/-- What a callback of this kind holds is below this. -/
def bound : Ctx → Nat
  | .free => 0
  | .response => 3
  | .clientEvent => 7
  | .serverEvent => 9

theorem t_touch {held} (k : Nat) (l : Lk) (hk : Below rank held k) (h : k ≤ rank l) : Safe rank held (touch l) := safe_touch k hk h

theorem clientStop_safe {held} (c : Nat) (h : Below rank held 2) : Safe rank held (clientStop c) :=
  safe_append (safe_append (safe_append (t_touch 2 _ h (by simp [rank])) (t_touch 2 _ h (by simp [rank]))) (t_touch 2 _ h (by simp [rank])))
    (t_touch 2 _ h (by simp [rank]))

theorem serverStop_safe {held} (s : Nat) (h : Below rank held 8) : Safe rank held (serverStop s) :=
  safe_append (safe_append (safe_append (t_touch 8 _ h (by simp [rank])) (t_touch 8 _ h (by simp [rank]))) (t_touch 8 _ h (by simp [rank])))
    (t_touch 8 _ h (by simp [rank]))

theorem newServices_safe {held} (c : Nat) (h : Below rank held 4) : Safe rank held (newServices c) :=
  safe_append (safe_sect' 4 h (by simp [rank]) (fun _ _ => safe_nil _ _))
    (safe_sect' 4 h (by simp [rank]) (fun _ h' => t_touch 6 _ h' (by simp [rank])))

theorem sendCalls_safe {held} (c : Nat) (h : Below rank held 4) : Safe rank held (sendCalls c) :=
  safe_append (safe_sect' 4 h (by simp [rank]) (fun _ _ => safe_nil _ _))
    (safe_sect' 4 h (by simp [rank]) (fun _ h' => t_touch 6 _ h' (by simp [rank])))

mutual
theorem op_safe (x : Ctx) (o : Op) (h : ok x o = true) (held : List (Lk × Mode)) (hb : Below rank held (bound x)) :
    Safe rank held o.acts := by
  cases o with
  | call c cb resp limit tmo =>
    simp only [ok, Bool.and_eq_true] at h
    obtain ⟨⟨h1, h2⟩, h3⟩ := h
    have hx : x = .free ∨ (x = .response ∧ cb = false) := by
      cases x <;> simp [permits] at h1 ⊢
      exact h1
    have hb3 : Below rank held 3 := by
      rcases hx with rfl | ⟨rfl, _⟩
      · exact below_mono hb (by simp [bound])
      · exact hb
    simp only [Op.acts]
    refine safe_append (safe_append (safe_append (newServices_safe c (below_mono hb3 (by omega)))
      (sendCalls_safe c (below_mono hb3 (by omega)))) ?_) ?_
    · cases cb with
      | false => exact safe_nil _ _
      | true =>
        rcases hx with rfl | ⟨_, hf⟩
        · exact safe_sect' 0 hb (by omega) (fun held' hb' => ops_safe .response resp h2 held' hb')
        · cases hf
    · cases limit with
      | false => exact safe_nil _ _
      | true => exact safe_sect' 3 hb3 (by simp [rank]) (fun held' hb' => ops_safe .clientEvent tmo h3 held' hb')
  | callFail c resp =>
    simp only [ok, Bool.and_eq_true] at h
    obtain ⟨h1, h2⟩ := h
    have hx : x = .free := by cases x <;> simp [permits] at h1 ⊢
    subst hx
    simp only [Op.acts]
    exact safe_sect' 0 hb (by omega) (fun held' hb' => ops_safe .response resp h2 held' hb')
  | clientCreate =>
    have hx : x = .free := by cases x <;> simp [ok, permits] at h ⊢
    subst hx
    exact safe_append (t_touch 0 _ hb (by simp)) (t_touch 0 _ hb (by simp))
  | clientDestroy c =>
    have hx : x = .free := by cases x <;> simp [ok, permits] at h ⊢
    subst hx
    exact safe_append (t_touch 0 _ hb (by simp)) (clientStop_safe c (below_mono hb (by simp [bound])))
  | setResponse c =>
    have hx : x = .free := by cases x <;> simp [ok, permits] at h ⊢
    subst hx
    exact t_touch 0 _ hb (by simp)
  | setClientEvent c =>
    refine t_touch _ _ hb ?_
    cases x <;> simp [ok, permits] at h ⊢ <;> simp [bound, rank]
  | callAsync c =>
    have hb3 : Below rank held 4 := below_mono hb (by cases x <;> simp [ok, permits] at h ⊢ <;> simp [bound])
    exact safe_append (newServices_safe c hb3) (sendCalls_safe c hb3)
  | clientConnected c =>
    refine t_touch _ _ hb ?_
    cases x <;> simp [ok, permits] at h ⊢ <;> simp [bound, rank]
  | serverCreate =>
    have hb7 : Below rank held 7 := below_mono hb (by cases x <;> simp [ok, permits] at h ⊢ <;> simp [bound])
    exact safe_append (t_touch 7 _ hb7 (by simp [rank])) (t_touch 7 _ hb7 (by simp [rank]))
  | serverDestroy s =>
    have hb7 : Below rank held 7 := below_mono hb (by cases x <;> simp [ok, permits] at h ⊢ <;> simp [bound])
    exact safe_append (t_touch 7 _ hb7 (by simp [rank])) (serverStop_safe s (below_mono hb7 (by omega)))
  | setMethod s => exact t_touch _ _ hb (by cases x <;> simp [bound, rank])
  | setServerEvent s =>
    refine t_touch _ _ hb ?_
    cases x <;> simp [ok, permits] at h ⊢ <;> simp [bound, rank]
  | finalize cs ss =>
    have hx : x = .free := by cases x <;> simp [ok, permits] at h ⊢
    subst hx
    refine safe_append (safe_append (safe_append (safe_append (t_touch 0 _ hb (by simp)) ?_) ?_) (t_touch 0 _ hb (by simp))) (t_touch 0 _ hb (by simp))
    · exact safe_sect' 0 hb (by simp) (fun held' hb' => safe_flatMap _ _ (fun c _ => clientStop_safe c hb'))
    · exact safe_sect' 0 hb (by simp) (fun held' hb' => safe_flatMap _ _ (fun s _ => serverStop_safe s hb'))

theorem ops_safe (x : Ctx) (os : List Op) (h : oks x os = true) (held : List (Lk × Mode)) (hb : Below rank held (bound x)) :
    Safe rank held (opsActs os) := by
  cases os with
  | nil => exact safe_nil _ _
  | cons o r =>
    simp only [oks, Bool.and_eq_true] at h
    exact safe_append (op_safe x o h.1 held hb) (ops_safe x r h.2 held hb)
end

theorem event_safe {held} (x : Ctx) (l : Lk) (k : Nat) (e : Option (List Op)) (hk : Below rank held k) (hl : k ≤ rank l)
    (hx : rank l + 1 ≤ bound x) (he : okEv x e = true) : Safe rank held (event l e) := by
  cases e with
  | none => exact safe_nil _ _
  | some ops => exact safe_sect' k hk hl (fun held' hb' => ops_safe x ops he held' (below_mono hb' hx))

theorem work_safe (w : Work) (h : keeps w = true) : Safe rank [] w.acts := by
  cases w with
  | user ops => exact ops_safe .free ops h [] below_nil
  | response c ops => exact safe_sect' 0 below_nil (by simp) (fun held' hb' => ops_safe .response ops h held' hb')
  | request s ops => exact safe_append (t_touch 0 _ below_nil (by simp)) (ops_safe .free ops h [] below_nil)
  | serverEvent s ops =>
    exact safe_append (t_touch 0 _ below_nil (by simp)) (event_safe .serverEvent _ 0 ops below_nil (by simp) (by simp [rank, bound]) h)
  | regService cs =>
    refine safe_sect' 0 below_nil (by simp) (fun held' hb' => ?_)
    refine safe_append (t_touch 1 _ hb' (by simp [rank])) (safe_sect' 1 hb' (by simp [rank]) (fun held'' hb'' => safe_flatMap _ _ ?_))
    intro p hp
    have hq := List.all_eq_true.1 h p hp
    exact safe_sect' 2 hb'' (by simp [rank]) (fun _ hb3 => event_safe .clientEvent _ 4 p.2 hb3 (by simp [rank]) (by simp [rank, bound]) hq)
  | cycle ss cs =>
    refine safe_append (safe_append ?_ ?_) (t_touch 0 _ below_nil (by simp))
    · exact safe_sect' 0 below_nil (by simp) (fun held' hb' => safe_flatMap _ _ (fun s _ => t_touch 8 _ hb' (by simp [rank])))
    · refine safe_sect' 0 below_nil (by simp) (fun held' hb' => safe_flatMap _ _ ?_)
      intro p hp
      have hq := List.all_eq_true.1 h p hp
      refine safe_append (safe_append (newServices_safe _ (below_mono hb' (by simp [rank]))) ?_) (t_touch 2 _ hb' (by simp [rank]))
      exact safe_sect' 2 hb' (by simp [rank]) (fun _ hb3 => event_safe .clientEvent _ 6 p.2 hb3 (by simp [rank]) (by simp [rank, bound]) hq)

theorem startAll_ordered (ws : List Work) (h : ∀ w ∈ ws, keeps w = true) : AllOrdered rank (startAll ws) := by
  refine start_ordered rank _ ?_
  intro p hp
  obtain ⟨w, hw, rfl⟩ := List.mem_map.1 hp
  exact work_safe w (h w hw)

/-! ## Property theorems -/

/-- **C86, no deadlock (partial).**  For every number of user threads, service threads, registration threads, clients and
servers: if the callbacks make only calls of the table `permits`, also in the callbacks that run inside of calls, then
no execution deadlocks, with or without preference of writers.  Missing for the full property: the other calls, see
below. -/
theorem C86_no_deadlock_partial (pref : Bool) (ws : List Work) (h : ∀ w ∈ ws, keeps w = true) (is : List Nat)
    (s : Sys Lk) (hr : run pref (startAll ws) is = some s) : ¬ Deadlocked pref s :=
  ordered_not_deadlocked rank pref s (run_ordered rank pref _ s is (startAll_ordered ws h) hr)

/-- **C86, end (partial).**  Under the same condition every execution can be continued until all calls and all callbacks
have returned. -/
theorem C86_completes_partial (pref : Bool) (ws : List Work) (h : ∀ w ∈ ws, keeps w = true) (is : List Nat)
    (s : Sys Lk) (hr : run pref (startAll ws) is = some s) : ∃ is' s', run pref s is' = some s' ∧ ∀ t ∈ s', t.rest = [] :=
  ordered_completes rank pref s (run_ordered rank pref _ s is (startAll_ordered ws h) hr)

/-- Not trivial: a method that makes a blocking call whose response callback makes a further call, a connected callback
that creates a server, while a user destroys the client. -/
example : ∀ w ∈ ([.request 0 [.call 1 true [.call 2 false [] true [.serverCreate], .setMethod 0] true []],
      .regService [(1, some [.serverCreate, .setMethod 0])], .cycle [0] [(1, some []), (2, none)], .serverEvent 0 (some [.setMethod 0]),
      .user [.clientDestroy 1, .finalize [2] [0]]] : List Work), keeps w = true := by decide

/-! ### Every other call can deadlock -/

/-- The callbacks. -/
inductive Site where
  | response | connected | disconnected | timeout | serverEvent
deriving DecidableEq, Repr

def Site.ctx : Site → Ctx
  | .response => .response
  | .serverEvent => .serverEvent
  | _ => .clientEvent

/-- The thread in which the callback runs that makes the call `o`. -/
def Site.work : Site → Op → Work
  | .response, o => .user [.call 0 true [o] false []]
  | .connected, o => .regService [(0, some [o])]
  | .disconnected, o => .cycle [] [(0, some [o])]
  | .timeout, o => .user [.call 0 false [] true [o]]
  | .serverEvent, o => .serverEvent 0 (some [o])

/-- The calls for the client 0 and the server 0. -/
inductive Kind where
  | clientCreate | clientDestroy | setResponse | setClientEvent | call (cb : Bool) | callAsync | callFail | clientConnected
  | serverCreate | serverDestroy | setMethod | setServerEvent | finalize
deriving DecidableEq, Repr

def Kind.op : Kind → Op
  | .clientCreate => .clientCreate
  | .clientDestroy => .clientDestroy 0
  | .setResponse => .setResponse 0
  | .setClientEvent => .setClientEvent 0
  | .call cb => .call 0 cb [] false []
  | .callAsync => .callAsync 0
  | .callFail => .callFail 0 []
  | .clientConnected => .clientConnected 0
  | .serverCreate => .serverCreate
  | .serverDestroy => .serverDestroy 0
  | .setMethod => .setMethod 0
  | .setServerEvent => .setServerEvent 0
  | .finalize => .finalize [0] [0]

/-- The other threads and a schedule that lead to the deadlock; the thread 0 makes the call. -/
def rival : Site → Kind → List Work × List Nat
  | .response, .clientCreate => ([.user [.finalize [0] []]], [1, 1, 1, 0, 0, 0, 0, 0, 0, 0, 0, 0, 0, 0, 0, 0, 0, 0, 1, 1])
  | .response, .clientDestroy => ([], [0, 0, 0, 0, 0, 0, 0, 0, 0, 0, 0, 0, 0, 0, 0, 0, 0])
  | .response, .setResponse => ([], [0, 0, 0, 0, 0, 0, 0, 0, 0, 0, 0, 0, 0])
  | .response, .call true => ([], [0, 0, 0, 0, 0, 0, 0, 0, 0, 0, 0, 0, 0, 0, 0, 0, 0, 0, 0, 0, 0, 0, 0, 0, 0])
  | .response, .callFail => ([], [0, 0, 0, 0, 0, 0, 0, 0, 0, 0, 0, 0, 0])
  | .response, .finalize => ([], [0, 0, 0, 0, 0, 0, 0, 0, 0, 0, 0, 0, 0, 0, 0, 0, 0, 0])
  | .connected, .clientCreate => ([], [0, 0, 0, 0, 0, 0, 0, 0])
  | .connected, .clientDestroy => ([], [0, 0, 0, 0, 0, 0])
  | .connected, .setResponse => ([Site.work .response (Kind.op .setClientEvent)], [1, 1, 1, 1, 1, 1, 1, 1, 1, 1, 1, 1, 1, 0, 0, 0, 0, 0, 0])
  | .connected, .setClientEvent => ([], [0, 0, 0, 0, 0, 0])
  | .connected, .call true => ([Site.work .response (Kind.op .setClientEvent)], [1, 1, 1, 1, 1, 1, 1, 1, 1, 1, 1, 1, 1, 0, 0, 0, 0, 0, 0, 0, 0, 0, 0, 0, 0, 0, 0, 0, 0, 0, 0])
  | .connected, .call false => ([.cycle [] [(0, some [])]], [1, 1, 1, 1, 1, 1, 1, 1, 1, 1, 0, 0, 0, 0, 0, 0, 0, 0])
  | .connected, .callAsync => ([.cycle [] [(0, some [])]], [1, 1, 1, 1, 1, 1, 1, 1, 1, 1, 0, 0, 0, 0, 0, 0, 0, 0])
  | .connected, .callFail => ([Site.work .response (Kind.op .setClientEvent)], [1, 1, 1, 1, 1, 1, 1, 1, 1, 1, 1, 1, 1, 0, 0, 0, 0, 0, 0])
  | .connected, .clientConnected => ([], [0, 0, 0, 0, 0, 0])
  | .connected, .finalize => ([], [0, 0, 0, 0, 0, 0, 0, 0])
  | .disconnected, .clientCreate => ([], [0, 0, 0, 0, 0, 0, 0, 0, 0, 0, 0, 0, 0])
  | .disconnected, .clientDestroy => ([], [0, 0, 0, 0, 0, 0, 0, 0, 0, 0, 0])
  | .disconnected, .setResponse => ([Site.work .response (Kind.op .setClientEvent)], [1, 1, 1, 1, 1, 1, 1, 1, 1, 1, 1, 1, 1, 0, 0, 0, 0, 0, 0, 0, 0, 0, 0, 0])
  | .disconnected, .setClientEvent => ([], [0, 0, 0, 0, 0, 0, 0, 0, 0, 0, 0])
  | .disconnected, .call true => ([], [0, 0, 0, 0, 0, 0, 0, 0, 0, 0, 0, 0, 0])
  | .disconnected, .call false => ([], [0, 0, 0, 0, 0, 0, 0, 0, 0, 0, 0, 0, 0])
  | .disconnected, .callAsync => ([], [0, 0, 0, 0, 0, 0, 0, 0, 0, 0, 0, 0, 0])
  | .disconnected, .callFail => ([Site.work .response (Kind.op .setClientEvent)], [1, 1, 1, 1, 1, 1, 1, 1, 1, 1, 1, 1, 1, 0, 0, 0, 0, 0, 0, 0, 0, 0, 0, 0])
  | .disconnected, .clientConnected => ([.regService [(0, some [])]], [1, 1, 1, 1, 1, 0, 0, 0, 0, 0, 0, 0, 0, 0, 0, 0])
  | .disconnected, .finalize => ([], [0, 0, 0, 0, 0, 0, 0, 0, 0, 0, 0, 0, 0])
  | .timeout, .clientCreate => ([.user [.finalize [0] []]], [1, 1, 1, 0, 0, 0, 0, 0, 0, 0, 0, 0, 0, 0, 0, 0, 0, 0, 1, 1, 1, 1])
  | .timeout, .clientDestroy => ([], [0, 0, 0, 0, 0, 0, 0, 0, 0, 0, 0, 0, 0, 0, 0, 0, 0, 0, 0])
  | .timeout, .setResponse => ([Site.work .response (Kind.op .setClientEvent)], [1, 1, 1, 1, 1, 1, 1, 1, 1, 1, 1, 1, 1, 0, 0, 0, 0, 0, 0, 0, 0, 0, 0, 0, 0, 0])
  | .timeout, .setClientEvent => ([], [0, 0, 0, 0, 0, 0, 0, 0, 0, 0, 0, 0, 0])
  | .timeout, .call true => ([Site.work .response (Kind.op .setClientEvent)], [1, 1, 1, 1, 1, 1, 1, 1, 1, 1, 1, 1, 1, 0, 0, 0, 0, 0, 0, 0, 0, 0, 0, 0, 0, 0, 0, 0, 0, 0, 0, 0, 0, 0, 0, 0, 0, 0])
  | .timeout, .call false => ([.cycle [] [(0, some [])]], [0, 0, 0, 0, 0, 0, 0, 0, 0, 0, 0, 0, 1, 1, 1, 1, 1, 1, 1, 1, 1, 1, 0, 0, 0])
  | .timeout, .callAsync => ([.cycle [] [(0, some [])]], [0, 0, 0, 0, 0, 0, 0, 0, 0, 0, 0, 0, 1, 1, 1, 1, 1, 1, 1, 1, 1, 1, 0, 0, 0])
  | .timeout, .callFail => ([Site.work .response (Kind.op .setClientEvent)], [1, 1, 1, 1, 1, 1, 1, 1, 1, 1, 1, 1, 1, 0, 0, 0, 0, 0, 0, 0, 0, 0, 0, 0, 0, 0])
  | .timeout, .clientConnected => ([.regService [(0, some [])]], [1, 1, 1, 1, 1, 0, 0, 0, 0, 0, 0, 0, 0, 0, 0, 0, 0, 0])
  | .timeout, .finalize => ([], [0, 0, 0, 0, 0, 0, 0, 0, 0, 0, 0, 0, 0, 0, 0, 0, 0, 0, 0, 0])
  | .serverEvent, .clientCreate => ([Site.work .connected (Kind.op .serverDestroy)], [1, 1, 1, 1, 0, 0, 0, 0, 0, 1, 1, 1, 1, 1, 1])
  | .serverEvent, .clientDestroy => ([Site.work .response (Kind.op .serverDestroy)], [1, 1, 1, 1, 1, 1, 1, 1, 1, 1, 1, 1, 1, 0, 0, 0, 0, 0, 0, 0, 1, 1, 1, 1])
  | .serverEvent, .setResponse => ([Site.work .response (Kind.op .serverDestroy)], [1, 1, 1, 1, 1, 1, 1, 1, 1, 1, 1, 1, 1, 0, 0, 0, 1, 1, 1, 1])
  | .serverEvent, .setClientEvent => ([Site.work .connected (Kind.op .serverDestroy)], [1, 1, 1, 1, 1, 1, 0, 0, 0, 1, 1, 1, 1])
  | .serverEvent, .call true => ([Site.work .response (Kind.op .serverDestroy)], [1, 1, 1, 1, 1, 1, 1, 1, 1, 1, 1, 1, 1, 0, 0, 0, 0, 0, 0, 0, 0, 0, 0, 0, 0, 0, 0, 0, 1, 1, 1, 1])
  | .serverEvent, .call false => ([Site.work .disconnected (Kind.op .serverDestroy)], [1, 1, 1, 1, 1, 1, 1, 1, 1, 1, 0, 0, 0, 0, 0, 1, 1, 1, 1, 1])
  | .serverEvent, .callAsync => ([Site.work .disconnected (Kind.op .serverDestroy)], [1, 1, 1, 1, 1, 1, 1, 1, 1, 1, 0, 0, 0, 0, 0, 1, 1, 1, 1, 1])
  | .serverEvent, .callFail => ([Site.work .response (Kind.op .serverDestroy)], [1, 1, 1, 1, 1, 1, 1, 1, 1, 1, 1, 1, 1, 0, 0, 0, 1, 1, 1, 1])
  | .serverEvent, .clientConnected => ([Site.work .connected (Kind.op .serverDestroy)], [1, 1, 1, 1, 1, 0, 0, 0, 1, 1, 1, 1, 1])
  | .serverEvent, .serverDestroy => ([], [0, 0, 0, 0, 0, 0, 0])
  | .serverEvent, .setServerEvent => ([], [0, 0, 0])
  | _, _ => ([], [])

def isCycle : Work → Bool
  | .cycle _ _ => true
  | _ => false

def isReg : Work → Bool
  | .regService _ => true
  | _ => false

/-- Check of one entry. -/
def checkEntry (pref : Bool) (x : Site) (k : Kind) : Bool :=
  let ws := x.work k.op :: (rival x k).1
  (rival x k).1.all keeps && ws.countP isCycle ≤ 1 && ws.countP isReg ≤ 1 &&
  (match run pref (startAll ws) (rival x k).2 with
   | some s => deadlockedB pref s
   | none => false)

/-- Creating a server or finalising in an event callback of a server: the subject of C85. -/
def atStop : Site → Kind → Bool
  | .serverEvent, .serverCreate => true
  | .serverEvent, .finalize => true
  | _, _ => false

theorem checkEntry_all (pref : Bool) (x : Site) (k : Kind) (h : permits x.ctx k.op = false) (hx : atStop x k = false) :
    checkEntry pref x k = true := by
  cases x <;> cases k <;> first
    | (exact absurd hx (by decide))
    | (exact absurd h (by decide))
    | (simp [permits, Kind.op, Site.ctx] at h; done)
    | (cases pref <;> decide +kernel)
    | (rename_i b; cases b <;> first | (exact absurd h (by decide)) | (cases pref <;> decide +kernel))

/-- **C86 (violated by every other call).**  The table of the theorems above cannot be extended.  For each callback and
each call that the table does not allow – a blocking call in the response callback of the same client, any call of the
client in its connected, disconnected or timeout callback, removing an event callback or destroying the client there,
removing the event callback of a server in this callback, and so on – there is a deadlock, even if all other callbacks
keep to the table, with at most one registration send thread and one registration receive thread, and with or without
preference of writers.  Often a single thread deadlocks with itself.  (Creating a server or finalising in an event
callback of a server is the subject of C85.) -/
theorem C86_violated_other_calls (pref : Bool) (x : Site) (k : Kind) (h : permits x.ctx k.op = false) (hx : atStop x k = false) :
    ∃ (ws : List Work) (is : List Nat) (s : Sys Lk), (∀ w ∈ ws, keeps w = true) ∧
      (x.work k.op :: ws).countP isCycle ≤ 1 ∧ (x.work k.op :: ws).countP isReg ≤ 1 ∧
      run pref (startAll (x.work k.op :: ws)) is = some s ∧ Deadlocked pref s := by
  have hc := checkEntry_all pref x k h hx
  simp only [checkEntry, Bool.and_eq_true, decide_eq_true_eq] at hc
  obtain ⟨⟨⟨h1, h2⟩, h3⟩, h4⟩ := hc
  cases hr : run pref (startAll (x.work k.op :: (rival x k).1)) (rival x k).2 with
  | none => rw [hr] at h4; cases h4
  | some s =>
    rw [hr] at h4
    exact ⟨(rival x k).1, (rival x k).2, s, fun w hw => List.all_eq_true.1 h1 w hw, h2, h3, hr, deadlockedB_sound pref s h4⟩

/-- Not empty: a blocking call in the connected callback of the client is such a call. -/
example : permits Site.connected.ctx (Kind.call false).op = false ∧ atStop .connected (.call false) = false := by decide

/-- **C86 (violated: call on disconnect).**  A client that makes a call, asynchronous or not, in its disconnected callback
waits for ever, alone: the callback runs with the lock of the connections held. -/
theorem C86_violated_call_on_disconnect (pref : Bool) (c : Nat) : ∃ (is : List Nat) (s : Sys Lk),
    run pref (startAll [.cycle [] [(c, some [.callAsync c])]]) is = some s ∧ Deadlocked pref s := by
  refine ⟨[0, 0, 0, 0, 0, 0, 0, 0, 0, 0, 0, 0, 0], ⟨[(.cEv c, .excl), (.cMap c, .excl), (.clientSet, .shared)],
    .acq (.cMap c) .excl :: .acq .mgr .excl :: .rel .mgr :: .rel (.cMap c) :: (sendCalls c ++ (.rel (.cEv c) :: .rel (.cMap c) ::
      (touch (.cMeth c) ++ (.rel .clientSet :: touch .regList))))⟩ :: [], ?_, ?_⟩
  · simp [startAll, start, Work.acts, cycleClient, newServices, sendCalls, sect, touch, event, opsActs, Op.acts, run, step, act, free,
      Thread.holds]
  · constructor
    · intro h
      have := h _ List.mem_cons_self
      simp at this
    · intro i
      cases i with
      | zero => simp [step, act, free, Thread.holds]
      | succ n => simp [step]

end Ecal.Sync.SvcLocks
