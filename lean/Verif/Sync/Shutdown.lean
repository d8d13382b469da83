import Verif.Common.AMap

/-!
# Shutdown requests and `Ok()`

Code modelled: `/repo/ecal/core/src/ecal.cpp` L39-48 (`ShutdownProcEvent`), L208-212 (`Ok`);
`/repo/ecal/core/src/ecal_util.cpp` L222-233 (`ShutdownProcess(pid)`); `/repo/ecal/core/src/ecal_event.cpp`
L320-351 (named event: open the existing object or create one; the closing owner unlinks the name).

One target process.  `objs` are the shared objects that ever carried the event name of that process (flag
of each); `link` is what the name refers to now; `target` is the object the target process opened on its
first `Ok()` and keeps for ever (function-local static).  A requester opens or creates, sets, closes and
unlinks (it opens with ownership), as separate steps.  The context pointer of the target is non-null
throughout (`Ok` without it: `Verif.Life`).
-/

namespace Ecal.Sync.Shutdown

open Ecal

structure State where
  objs   : List Bool := []
  link   : Option Nat := none
  target : Option Nat := none
  reqs   : AMap Nat Nat := []      -- requester → object it has open
deriving Repr

inductive Step where
  | ok                             -- the target calls `Ok()`
  | rOpen (r : Nat)
  | rSet (r : Nat)
  | rClose (r : Nat)
deriving DecidableEq, Repr

/-- Open what the name refers to, or create a new unset object under the name (creation and
initialisation in one step; the race between them is `C48_violated_init_race`). -/
def openOrCreate (st : State) : State × Nat :=
  match st.link with
  | some o => (st, o)
  | none => ({ st with objs := st.objs ++ [false], link := some st.objs.length }, st.objs.length)

/-- Result of `Ok()`, if the step is one. -/
def step (st : State) : Step → State × Option Bool
  | .ok =>
    let r := match st.target with
      | some o => (st, o)
      | none => openOrCreate st
    let st := r.1
    if (st.objs[r.2]?).getD false then
      ({ st with target := some r.2, objs := st.objs.set r.2 false }, some false)
    else ({ st with target := some r.2 }, some true)
  | .rOpen r =>
    match st.reqs.find r with
    | some _ => (st, none)
    | none =>
      let p := openOrCreate st
      ({ p.1 with reqs := p.1.reqs.set r p.2 }, none)
  | .rSet r =>
    match st.reqs.find r with
    | some o => ({ st with objs := st.objs.set o true }, none)
    | none => (st, none)
  | .rClose r =>
    match st.reqs.find r with
    | some _ => ({ st with reqs := st.reqs.erase r, link := none }, none)
    | none => (st, none)

def run : State → List Step → State × List Bool
  | st, [] => (st, [])
  | st, a :: l =>
    let r := step st a
    let rest := run r.1 l
    (rest.1, r.2.toList ++ rest.2)

end Ecal.Sync.Shutdown
