/-!
# The timer

Code modelled: `/repo/ecal/core/src/time/ecal_timer.cpp` L35-134 (`CTimerImpl`).

One user thread controls the timer (`Start`/`Stop`, each several steps) and the timer thread runs beside it
in any interleaving.  A call from within the callback is the separate step `cbStop`.  The duration of
sleeping is not modelled: every thread step may come at any time.  Two user threads calling `Start`/`Stop` at
the same time is outside this model (`CTimer` is not thread safe: `m_thread` is unprotected).
-/

namespace Ecal.Time.Timer

inductive Ctl where
  | idle          -- no call in progress
  | starting      -- inside `Start`: thread created, `m_running` not yet set (L56-57)
  | joining       -- inside `Stop`: `m_stop` set, waiting in `join` (L64-65)
deriving DecidableEq, Repr

inductive Thr where
  | absent
  | delay         -- before the loop (L77)
  | test          -- about to read `m_stop` (L82)
  | go            -- read false, about to call the callback (L86)
  | inCb          -- inside the callback
  | sleep         -- after it (L91-123)
  | exiting       -- loop left, about to reset `m_stop` (L126)
  | done          -- finished, joinable
deriving DecidableEq, Repr

structure State where
  running : Bool := false
  stop    : Bool := false
  ctl     : Ctl := .idle
  thr     : Thr := .absent
  crashed : Bool := false          -- exception in the timer thread (process terminated)
deriving DecidableEq, Repr

inductive Step where
  | callStart (timeout : Int)
  | retStart
  | callStop
  | retStop
  | thread                         -- the timer thread moves on
  | cbStop                         -- the callback calls `Stop`
deriving DecidableEq, Repr

inductive Obs where
  | started (ok : Bool)            -- `Start` accepted/refused
  | stopped (ok : Bool)            -- `Stop` returned
  | callback                       -- the callback begins
deriving DecidableEq, Repr

/-- One move of the timer thread. -/
def threadStep (st : State) : State × Option Obs :=
  match st.thr with
  | .absent => (st, none)
  | .delay => ({ st with thr := .test }, none)
  | .test => ({ st with thr := if st.stop then .exiting else .go }, none)
  | .go => ({ st with thr := .inCb }, some .callback)
  | .inCb => ({ st with thr := .sleep }, none)
  | .sleep => ({ st with thr := .test }, none)
  | .exiting => ({ st with thr := .done, stop := false }, none)
  | .done => (st, none)

def step (st : State) (a : Step) : State × Option Obs :=
  if st.crashed then (st, none)
  else match a with
  | .callStart t =>
    if st.ctl ≠ .idle then (st, none)
    else if st.running ∨ t < 0 then (st, some (.started false))
    else ({ st with stop := false, thr := .delay, ctl := .starting }, none)
  | .retStart =>
    if st.ctl = .starting then ({ st with running := true, ctl := .idle }, some (.started true)) else (st, none)
  | .callStop =>
    if st.ctl ≠ .idle then (st, none)
    else if st.running then ({ st with stop := true, ctl := .joining }, none)
    else (st, some (.stopped false))
  | .retStop =>
    if st.ctl = .joining ∧ st.thr = .done then
      ({ st with running := false, thr := .absent, ctl := .idle }, some (.stopped true))
    else (st, none)
  | .thread => threadStep st
  | .cbStop =>
    -- `Stop` in the timer thread: if `m_running`, joining itself throws
    if st.thr = .inCb ∧ st.running then ({ st with crashed := true }, none) else (st, none)

def run : State → List Step → State × List Obs
  | st, [] => (st, [])
  | st, a :: l =>
    let r := step st a
    let rest := run r.1 l
    (rest.1, r.2.toList ++ rest.2)

end Ecal.Time.Timer
