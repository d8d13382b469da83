/-!
# Blocking service calls

Code modelled: `/repo/ecal/core/src/service/ecal_service_client_impl.cpp`: `CallBlocking` L441-595,
`fromSerializedProtobuf` L597-612, `fromStruct` L614-635, the two `Call` L193-297.

One step is one section under the mutex of the call (`*mutex`): addressing a server (entry and
`async_call_service` are in the same section, L500-556), a response callback (L515-537), or the end of
the wait (L563-594).

Simplifications: the host filter and the client map only choose which servers are addressed; the
addressed servers are the input.  That a response callback runs at most once per accepted call is C34.
The user callbacks invoked by `Call` are the observation `events`.
-/

namespace Ecal.Service.Blocking

inductive CallState where
  | none | executed | failed
deriving DecidableEq, Repr

/-- `SServiceResponse`. -/
structure Resp where
  host    : String
  service : String
  id      : String
  method  : String
  error   : String
  ret     : Int
  state   : CallState
  data    : String
deriving DecidableEq, Repr

/-- A server as the client gate knows it. -/
structure Srv where
  host : String
  name : String
  key  : String
deriving DecidableEq, Repr

/-- Argument of a response callback. -/
inductive Answer where
  | error (msg : String)               -- the connection failed
  | garbled                            -- a response that cannot be parsed
  | decoded (r : Resp)                 -- a parsed response (`state` may be `none`)
deriving DecidableEq, Repr

/-- `(has_returned, response)`. -/
abbrev Entry := Bool × Resp

/-- L505-513. -/
def timeoutEntry (s : Srv) (method : String) : Entry :=
  (false, { host := s.host, service := s.name, id := s.key, method := method, error := "Timeout",
            ret := 0, state := .failed, data := "" })

/-- L545-548: the session has been stopped. -/
def stoppedEntry (s : Srv) (method : String) : Entry :=
  (false, { (timeoutEntry s method).2 with error := "Stopped by user" })

/-- L520-533, L597-635.  An unknown call state leaves the previous one. -/
def applyAnswer (e : Resp) : Answer → Resp
  | .error msg => { e with error := msg, state := .failed, ret := 0 }
  | .garbled => { e with error := "Could not parse server response", ret := 0, state := .failed, data := "" }
  | .decoded r => { r with state := if r.state = .none then e.state else r.state }

structure State where
  method   : String
  timeout  : Bool                    -- the caller gave a positive timeout
  entries  : List Entry := []
  expected : Nat := 0
  finished : Nat := 0
  blocked  : Bool := false           -- `block_modifying_responses`
  result   : Option (List Entry) := none
deriving DecidableEq, Repr

inductive Step where
  | address (s : Srv) (accepted : Bool)
  | answer (i : Nat) (a : Answer)    -- the response callback of the `i`-th addressed server
  | finish                           -- the waiting thread returns because all have finished
  | expire                           -- the waiting thread returns because of the timeout
deriving DecidableEq, Repr

def doReturn (st : State) : State := { st with blocked := true, result := some st.entries }

def step (st : State) : Step → State
  | .address s accepted =>
    if st.result.isSome then st      -- the loop is over
    else
      { st with
        expected := st.expected + 1
        entries := st.entries ++ [if accepted then timeoutEntry s st.method else stoppedEntry s st.method]
        finished := if accepted then st.finished else st.finished + 1 }
  | .answer i a =>
    let st := { st with finished := st.finished + 1 }
    if st.blocked then st
    else
      match st.entries[i]? with
      | none => st
      | some e => { st with entries := st.entries.set i (true, applyAnswer e.2 a) }
  | .finish =>
    if st.result = none ∧ st.expected = st.finished then doReturn st else st
  | .expire =>
    if st.result = none ∧ st.timeout = true then doReturn st else st

def run (st : State) (steps : List Step) : State := steps.foldl step st

/-- `Call` L233-238, L289-294: success iff some entry is `executed`. -/
def success (result : List Entry) : Bool := result.any (fun e => e.2.state == .executed)

/-- `Call` L209-230: timeout notifications, one for each entry that has not returned. -/
def timeoutEvents (timeout : Bool) (result : List Entry) : Nat :=
  if timeout then (result.filter (fun e => !e.1)).length else 0

end Ecal.Service.Blocking
