import Verif.Common.AMap

/-!
# Method dispatch of a service server

Code modelled: `/repo/ecal/core/src/service/ecal_service_server_impl.cpp`: `AddDescription` L175-201,
`AddMethodCallback` L204-236, `RemMethodCallback` L239-250, the clearing of the map in `Stop`
L138-142, `RequestCallback` L400-480.

Simplifications: method, callback and type names are abstract; descriptors are left out of the entry
(they do not influence dispatch; see `Verif.Service.…` for registration); a request is either
undecodable or a decoded (method, payload) pair — decoding is `Verif.Wire.Service`; the user callback
is a pure function of the payload here, its effects are in the trace.
-/

namespace Ecal.Service.Dispatch

structure Method where
  reqType  : String
  respType : String
  callback : Option Nat       -- which function is stored; `none` is an empty `std::function`
  count    : Nat := 0         -- `call_count`
deriving DecidableEq, Repr

inductive CallState where
  | executed | failed
deriving DecidableEq, Repr

/-- What the requester gets. -/
inductive Reply where
  | response (method : Option String) (state : CallState)
  | crash                      -- `std::bad_function_call`
deriving DecidableEq, Repr

/-- An execution of a user function: which one, with which names and payload. -/
structure Exec where
  callback : Nat
  method   : String
  reqType  : String
  respType : String
  payload  : String
deriving DecidableEq, Repr

structure State where
  methods : AMap String Method := []
  execs   : List Exec := []
  replies : List Reply := []
deriving DecidableEq, Repr

inductive Step where
  | describe (m req resp : String)
  | add (m req resp : String) (cb : Nat)
  | remove (m : String)
  | stop
  | request (r : Option (String × String))   -- `none`: cannot be parsed
deriving DecidableEq, Repr

/-- `AddDescription` L175-201. -/
def describe (st : State) (m req resp : String) : State :=
  match st.methods.find m with
  | some e => { st with methods := st.methods.set m { e with reqType := req, respType := resp } }
  | none => { st with methods := st.methods.set m { reqType := req, respType := resp, callback := none } }

/-- `AddMethodCallback` L204-236. -/
def add (st : State) (m req resp : String) (cb : Nat) : State :=
  match st.methods.find m with
  | some e =>
    { st with methods := st.methods.set m { e with reqType := req, respType := resp, callback := some cb } }
  | none => { st with methods := st.methods.set m { reqType := req, respType := resp, callback := some cb } }

/-- `RequestCallback` L400-480. -/
def request (st : State) : Option (String × String) → State
  | none => { st with replies := st.replies ++ [.response none .failed] }
  | some (m, payload) =>
    match st.methods.find m with
    | none => { st with replies := st.replies ++ [.response (some m) .failed] }
    | some e =>
      let st := { st with methods := st.methods.set m { e with count := e.count + 1 } }
      match e.callback with
      | none => { st with replies := st.replies ++ [.crash] }
      | some cb =>
        { st with execs := st.execs ++ [⟨cb, m, e.reqType, e.respType, payload⟩],
                  replies := st.replies ++ [.response (some m) .executed] }

def step (st : State) : Step → State
  | .describe m req resp => describe st m req resp
  | .add m req resp cb => add st m req resp cb
  | .remove m => { st with methods := st.methods.erase m }
  | .stop => { st with methods := [] }
  | .request r => request st r

def run (st : State) (steps : List Step) : State := steps.foldl step st

end Ecal.Service.Dispatch
