import Verif.E2E.Call
import Verif.Msg.TypedSvc

/-!
# A typed call from end to end

Code modelled: the connection of `Verif.E2E.Call` (client session, network, server session and
`RequestCallback` of the untyped server) with the callbacks of a typed server on one side,
`/repo/ecal/core/include/ecal/msg/protobuf/server.h` L185-214, and the calls of a typed client on the
other, `/repo/ecal/core/include/ecal/msg/protobuf/client.h` L100-132.

Simplifications: the callback of a request runs in one step here (its overlap with application calls
is `Verif.Msg.TypedSvc`); `Create` and `Destroy` of the typed server are one step each.  Every method
registered at the untyped server has the callback of the typed server: `AddMethodCallback` is private in
the typed class (server.h L219-222).
-/

namespace Ecal.E2E.TypedCall

open Ecal.E2E.Call (Sys Ask Server)
open Ecal.Msg.TypedSvc (Codec MDesc)

variable {Ty M : Type}

/-- An invocation of a method of the user's service, by the `idx`-th request of the connection. -/
structure Inv (M : Type) where
  idx    : Nat
  inst   : Nat
  method : List UInt8
  req    : M
  resp   : M

structure State (Ty M : Type) where
  sys   : Sys
  svc   : Option Nat := none                       -- `m_service`
  meths : AMap (List UInt8) (MDesc Ty) := []       -- `m_methods`
  log   : List (Inv M) := []

def init (servers : Nat) : State Ty M := { sys := Call.init servers }

inductive Step (M : Type) where
  | base (a : Call.Step)        -- a step of the connection other than the callback
  | handle (resp : M)           -- the callback; `resp` is what the method answers if it is called
  | create (i : Nat)            -- `Create` with a service instance
  | destroy                     -- `Destroy`

/-- `m_methods` after `Create` (L141-146). -/
def table : List (MDesc Ty) → AMap (List UInt8) (MDesc Ty) → AMap (List UInt8) (MDesc Ty)
  | [], t => t
  | d :: ds, t => table ds (t.set d.name d)

/-- What the callback hands to the method: L187-202. -/
def accepts (c : Codec Ty M) (t : State Ty M) (m bs : List UInt8) : Option (Nat × M) :=
  match t.svc with
  | none => none
  | some i =>
    match t.meths.find m with
    | none => none
    | some d =>
      match c.parse d.inTy bs with
      | none => none
      | some req => some (i, req)

/-- What the callback returns and stores (L187, L190, L201, L208-213). -/
def answer (c : Codec Ty M) (resp : M) : Option (Nat × M) → BitVec 32 × List UInt8
  | none => (-1, [])
  | some _ => (0, c.asString resp)

/-- The request the strand of the server is about to handle. -/
def current (s : Sys) : Option (List UInt8 × List UInt8) :=
  match s.sv.phase with
  | .dispatch bs => (Wire.deserializeRequest {} bs).map (fun rq => (rq.header.mname, rq.request))
  | _ => none

/-- What the method is called with, if the handler calls it. -/
def planned (c : Codec Ty M) (t : State Ty M) : Option (Nat × M) :=
  match current t.sys with
  | none => none
  | some (m, bs) => accepts c t m bs

/-- The new executions among the executions `b` compared to `a`. -/
def invoked (a b : List Call.Exec) (p : Option (Nat × M)) (resp : M) : List (Inv M) :=
  match p with
  | none => []
  | some (i, req) => (b.drop a.length).map (fun x => ⟨x.idx, i, x.method, req, resp⟩)

def handleStep (sv : Server) (ask : Nat → Ask) (c : Codec Ty M) (t : State Ty M) (resp : M) : State Ty M :=
  let p := planned c t
  let r := answer c resp p
  let s' := Call.step sv ask t.sys (.handle r.1 r.2)
  { t with sys := s', log := t.log ++ invoked t.sys.execs s'.execs p resp }

def step (sv : Server) (ask : Nat → Ask) (c : Codec Ty M) (ms : List (MDesc Ty)) (t : State Ty M) :
    Step M → State Ty M
  | .base (.handle _ _) => t
  | .base a => { t with sys := Call.step sv ask t.sys a }
  | .handle resp => handleStep sv ask c t resp
  | .create i => { t with svc := some i, meths := table ms t.meths }
  | .destroy => { t with svc := none }

def run (sv : Server) (ask : Nat → Ask) (c : Codec Ty M) (ms : List (MDesc Ty)) (t : State Ty M)
    (h : List (Step M)) : State Ty M := h.foldl (step sv ask c ms) t

end Ecal.E2E.TypedCall
