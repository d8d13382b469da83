import Verif.Capi.Copy

/-!
# Objects and arguments of the C interface

Code modelled (all under `/repo/ecal/core/src/cimpl`): `ecal_publisher_cimpl.cpp` L33-148, `ecal_subscriber_cimpl.cpp` L33-255,
`ecal_client_cimpl.cpp` L33-176, `ecal_server_cimpl.cpp` L33-124, `ecal_timer_cimpl.cpp` L30-72, `ecal_time_cimpl.cpp` L73-91.

A C program holds handles, which are addresses of C++ objects, and gives texts and blocks as pointers into its memory.  A C function
takes the arguments apart and calls one method of the C++ object.  What that method does is the subject of the other properties; here it is
a parameter: the answers are given by a function of everything that was called before.

Simplifications: the memory behind a pointer is the list of the bytes up to the end of its block; using memory that is not there (a null text, a
block that ends too early, an object that is not or no longer there or of another type, a null callback) is the outcome `bad`, whatever the C++
library does there (undefined behaviour, or an exception that leaves a C function); the bytes to send are read in the call, also by a publisher that
would not read them; memory for objects is always found; `eCAL_Client_Call_Wait`, which has two outputs, and the receive functions are those of C78.
-/

namespace Ecal.Capi.Handle

abbrev Bytes := List UInt8

/-- The objects with events. -/
inductive Peer where
  | pub | sub | client | server
deriving DecidableEq, Repr

inductive Kind where
  | peer (p : Peer)
  | timer
deriving DecidableEq, Repr

/-- A pointer: null, or the bytes from there to the end of the block. -/
abbrev Mem := Option Bytes

/-- `static_cast<size_t>` of an `int`. -/
def asSize (len : Int) : Nat := if len < 0 then (18446744073709551616 + len).toNat else len.toNat

/-- `std::string(const char*)`: the bytes before the first zero. -/
def cstr : Mem → Option Bytes
  | none => none
  | some m => if m.contains 0 then some (m.takeWhile (· != 0)) else none

/-- `std::string(const char*, size_t)`, and the bytes a publisher sends. -/
def slice (m : Mem) (len : Int) : Option Bytes :=
  if asSize len = 0 then some []
  else
    match m with
    | none => none
    | some b => if asSize len ≤ b.length then some (b.take (asSize len)) else none

/-- A function of the C program (`none`: null) and the pointer it is to be given. -/
structure Callback where
  fn  : Option Nat
  par : Nat
deriving DecidableEq, Repr

/-- The methods of the C++ objects, with the arguments they get. -/
inductive Meth where
  | create (name type enc desc : Bytes)
  | setAttr (name value : Bytes)
  | clearAttr (name : Bytes)
  | setId (id : Int)
  | setIds (ids : List Int)
  | isSubscribed
  | send (payload : Bytes) (time : Int)
  | addEvent (event : Nat) (cb : Callback)
  | remEvent (event : Nat)
  | dump
  | addReceive (cb : Callback)
  | remReceive
  | dataType
  | setHost (name : Bytes)
  | call (method request : Bytes) (timeout : Int)
  | callAsync (method request : Bytes) (timeout : Int)
  | addResponse (cb : Callback)
  | remResponse
  | addMethod (method req resp : Bytes) (cb : Callback)
  | remMethod (method : Bytes)
  | serviceName
  | start (timeout delay : Int) (cb : Callback)
  | stop
deriving DecidableEq, Repr

/-- What happens to a C++ object. -/
inductive Event where
  | made (k : Kind) (name : Bytes)
  | called (m : Meth)
  | deleted
deriving DecidableEq, Repr

/-- The three texts that describe a type. -/
inductive Part where
  | name | enc | desc
deriving DecidableEq, Repr

/-- The answer of a method. -/
structure Reply where
  ok   : Bool := false
  size : Nat := 0
  text : Bytes := []
  part : Part → Bytes := fun _ => []
  malloc : Bool := true

/-- The functions with a handle; the name in the source is in the comment. -/
inductive Fn where
  | create (sub : Bool) (name type enc desc : Mem) (len : Int)               -- eCAL_Pub_Create, eCAL_Sub_Create
  | destroy (k : Kind)                                                       -- eCAL_Pub_Destroy, …, eCAL_Timer_Destroy
  | setAttr (sub : Bool) (name : Mem) (nlen : Int) (value : Mem) (vlen : Int) -- eCAL_Pub_SetAttribute, eCAL_Sub_SetAttribute
  | clearAttr (sub : Bool) (name : Mem) (nlen : Int)                         -- eCAL_Pub_ClearAttribute, eCAL_Sub_ClearAttribute
  | setId (id : Int)                                                         -- eCAL_Pub_SetID
  | setIds (ids : Option (List Int)) (num : Int)                             -- eCAL_Sub_SetID
  | isSubscribed                                                             -- eCAL_Pub_IsSubscribed
  | send (buf : Mem) (len : Int) (time : Int)                                -- eCAL_Pub_Send
  | addEvent (p : Peer) (event : Nat) (cb : Callback)                        -- eCAL_Pub_AddEventCallback, …
  | remEvent (p : Peer) (event : Nat)                                        -- eCAL_Pub_RemEventCallback, …
  | dump (sub : Bool) (t : Target) (len : Int)                               -- eCAL_Pub_Dump, eCAL_Sub_Dump
  | addReceive (cb : Callback)                                               -- eCAL_Sub_AddReceiveCallback
  | remReceive                                                               -- eCAL_Sub_RemReceiveCallback
  | typeText (part : Part) (t : Target) (len : Int)                          -- eCAL_Sub_GetTypeName, GetEncoding, GetDescription
  | setHost (name : Mem)                                                     -- eCAL_Client_SetHostName
  | call (method req : Mem) (len timeout : Int)                              -- eCAL_Client_Call
  | callAsync (method req : Mem) (len timeout : Int)                         -- eCAL_Client_Call_Async
  | addResponse (cb : Callback)                                              -- eCAL_Client_AddResponseCallback
  | remResponse                                                              -- eCAL_Client_RemResponseCallback
  | addMethod (method req resp : Mem) (cb : Callback)                        -- eCAL_Server_AddMethodCallback
  | remMethod (method : Mem)                                                 -- eCAL_Server_RemMethodCallback
  | serviceName (server : Bool) (t : Target) (len : Int)                     -- eCAL_Client_GetServiceName, eCAL_Server_GetServiceName
  | start (timeout delay : Int) (cb : Callback)                              -- eCAL_Timer_Start
  | stop                                                                     -- eCAL_Timer_Stop
deriving DecidableEq, Repr

def pubSub (sub : Bool) : Kind := .peer (if sub then .sub else .pub)

/-- The type the handle is cast to. -/
def Fn.kind : Fn → Kind
  | .create s .. | .setAttr s .. | .clearAttr s .. | .dump s .. => pubSub s
  | .destroy k => k
  | .setId _ | .isSubscribed | .send .. => .peer .pub
  | .setIds .. | .addReceive _ | .remReceive | .typeText .. => .peer .sub
  | .addEvent p .. | .remEvent p _ => .peer p
  | .setHost _ | .call .. | .callAsync .. | .addResponse _ | .remResponse => .peer .client
  | .addMethod .. | .remMethod _ => .peer .server
  | .serviceName s .. => .peer (if s then .server else .client)
  | .start .. | .stop => .timer

/-- The memory of the caller a function may write to. -/
def Fn.target : Fn → Target
  | .dump _ t _ | .typeText _ t _ | .serviceName _ t _ => t
  | _ => .null

/-- What is done with the object. -/
inductive Act where
  | call (m : Meth)
  | delete
deriving DecidableEq, Repr

/-- The arguments as the C++ method gets them.  `create`: ecal_publisher_cimpl.cpp L63-64, ecal_subscriber_cimpl.cpp L76-77; attributes:
L80, L88 and L109, L117; `setIds`: L93-101; `send`: ecal_publisher_cimpl.cpp L112; `call`, `callAsync`, `setHost`: ecal_client_cimpl.cpp L84, L92,
L126; `addMethod`, `remMethod`: ecal_server_cimpl.cpp L82, L89; `start`: ecal_timer_cimpl.cpp L61 (the order of the last two changes). -/
def Fn.decode : Fn → Option Act
  | .create _ n t e d len => do return .call (.create (← cstr n) (← cstr t) (← cstr e) (← slice d len))
  | .destroy _ => some .delete
  | .setAttr _ n nl v vl => do return .call (.setAttr (← slice n nl) (← slice v vl))
  | .clearAttr _ n nl => do return .call (.clearAttr (← slice n nl))
  | .setId i => some (.call (.setId i))
  | .setIds ids num => do return .call (.setIds (← Capi.setId ids num))
  | .isSubscribed => some (.call .isSubscribed)
  | .send b len time => do return .call (.send (← slice b len) time)
  | .addEvent _ ev cb => some (.call (.addEvent ev cb))
  | .remEvent _ ev => some (.call (.remEvent ev))
  | .dump .. => some (.call .dump)
  | .addReceive cb => some (.call (.addReceive cb))
  | .remReceive => some (.call .remReceive)
  | .typeText .. => some (.call .dataType)
  | .setHost n => do return .call (.setHost (← cstr n))
  | .call m r len to => do return .call (.call (← cstr m) (← slice r len) to)
  | .callAsync m r len to => do return .call (.callAsync (← cstr m) (← slice r len) to)
  | .addResponse cb => some (.call (.addResponse cb))
  | .remResponse => some (.call .remResponse)
  | .addMethod m rq rs cb => do return .call (.addMethod (← cstr m) (← cstr rq) (← cstr rs) cb)
  | .remMethod m => do return .call (.remMethod (← cstr m))
  | .serviceName .. => some (.call .serviceName)
  | .start to d cb => some (.call (.start to d cb))
  | .stop => some (.call .stop)

/-- A `bool` as an `int`. -/
def num (b : Bool) : Int := if b then 1 else 0

/-- What a function makes of the answer.  `send`: ecal_publisher_cimpl.cpp L113-117; `setIds`: ecal_subscriber_cimpl.cpp L101-102; `dump`:
L142-146, L249-253; `typeText`, `serviceName`: L201-209 and alike. -/
def Fn.answer (r : Reply) : Fn → Capi.Out
  | .send _ len _ => .ret (if toInt r.size = len then len else 0) .null
  | .setIds .. => .ret 1 .null
  | .dump _ t len => if r.text = [] then .ret 0 t else copyBuffer r.malloc t len r.text
  | .typeText p t len => getText r.malloc (r.part p) t len
  | .serviceName _ t len => getText r.malloc r.text t len
  | f => .ret (num r.ok) f.target

/-- The living objects by address, and everything that happened to objects. -/
structure World where
  objs : List (Nat × Kind) := []
  log  : List (Nat × Event) := []
deriving DecidableEq, Repr

def World.at (w : World) (a : Nat) : Option Kind := (w.objs.find? (·.1 == a)).map (·.2)

inductive Outcome where
  | handle (h : Option Nat)
  | done (o : Capi.Out)
  | bad
deriving DecidableEq, Repr

/-- A function with the object at an address: every function ends at once if there is no object of its type there. -/
def onObject (env : List (Nat × Event) → Reply) (w : World) (a : Nat) (f : Fn) : World × Outcome :=
  match f.decode with
  | none => (w, .bad)
  | some .delete => ({ objs := w.objs.filter (·.1 != a), log := w.log ++ [(a, .deleted)] }, .done (.ret 1 .null))
  | some (.call m) =>
    ({ w with log := w.log ++ [(a, .called m)] }, .done (f.answer (env (w.log ++ [(a, .called m)]))))

/-- A function with a handle: first `if (handle_ == nullptr) return(0);` (ecal_publisher_cimpl.cpp L61, … in all of them). -/
def useHandle (env : List (Nat × Event) → Reply) (w : World) (h : Option Nat) (f : Fn) : World × Outcome :=
  match h with
  | none => (w, .done (.ret 0 f.target))
  | some a => if w.at a = some f.kind then onObject env w a f else (w, .bad)

/-- The name a new object gets: clients and servers only (ecal_client_cimpl.cpp L65-70, ecal_server_cimpl.cpp L62-67). -/
def named : Kind → Bool
  | .peer .client | .peer .server => true
  | _ => false

/-- A new object at the address `a`. -/
def World.add (w : World) (k : Kind) (name : Bytes) (a : Nat) : World :=
  { objs := (a, k) :: w.objs, log := w.log ++ [(a, .made k name)] }

/-- `eCAL_Pub_New`, `eCAL_Sub_New`, `eCAL_Timer_Create` (ecal_publisher_cimpl.cpp L53-57, ecal_subscriber_cimpl.cpp L66-70, ecal_timer_cimpl.cpp
L42-46), `eCAL_Client_Create`, `eCAL_Server_Create`; `a`: the address the memory allocator gives. -/
def make (w : World) (k : Kind) (name : Mem) (a : Nat) : World × Outcome :=
  if named k then
    if name = none then (w, .handle none)
    else
      match cstr name with
      | none => (w, .bad)
      | some n => (w.add k n a, .handle (some a))
  else (w.add k [] a, .handle (some a))

inductive Op where
  | make (k : Kind) (name : Mem) (a : Nat)
  | use (h : Option Nat) (f : Fn)
deriving DecidableEq, Repr

/-- The allocator does not give memory that is in use. -/
def step (env : List (Nat × Event) → Reply) (w : World) : Op → Option (World × Outcome)
  | .make k name a => if w.at a = none then some (make w k name a) else none
  | .use h f => some (useHandle env w h f)

/-- Calls one after the other, with what each of them returned; after a `bad` one nothing can be said. -/
def run (env : List (Nat × Event) → Reply) (w : World) : List Op → Option (World × List (Op × Outcome))
  | [] => some (w, [])
  | o :: os =>
    match step env w o with
    | none => none
    | some (w', out) =>
      if out = .bad then some (w', [(o, out)])
      else
        match run env w' os with
        | none => none
        | some (w'', t) => some (w'', (o, out) :: t)

/-! ### Callbacks -/

/-- The data of an event of a publisher or subscriber. -/
structure Told where
  event : Nat
  time  : Int
  clock : Int
  tid   : Bytes
  type  : Bytes
  enc   : Bytes
  desc  : Bytes
deriving DecidableEq, Repr

/-- The same for a C program; the texts are pointers without a length. -/
structure ToldC where
  event : Nat
  time  : Int
  clock : Int
  tid   : Mem
  tname : Mem
  enc   : Mem
  desc  : Mem
deriving DecidableEq, Repr

/-- `std::string::c_str()`: a zero follows the text. -/
def cptr (t : Bytes) : Mem := some (t ++ [0])

/-- `g_pub_event_callback` (ecal_publisher_cimpl.cpp L39-46), `g_sub_event_callback` (ecal_subscriber_cimpl.cpp L52-59). -/
def toldC (d : Told) : ToldC :=
  { event := d.event, time := d.time, clock := d.clock, tid := cptr d.tid, tname := cptr d.type, enc := cptr d.enc, desc := cptr d.desc }

/-- What the library does with a callback when there is something to tell: the C++ callback that wraps it (`std::bind`, ecal_publisher_cimpl.cpp
L124) is never empty, so the tests for an empty one (ecal_writer.cpp L745) do not stop it.  `none`: a null pointer is called. -/
def fire (cb : Callback) : Option (Nat × Nat) :=
  match cb.fn with
  | none => none
  | some f => some (f, cb.par)

/-- The request a method of a C program gets: a pointer and a length (ecal_server_cimpl.cpp L41). -/
def requestC (request : Bytes) : Mem × Int := (cptr request, toInt request.length)

/-- The response the library takes from a method (L42-45); `old`: the text before the call; `none`: memory that is not there is read. -/
def responseOf (old : Bytes) (resp : Mem) (len : Int) : Option Bytes :=
  if 0 < len then slice resp len else some old

/-- The response a response callback gets (ecal_client_cimpl.cpp L47-48). -/
def responseC (response : Bytes) : Mem × Int := (cptr response, toInt response.length)

/-- `eCAL_Time_GetStatus` (ecal_time_cimpl.cpp L73-91): the `char**` of the caller is given to `CopyBuffer` for every length. -/
def timeStatus (malloc : Bool) (text : Bytes) (t : Target) (len : Int) : Capi.Out :=
  if len = allocate4me ∨ 0 < len then (if text = [] then .ret 0 t else copyBuffer malloc t len text) else .ret 0 t

end Ecal.Capi.Handle
