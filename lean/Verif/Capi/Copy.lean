/-!
# Buffers of the C interface

Code modelled: `/repo/ecal/core/src/cimpl/ecal_common_cimpl.cpp` (`CopyBuffer`, L32-59),
`/repo/ecal/core/src/cimpl/ecal_subscriber_cimpl.cpp` (`eCAL_Sub_Receive_ToBuffer`, `eCAL_Sub_Receive_Alloc`,
`eCAL_Sub_Receive_Buffer_Alloc`, L121-160; `eCAL_Sub_GetTypeName` L196-210, `eCAL_Sub_GetEncoding`,
`eCAL_Sub_GetDescription` alike; `eCAL_Sub_SetID` L89-103),
`/repo/ecal/core/src/cimpl/ecal_client_cimpl.cpp` (`eCAL_Client_Call_Wait`, L96-119) and
`/repo/ecal/core/include/ecal/ecalc_types.h` L31 (`ECAL_ALLOCATE_4ME` is 0).

The memory of the caller is either a block of bytes or a variable that is to hold a pointer.  A C `int` has 32
bits and a pointer 8 bytes.  Simplifications: an allocated block is its content; whether `malloc` succeeds is a
parameter; writing beyond a block is the outcome `overflow`, calling itself without end is `endless`.
-/

namespace Ecal.Capi

/-- What the `void*` of the caller points to. -/
inductive Target where
  | null
  | bytes (content : List UInt8)               -- a buffer
  | slot (block : Option (List UInt8))         -- a pointer variable; `none`: never written by the library
deriving DecidableEq, Repr

inductive Out where
  | ret (value : Int) (t : Target)
  | overflow                                   -- memory outside the caller's is written
  | clobber (value : Int)                      -- the bytes of a pointer are written into the buffer
  | endless
deriving DecidableEq, Repr

/-- `static_cast<int>` of a `size_t`. -/
@[irreducible] def toInt (n : Nat) : Int := ((n + 2147483648) % 4294967296 : Nat) - 2147483648

/-- `ECAL_ALLOCATE_4ME`. -/
def allocate4me : Int := 0

/-- The branch of `CopyBuffer` for a buffer of the caller (L52-57): bytes after the copy, or `none` if the copy does not
fit into the block. -/
def copyInto (content s : List UInt8) : Option (List UInt8) :=
  if content.length < s.length then none else some (s ++ content.drop s.length)

/-- The copy into a buffer of the caller is over. -/
def placed (n : Int) : Option (List UInt8) → Out
  | none => .overflow
  | some c => .ret n (.bytes c)

/-- A pointer to the block is stored through the pointer of the caller (L43). -/
def store (n : Int) (block : List UInt8) : Target → Out
  | .slot _ => .ret n (.slot (some block))
  | .bytes c => if c.length < 8 then .overflow else .clobber n
  | .null => .ret 0 .null

/-- The allocated block has the size of the message; copying into it (the inner call in L40) returns `n`. -/
def handOut (n : Int) (t : Target) : Option (List UInt8) → Out
  | none => .overflow
  | some block => if 0 < n then store n block t else .ret 0 t

/-- The branch L52-57 on what the caller gave: `n` is the size as an `int`. -/
def fill (n len : Int) (s : List UInt8) (t : Target) : Out :=
  if len < n then .ret 0 t
  else
    match t with
    | .bytes c => placed n (copyInto c s)
    | .slot _ => if 8 < s.length then .overflow else .clobber n
    | .null => .ret 0 .null

/-- `CopyBuffer` (ecal_common_cimpl.cpp L32-59); `n` is `static_cast<int>(source_s_.size())`.  In the inner call (L40)
both lengths are `n`, so the comparison of L54 does not end it. -/
def copyAs (n : Int) (malloc : Bool) (t : Target) (len : Int) (s : List UInt8) : Out :=
  if t = .null then .ret 0 t
  else if s = [] then .ret 0 t
  else if len = allocate4me then
    if malloc = false then .ret 0 t
    else if n = allocate4me then .endless
    else handOut n t (copyInto (List.replicate s.length 0) s)
  else fill n len s t

def copyBuffer (malloc : Bool) (t : Target) (len : Int) (s : List UInt8) : Out :=
  copyAs (toInt s.length) malloc t len s

/-- `eCAL_Sub_Receive_ToBuffer` (ecal_subscriber_cimpl.cpp L121-132): `msg` is what `ReceiveBuffer` delivered. -/
def receiveToBuffer (malloc : Bool) (msg : Option (List UInt8)) (t : Target) (len : Int) : Out :=
  match msg with
  | some m => copyBuffer malloc t len m
  | none => .ret 0 t

/-- `eCAL_Sub_Receive_Alloc` (L134-145). -/
def receiveAlloc (malloc : Bool) (msg : Option (List UInt8)) (t : Target) : Out :=
  match msg with
  | some m => copyBuffer malloc t allocate4me m
  | none => .ret 0 t

/-- The value returned is replaced. -/
def Out.withValue (v : Int) : Out → Out
  | .ret _ t => .ret v t
  | .clobber _ => .clobber v
  | o => o

/-- `eCAL_Sub_Receive_Buffer_Alloc` (L147-160): the second part is the length handed out. -/
def receiveBufferAlloc (malloc : Bool) (msg : Option (List UInt8)) (t : Target) : Out × Option Int :=
  match msg with
  | some m => ((copyBuffer malloc t allocate4me m).withValue 1, some (toInt m.length))
  | none => (.ret 0 t, none)

/-- `eCAL_Sub_GetTypeName` and its relatives (L196-210). -/
def getText (malloc : Bool) (text : List UInt8) (t : Target) (len : Int) : Out :=
  match copyBuffer malloc t len text with
  | .ret n t' => if n ≠ toInt text.length then .ret 0 t' else .ret n t'
  | .clobber n => if n ≠ toInt text.length then .clobber 0 else .clobber n
  | o => o

/-- A response of one server: executed or not, the state returned by the method, the data. -/
structure Response where
  executed : Bool
  retState : Int
  data     : List UInt8
deriving DecidableEq, Repr

/-- `eCAL_Client_Call_Wait` (ecal_client_cimpl.cpp L97-119) with `Call` (ecal_service_client_impl.cpp L232-238: true
if any server has executed the call); the second part is what is told about the call. -/
def callWait (malloc : Bool) (rs : List Response) (t : Target) (len : Int) : Out × Option (Bool × Int) :=
  if rs.any (·.executed) then
    match rs with
    | [] => (.ret 0 t, none)
    | r :: _ => (copyBuffer malloc t len r.data, some (r.executed, r.retState))
  else (.ret 0 t, none)

/-- A subscriber that holds at most one message for `ReceiveBuffer`; receiving takes it
(ecal_reader.cpp L146-185: the buffer is cleared and the flag reset). -/
structure Sub where
  msg : Option (List UInt8) := none
deriving DecidableEq, Repr

def Sub.receive (malloc : Bool) (s : Sub) (t : Target) (len : Int) : Out × Sub :=
  (receiveToBuffer malloc s.msg t len, {})

/-- `eCAL_Sub_SetID` (L89-103): the array is read at the indices below `static_cast<size_t>(id_num_)`; `none`: reading
beyond the array. -/
def setId (arr : Option (List Int)) (num : Int) : Option (List Int) :=
  match arr with
  | none => some []
  | some a =>
    let n : Nat := if num < 0 then (18446744073709551616 + num).toNat else num.toNat
    if n ≤ a.length then some (a.take n) else none

end Ecal.Capi
