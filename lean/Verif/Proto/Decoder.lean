import Verif.Proto.Filter

/-!
# Walking through a message with a visitor

Code modelled: `/repo/ecal/msg/protobuf/src/ecal_proto_decoder.cpp`: `CProtoDecoder::ProcProtoMsg` L40-313;
`CreateCompleteMessageName` (`/repo/ecal/msg/protobuf/include/ecal/msg/protobuf/ecal_proto_hlp.h` L44-54);
`MaximumArrayDimensionsVisitor` (`/repo/ecal/msg/protobuf/src/ecal_proto_maximum_array_dimensions.cpp` L29-50).

A message is what the reflection of protobuf shows: for each field of its type a value.  Scalar fields that are not set have
their default value.  The visitor is given by its function `AcceptMessage`, and by the calls it gets.

Simplifications.
* The values of all scalar types (numbers, texts, bytes, enumerations) are numbers here; the code does the same for each type
  (L82-257).
* Field numbers and type names, which are handed through, are left out.
* `AcceptMessage` has no effects, so the order in which it is asked does not matter.
* `ListFields` (L272, L286) is empty or not: `empty` and `skip` are messages without a set field.
-/

namespace Ecal.Proto.Decoder

open Ecal.Proto.Filter (Str)

mutual
/-- The fields of a message, in the order of its type. -/
inductive Fields where
  | nil
  | cons (name : Str) (v : Val) (rest : Fields)
/-- The value of a field. -/
inductive Val where
  | one (v : Nat)
  | many (vs : List Nat)
  | sub (m : Fields)
  | empty
  | subs (ms : Elems)
/-- The elements of a repeated message field. -/
inductive Elems where
  | nil
  | cons (m : Fields) (rest : Elems)
  | skip (rest : Elems)
end

/-- The number of elements (`FieldSize`). -/
def Elems.length : Elems → Nat
  | .nil => 0
  | .cons _ r => r.length + 1
  | .skip r => r.length + 1

/-- The calls of the visitor. -/
inductive Ev where
  | messageStart (array : Bool) (name group : Str)
  | messageEnd (array : Bool)
  | arrayStart (name group : Str) (size : Nat)
  | arrayEnd
  | scalar (name group : Str) (v : Nat)
  | element (name group : Str) (i : Nat) (v : Nat)
deriving DecidableEq, Repr

/-- `CreateCompleteMessageName`. -/
def complete (name group : Str) : Str := if group = [] then name else group ++ '.' :: name

/-- `name + "[" + std::to_string(i) + "]"`. -/
def indexed (name : Str) (i : Nat) : Str := name ++ '[' :: (toString i).toList ++ [']']

/-- The loops over repeated scalars, e.g. L86-93. -/
def many (acc : Str → Bool) (all : Bool) (name group : Str) : Nat → List Nat → List Ev
  | _, [] => []
  | i, v :: vs =>
    (if all || acc (indexed (complete name group) i) then [.element name group i v] else []) ++
      many acc all name group (i + 1) vs

mutual
/-- The loop over the fields, L61-303; `group` is the complete name of the message. -/
def fields (acc : Str → Bool) (group : Str) : Fields → List Ev
  | .nil => []
  | .cons n v r => (if acc (complete n group) then val acc n group v else []) ++ fields acc group r

/-- One field, L68-301. -/
def val (acc : Str → Bool) (n group : Str) : Val → List Ev
  | .one v => [.scalar n group v]
  | .many vs =>
    .arrayStart n group vs.length :: many acc (acc (complete n group ++ "[*]".toList)) n group 0 vs ++ [.arrayEnd]
  | .sub m => .messageStart false n group :: fields acc (complete n group) m ++ [.messageEnd false]
  | .empty => []
  | .subs ms =>
    .arrayStart n group ms.length :: elems acc (acc (complete n group ++ "[*]".toList)) n group 0 ms ++ [.arrayEnd]

/-- The loop over repeated messages, L262-278. -/
def elems (acc : Str → Bool) (all : Bool) (n group : Str) (i : Nat) : Elems → List Ev
  | .nil => []
  | .cons m r =>
    (if all || acc (indexed (complete n group) i) then
      .messageStart true (indexed n i) group :: fields acc (complete (indexed n i) group) m ++ [.messageEnd true]
    else []) ++ elems acc all n group (i + 1) r
  | .skip r => elems acc all n group (i + 1) r
end

/-- `ProcProtoMsg` as it is called from outside. -/
def decode (acc : Str → Bool) (name : Str) (m : Fields) : List Ev :=
  .messageStart false name [] :: fields acc (complete name []) m ++ [.messageEnd false]

/-- `MaximumArrayDimensionsVisitor::ArrayStart`, L42-50. -/
def dimension (sizes : Str → Nat) : Ev → Str → Nat
  | .arrayStart n g size => fun x => if x = complete n g then (if sizes x < size then size else sizes x) else sizes x
  | _ => sizes

/-- The sizes after some calls of the visitor. -/
def dimensions (sizes : Str → Nat) (es : List Ev) : Str → Nat := es.foldl dimension sizes

end Ecal.Proto.Decoder
