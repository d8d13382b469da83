/-!
# `RelocatableCircularQueue` (core/src/registration/shm/relocatable_circular_queue.h)

The ring buffer inside the registration broadcast memory file.  The index arithmetic is
modelled literally (`Nat` for `uint64_t`: indices stay below `max_size`, so the sums stay
below `2 * max_size`, far from 2^64 for any ring that fits into memory).
-/

namespace Ecal.Ring

/-- Header plus storage of the queue (L195-209 `Header`, `Value(index)`): `cells` is the
storage behind the header; only indices below `maxSize` are backed by memory. -/
structure Ring (α : Type) where
  maxSize : Nat
  front   : Nat
  back    : Nat
  size    : Nat
  cells   : Nat → α

variable {α : Type}

/-- Result of a call: normal return, `std::out_of_range` thrown, or undefined behaviour
(failed precondition/`assert`, i.e. a division by zero or access outside the storage). -/
inductive Res (σ : Type) where
  | ok (s : σ)
  | outOfRange
  | ub
deriving Repr, DecidableEq

/-- Write one cell: `*Value(i) = v`. -/
def Ring.write (r : Ring α) (i : Nat) (v : α) : Ring α :=
  { r with cells := fun j => if j = i then v else r.cells j }

/-- `Push` (L115-128).  `% 0` and a write outside the storage are undefined behaviour. -/
def Ring.push (r : Ring α) (v : α) : Res (Ring α) :=
  if r.maxSize = 0 then .ub else
  let back' := if r.size ≠ 0 then (r.back + 1) % r.maxSize else r.back
  if back' ≥ r.maxSize then .ub else
  let r1 := { r with back := back' }.write back' v
  if r.size ≠ r.maxSize then .ok { r1 with size := r.size + 1 }
  else .ok { r1 with front := (r.front + 1) % r.maxSize }

/-- `Pop` (L130-140). -/
def Ring.pop (r : Ring α) : Res (Ring α) :=
  if r.size = 0 then .outOfRange else
  let size' := r.size - 1
  if size' ≠ 0 then
    if r.maxSize = 0 then .ub
    else .ok { r with size := size', front := (r.front + 1) % r.maxSize }
  else .ok { r with size := size' }

/-- `Reset(max_size)` (L176-184); `assert(max_size != 0)`. -/
def Ring.reset (r : Ring α) (n : Nat) : Res (Ring α) :=
  if n = 0 then .ub else .ok { r with maxSize := n, front := 0, back := 0, size := 0 }

/-- The range-for loop over the queue: `operator++` (L43-51) and `operator*` from index
`i` on; at most `fuel` elements are visited (`none` when the fuel is used up, i.e. the loop
has not ended). -/
def Ring.iterFrom (r : Ring α) : Nat → Nat → Option (List α)
  | 0, _ => none
  | fuel + 1, i =>
    if i = r.front then some [r.cells i]
    else (r.iterFrom fuel ((i + r.maxSize - 1) % r.maxSize)).map (r.cells i :: ·)

/-- Whole iteration `begin()` .. `end()` (L86-110). -/
def Ring.iterate (r : Ring α) : Option (List α) :=
  if r.size = 0 then some [] else r.iterFrom r.maxSize r.back

/-- `Front()`/`Back()` (L142-168); reading an empty queue is not guarded in the code, it
returns a stale cell, modelled as undefined. -/
def Ring.frontVal (r : Ring α) : Res α := if r.size = 0 then .ub else .ok (r.cells r.front)
def Ring.backVal (r : Ring α) : Res α := if r.size = 0 then .ub else .ok (r.cells r.back)

/-- Calls that change the queue. -/
inductive Op (α : Type) where
  | push (v : α)
  | pop
  | reset (n : Nat)
deriving Repr

def Ring.step (r : Ring α) : Op α → Res (Ring α)
  | .push v  => r.push v
  | .pop     => r.pop
  | .reset n => r.reset n

/-- A history of calls.  A thrown exception leaves the queue as it was (the exception of
`Pop` is raised before any member is changed). `none`: undefined behaviour. -/
def Ring.run : Ring α → List (Op α) → Option (Ring α)
  | r, [] => some r
  | r, op :: h =>
    match r.step op with
    | .ok r'      => r'.run h
    | .outOfRange => r.run h
    | .ub         => none

end Ecal.Ring
