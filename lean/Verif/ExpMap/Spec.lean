import Verif.ExpMap.Model

/-!
# Specification of an expiring table

A table is a partial function from keys to (value, time of last refresh).  Reading this
file needs nothing from the implementation except the names of the operations.
-/

namespace Ecal.ExpMap

variable {K V : Type} [DecidableEq K]

/-- Abstract table. -/
abbrev Table (K V : Type) := K → Option (V × Int)

/-- What each call should do at time `now`. -/
def specStep (timeout : Int) (dflt : V) (t : Table K V) (now : Int) : Op K V → Table K V
  | .access k => fun x => if x = k then
      some (match t k with | some (v, _) => (v, now) | none => (dflt, now)) else t x
  | .assign k v => fun x => if x = k then some (v, now) else t x
  | .insert k v => fun x => if x = k then
      (match t k with | some p => some p | none => some (v, now)) else t x
  | .erase k => fun x => if x = k then none else t x
  | .eraseExpired => fun x =>
      match t x with
      | some (v, r) => if r < now - timeout then none else some (v, r)
      | none => none
  | .clear => fun _ => none

/-- The table after a history. -/
def specRun (timeout : Int) (dflt : V) : Table K V → List (Int × Op K V) → Table K V
  | t, [] => t
  | t, (now, op) :: h => specRun timeout dflt (specStep timeout dflt t now op) h

/-- The clock never goes backwards in the history (`steady_clock`). -/
def MonotoneFrom : Int → List (Int × Op K V) → Prop
  | _, [] => True
  | t0, (now, _) :: h => t0 ≤ now ∧ MonotoneFrom now h

/-- The history never calls the public `insert` for a key already present in the table. -/
def NoReinsert (timeout : Int) (dflt : V) : Table K V → List (Int × Op K V) → Prop
  | _, [] => True
  | t, (now, op) :: h =>
    (∀ k v, op = .insert k v → t k = none) ∧ NoReinsert timeout dflt (specStep timeout dflt t now op) h

end Ecal.ExpMap
