import Verif.Desc.Model

/-!
# What the description queries should return

Stated on the history of calls only: the latest thing announced about an entity.
-/

namespace Ecal.Desc

/-- The latest announcement about the publisher/subscriber `(name, id)`: its type and the
time, or `none` if there was none or the latest one was an unregistration. -/
def lastTopic (pub : Bool) (name : String) (id : Nat) :
    List (Int × Op) → Option (DataType × Int) → Option (DataType × Int)
  | [], acc => acc
  | (t, .apply (.regTopic p i n ty)) :: h, acc =>
    lastTopic pub name id h (if p = pub ∧ n = name ∧ stoull i = some id then some (ty, t) else acc)
  | (_, .apply (.unregTopic p i n)) :: h, acc =>
    lastTopic pub name id h (if p = pub ∧ n = name ∧ stoull i = some id then none else acc)
  | _ :: h, acc => lastTopic pub name id h acc

/-- The last entry for method `m` in a list of methods. -/
def lastNamed (m : String) : List Method → Option Method → Option Method
  | [], acc => acc
  | x :: xs, acc => lastNamed m xs (if x.name = m then some x else acc)

/-- The latest announcement about method `m` of server/client `(name, id)`. -/
def lastMethod (server : Bool) (name m : String) (id : Nat) :
    List (Int × Op) → Option (Method × Int) → Option (Method × Int)
  | [], acc => acc
  | (t, .apply (.regService s i n ms)) :: h, acc =>
    lastMethod server name m id h
      (if s = server ∧ n = name ∧ stoull i = some id then
        (match lastNamed m ms none with
         | some x => some (x, t)
         | none => acc)
       else acc)
  | (_, .apply (.unregService s i n)) :: h, acc =>
    lastMethod server name m id h (if s = server ∧ n = name ∧ stoull i = some id then none else acc)
  | _ :: h, acc => lastMethod server name m id h acc

/-- The clock of the history does not run backwards and ends not after `now`. -/
def Clock : Int → List (Int × Op) → Int → Prop
  | t0, [], now => t0 ≤ now
  | t0, (t, _) :: h, now => t0 ≤ t ∧ Clock t h now

/-- The sample can be processed: its entity id is a number (not needed for a service
without methods and for other samples). -/
def Numeric : Op → Prop
  | .apply (.regTopic _ i _ _) => (stoull i).isSome
  | .apply (.unregTopic _ i _) => (stoull i).isSome
  | .apply (.regService _ i _ ms) => ms ≠ [] → (stoull i).isSome
  | .apply (.unregService _ i _) => (stoull i).isSome
  | _ => True

end Ecal.Desc
