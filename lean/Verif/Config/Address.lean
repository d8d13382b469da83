import Verif.Config.Yaml
import Verif.Udp.Mcast

/-!
# Address and number settings

Code modelled: `/repo/ecal/core/src/types/ecal_custom_data_types.cpp` L46-82 (`IpAddressV4`: constructor,
assignment, `Get`), the regular expressions are `Ecal.Config.ipValid` in `Verif/Config/Yaml.lean`;
`/repo/ecal/core/include/ecal/types/ecal_custom_data_types.h` L81-104 (`ConstrainedInteger`).
-/

namespace Ecal.Config

/-- `IpAddressV4::operator=` on an object holding `old`: the new content and whether an exception is
thrown. -/
def assignIp (old new : List Char) : List Char × Bool :=
  if ipValid new then (new, false) else (old, true)

inductive CiResult where
  | value (v : Int)
  | thrown
  | ub                   -- remainder with divisor 0
deriving DecidableEq, Repr

/-- `ConstrainedInteger<MIN, STEP, MAX>::ConstrainedInteger` (L84-94): the conditions are evaluated from
left to right, `%` truncates.  (`int` values; the remainder of the least `int` by -1 is not modelled.) -/
def constrained (min step max v : Int) : CiResult :=
  if min ≤ v then
    if v ≤ max then
      if step = 0 then .ub
      else if Int.tmod v step = 0 then
        if min ≤ max then .value v else .thrown
      else .thrown
    else .thrown
  else .thrown

end Ecal.Config
