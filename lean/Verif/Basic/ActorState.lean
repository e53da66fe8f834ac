/-! # `state_t`, `include/rotor/state.h` -/

namespace Verif

/-- `enum class state_t`, `include/rotor/state.h:17-25` -/
inductive AState where
  | unknown | new | initializing | initialized | operational | shuttingDown | shutDown
deriving DecidableEq, Repr

/-- position in the enumeration, used by `<`, `<=`, `>=` on states -/
def AState.rank : AState → Nat
  | .unknown => 0 | .new => 1 | .initializing => 2 | .initialized => 3
  | .operational => 4 | .shuttingDown => 5 | .shutDown => 6

end Verif
