import Verif.Farewell.Model
/-!
# What is claimed about subscribers from other localities
-/

namespace Verif.Farewell

/-- the messages that the subscription `x` is wanted which have not been taken from the queue -/
def wanting (src : Nat → Nat) (s : State) (x : Nat) : Nat := s.queue.count (.ext x) + (s.chan (src x)).count (.ext x)

/-- the messages that the subscription `x` has been removed which have not been taken from the queue -/
def leaving (src : Nat → Nat) (s : State) (x : Nat) : Nat := s.queue.count (.commit x) + (s.chan (src x)).count (.commit x)

end Verif.Farewell
