import Verif.AsioGuard.Model

/-! # What `guard_context` is to do -/

namespace Verif.AsioGuard

/-- what the `io_context` looks like after some steps of all threads, in any order -/
def Reachable (σ : State) : Prop := ∃ ls, run .init ls = some σ

/-- a supervisor made with `guard_context` has neither been through `shutdown_finish` nor been destroyed -/
def Guarded (σ : State) : Prop := ∃ s, (s, true) ∈ σ.made ∧ s ∉ σ.over

/-- no handler is to be called, no timer is waiting, no closure has begun -/
def Idle (σ : State) : Prop := σ.pending = [] ∧ σ.waits = [] ∧ σ.running = []

/-- steps of the loop itself: it takes a handler, a closure goes on or returns, time passes -/
def Label.own : Label → Bool
  | .begin _ | .pop _ | .ended _ | .expire _ => true
  | _ => false

end Verif.AsioGuard
