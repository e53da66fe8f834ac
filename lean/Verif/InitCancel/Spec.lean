import Verif.InitCancel.Model
/-!
# Taking back the request for initialization: words for the statements
-/

namespace Verif.InitCancel
open Verif

/-- a supervisor whose parent is in another locality -/
def Apart (c : Cfg) (s : Nat) : Prop := ∃ p, c.parent s = some p ∧ c.loc p ≠ c.loc s

/-- the number of ends of `n` in the log -/
def ends (s n : Nat) (log : List Ev) : Nat :=
  log.countP (fun e => match e with | .ended s' n' _ _ => decide (s' = s ∧ n' = n) | _ => false)

/-- the request or timer `n` of `s` is still waited for -/
def Waits (s n : Nat) (w : What) (σ : State) : Prop := AMap.find (σ.timers s) n = some w

end Verif.InitCancel
