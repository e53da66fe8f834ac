import Verif.Children.Trigger
import Verif.Children.Cases
/-!
# Cases of the theorems of `Verif.Children.Cause` and `Verif.Children.Trigger`
-/

namespace Verif.Children
open Verif

/-- C36: of two running children one shuts itself down; it is asked to, the other one is not, and the supervisor runs on -/
example : after cU .strict (ready ++ [r, r, .kidDown 0, .flush 0])
    (fun σ => decide (σ.q = [.kid 0 .trigger] ∧ σ.nShut 0 = 0 ∧ σ.nShut 1 = 0 ∧ σ.st = .operational)) = true := by decide
example : after cU .strict (ready ++ [r, r, .kidDown 0, .flush 0, r])
    (fun σ => decide (σ.nShut 0 = 1 ∧ σ.nShut 1 = 0 ∧ σ.st = .operational)) = true := by decide

/-- C36: one child fails to initialize; it is to be shut down, the other one is not -/
example : after cF .strict (two ++ [.kidInit 0 false false, .flush 0, r])
    (fun σ => decide (σ.q = [.kid 0 .trigger])) = true := by decide
example : after cF .strict (two ++ [.kidInit 0 false false, .flush 0, r, r])
    (fun σ => decide (σ.nShut 0 = 1 ∧ σ.nShut 1 = 0)) = true := by decide

/-- C37: with `synchronize_start` a child is started when the supervisor starts, otherwise at its answer -/
example : after cS .strict ready (fun σ => decide (σ.starts = 0 ∧ σ.nStart 0 = 0)) = true := by decide
example : after cS .strict (ready ++ [r, r]) (fun σ => decide (σ.starts = 1 ∧ σ.nStart 0 = 1)) = true := by decide
example : after cU .strict (two ++ [.kidInit 0 true false, .flush 0, r]) (fun σ => decide (σ.starts = 0 ∧ σ.nStart 0 = 1)) = true := by decide

/-- C37: the root supervisor has started -/
example : after cU .strict (ready ++ [r, r]) (fun σ => decide (σ.q = [] ∧ σ.st = .operational)) = true := by decide

/-- C35: the root supervisor has been told to shut down -/
example : after cU .strict (ready ++ [r, r, .down, r]) (fun σ => decide (σ.q = [] ∧ σ.st = .shuttingDown)) = true := by decide

/-- C58: the instance of a spawner has shut itself down, and the spawner waits for its timer -/
example : after cS .strict (spawned ++ [.kidDown 2, .flush 2, r, .kidRecv 2 false, .kidShut 2, .flush 2, r])
    (fun σ => decide (σ.q = [] ∧ σ.st = .operational) && σ.recs.any (fun p => !p.2.act && p.2.info.timer && p.2.info.active)) = true := by decide

end Verif.Children
