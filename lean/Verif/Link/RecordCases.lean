import Verif.Link.Records
import Verif.Link.Cases
/-!
# Cases of the theorems of `Verif.Link.Records`
-/

namespace Verif.Link
open Verif

/-- C43: the client considers itself linked with server 0, server 1 keeps its request -/
example : after .strict setup (fun σ => cliLinked (σ.hist 2 0) && decide ((σ.act 2).servers.find 0 = some .operational) &&
    decide (srvRec (σ.hist 2 0) = some none) && decide ((σ.act 0).clients.find 2 = some .operational) &&
    decide (srvRec (σ.hist 2 1) = some (some 1)) && decide ((σ.act 1).clients.find 2 = some (.pending 1 true))) = true := by decide

/-- C43: server 0 waits for the answer of its client -/
example : after .strict (linked ++ [.shutdown 0 true yes]) (fun σ => decide (σ.ureq 0 2 = [2] ∧ (σ.act 0).clients.find 2 = some (.unlinking 2))) = true := by
  decide

/-- C40: before and after a shutdown request -/
example : after .strict linked (fun σ => decide ((σ.act 0).st = .operational)) = true := by decide
example : after .strict (linked ++ [.shutdown 0 true yes]) (fun σ => decide ((σ.act 0).st = .shuttingDown)) = true := by decide

/-- C42: before an init request -/
example : after .strict [.init 0 [] yes] (fun σ => decide ((σ.act 2).st = .initializing ∧ (σ.act 2).asked = false)) = true := by decide
/-- and an actor may link itself with a server it has no link with -/
example : after .strict linked (fun σ => decide ((σ.act 1).st = .operational ∧ (σ.act 1).servers.find 0 = none)) = true := by decide

/-- C41: the timer of a link request expires when the server has confirmed it; the client asks once more, and is refused, as the server
has it on record -/
example : after .any [.init 0 [] yes, .start 0, .init 1 [] yes, .start 1, .link 1 0 false, .up 1 0 yes, .timeoutL 1 0 0, .ltmo 1 0 yes, .dn 0 1 yes,
      .link 1 0 false, .up 1 0 yes]
    (fun σ => decide (σ.hist 1 0 = [.answered 1 false false .operational, .asked 1 .operational, .known 0 false, .answered 0 true false .operational,
      .asked 0 .operational] ∧ σ.dn 0 1 = [.linkRes 1 false])) = true := by decide

end Verif.Link
