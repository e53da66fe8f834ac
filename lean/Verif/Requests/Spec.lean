import Verif.Requests.Model

/-!
# Specification vocabulary for requests: what an observer counts in the log
-/

namespace Verif.Requests

/-- the request `i` was made -/
def isReq (i : Nat) : Ev → Bool
  | .requested _ j _ => j == i
  | _ => false

/-- the request `i` was resolved with a response -/
def isFinal (i : Nat) : Ev → Bool
  | .resolved j _ => j == i
  | _ => false

/-- the request `i` came to its end: resolved or abandoned -/
def isEnd (i : Nat) : Ev → Bool
  | .resolved j _ => j == i
  | .abandoned j => j == i
  | _ => false

/-- a response to the request `i` was handed to the handlers of the requester -/
def isDeliv (i : Nat) : Ev → Bool
  | .delivered _ (.response j _ _) => j == i
  | _ => false

/-- the callback of the user timer `i` of actor `a` was called -/
def isCall (a i : Nat) : Ev → Bool
  | .called b j _ => b == a && j == i
  | _ => false

/-- a message that is a response to the request `i` -/
def isResp (i : Nat) : Nat × Msg → Bool
  | (_, .response j _ _) => j == i
  | _ => false

/-- ordinals of the dispatched messages, in the order of dispatching (the log is newest first) -/
def delivTags : List Ev → List Nat
  | [] => []
  | .delivered t _ :: l => delivTags l ++ [t]
  | _ :: l => delivTags l

end Verif.Requests
