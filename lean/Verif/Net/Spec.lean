import Verif.Net.Model

/-!
# What is observed of the deliveries
-/

namespace Verif.Net

/-- what was sent from locality `l`, in the order of sending -/
def sentFrom (c : Cfg) (l : Nat) (log : List Ev) : List Msg :=
  log.reverse.filterMap fun
    | .sent m => if m.src.map c.locA = some l then some m else none
    | _ => none

/-- what the loop of locality `l` has taken of the messages sent from `l`, in this order -/
def tookFrom (c : Cfg) (l : Nat) (log : List Ev) : List Msg :=
  log.reverse.filterMap fun
    | .took l' m => if l' = l ∧ m.src.map c.locA = some l then some m else none
    | _ => none

/-- what was sent from locality `l` to the address `d`, in the order of sending -/
def sentTo (c : Cfg) (l d : Nat) (log : List Ev) : List Msg :=
  log.reverse.filterMap fun
    | .sent m => if m.src.map c.locA = some l ∧ m.dest = d then some m else none
    | _ => none

/-- what the loop of the locality of `d` has taken of the messages for `d` sent from `l`, in this order -/
def tookTo (c : Cfg) (l d : Nat) (log : List Ev) : List Msg :=
  log.reverse.filterMap fun
    | .took l' m => if l' = c.locD d ∧ m.src.map c.locA = some l ∧ m.dest = d then some m else none
    | _ => none

/-- identities of the messages from actor `a` to address `d` that handler `h` has seen, in this order -/
def seen (h : Handler) (a d : Nat) (log : List Ev) : List Nat :=
  log.reverse.filterMap fun
    | .exec _ h' o => if h' = h ∧ o.src = some a ∧ o.dest = d then some o.uid else none
    | _ => none

/-- identities of the messages that actor `a` has sent to address `d`, in the order of sending -/
def sentBy (a d : Nat) (log : List Ev) : List Nat :=
  log.reverse.filterMap fun
    | .sent m => if m.src = some a ∧ m.dest = d then some m.uid else none
    | _ => none

/-- all executions of handlers in their order -/
def execs (log : List Ev) : List (Nat × Handler × Orig) :=
  log.reverse.filterMap fun
    | .exec l h o => some (l, h, o)
    | _ => none

end Verif.Net
