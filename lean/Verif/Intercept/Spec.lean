import Verif.Intercept.Model
/-!
# What is expected of tags
-/

namespace Verif.Intercept

/-- the handlers subscribed, in order, and whether the address is foreign -/
def subscribed (ops : List Op) : List (Base × Bool) := ops.filterMap (fun o => match o with | .subscribe b f => some (b, f) | _ => none)

/-- how many subscriptions there are, and the tag said last about subscription `i` -/
def tagStep (i : Nat) (acc : Nat × Option Nat) : Op → Nat × Option Nat
  | .subscribe _ _ => (acc.1 + 1, acc.2)
  | .tag j t => if j = i ∧ i < acc.1 then (acc.1, some t) else acc
  | _ => acc

/-- the tag said last about subscription `i`, since it exists -/
def lastTag (ops : List Op) (i : Nat) : Option Nat := (ops.foldl (tagStep i) (0, none)).2

/-- how often a supervisor continues -/
def Sup.times : Sup → Option Nat → Nat
  | .custom f, some t => f t
  | _, _ => 1

/-- only a supervisor of the thread backend treats blocking handlers in a special way -/
def Sup.blocks : Sup → Option Nat → Bool
  | .thread, some t => t == io
  | _, _ => false

/-- what is to be seen, oldest first, when handler `b` with tag `t` gets message `m` -/
def expected (sup : Sup) (b : Base) (t : Option Nat) (m : Msg) : List Event :=
  if m.ty = b.ty then
    (match t with | some t => [.told t m.id] | none => []) ++
    (if sup.blocks t then [.checked] else []) ++
    List.replicate (sup.times t) (.ran b.body m.id (sup.blocks t)) ++
    (if sup.blocks t then [.checked] else [])
  else []

end Verif.Intercept
