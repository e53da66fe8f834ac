import Verif.Resources.Model

/-! # What acquiring and releasing means: a balance per resource id -/

namespace Verif.Resources

/-- acquisitions of `id` that have not been released, after a history (oldest call first) -/
def balance (id : Nat) : List Op → Int
  | [] => 0
  | .acquire _ i :: ops => (if i = id then 1 else 0) + balance id ops
  | .release _ _ _ i :: ops => (if i = id then -1 else 0) + balance id ops

/-- every release is preceded by its acquisition: no prefix of the history has a negative balance -/
def legal (ops : List Op) : Prop := ∀ n id, 0 ≤ balance id (ops.take n)

/-- number of acquisitions in a history -/
def acquisitions : List Op → Nat
  | [] => 0
  | .acquire _ _ :: ops => 1 + acquisitions ops
  | .release .. :: ops => acquisitions ops

/-- all ids are representable indices -/
def idsInRange (ops : List Op) : Prop :=
  ∀ op ∈ ops, match op with | .acquire _ id => id + 1 < 2 ^ 64 | .release _ _ _ id => id + 1 < 2 ^ 64

/-- some resource is held after the history -/
def holds (ops : List Op) : Prop := ∃ id, 0 < balance id ops

/-- the calls of the user in a history with polls -/
def opsOf : List Call → List Op
  | [] => []
  | .op o :: cs => o :: opsOf cs
  | .pollInit :: cs => opsOf cs
  | .pollShutdown :: cs => opsOf cs

/-- the state of the actor a call was made in -/
def Op.state : Op → AState
  | .acquire st _ => st
  | .release st _ _ _ => st

end Verif.Resources
