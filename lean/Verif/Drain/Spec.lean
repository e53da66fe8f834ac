import Verif.Drain.Model

/-!
# What is claimed about messages left over
-/

namespace Verif.Drain

/-- it is referred to by a wrapped call for a handler of an actor of `s`, in a queue or in the hands of a loop -/
def Wrapped (σ : State) (m s : Nat) : Prop := ∃ l, (l, Msg.call m s) ∈ σ.inb ∨ (l, Msg.call m s) ∈ σ.queue ∨ (l, Msg.call m s) ∈ σ.cur

/-- nothing refers to it -/
def Unheld (σ : State) (m : Nat) : Prop := m ∉ σ.vars ∧ (∀ e ∈ σ.inb, e.2.of ≠ m) ∧ (∀ e ∈ σ.queue, e.2.of ≠ m) ∧ (∀ e ∈ σ.cur, e.2.of ≠ m)

/-- the condition on the destruction of supervisors and contexts: no wrapped call is left that would send a message on through them -/
def Calm (c : Cfg) (σ : State) : Op → Prop
  | .destroy s => ∀ m s', Wrapped σ m s' → σ.route m = true → s' ≠ s ∧ c.box s' ≠ s
  | .close r => c.locks = true → ∀ m s', Wrapped σ m s' → σ.route m = true → c.root s' ≠ r
  | _ => True

/-- `P` holds before every step -/
def Along (c : Cfg) (P : State → Op → Prop) (σ : State) : List Op → Prop
  | [] => True
  | op :: ops =>
    P σ op ∧ match step c σ op with
      | .ok σ' => Along c P σ' ops
      | .error _ => True

def isFreed (m : Nat) : Ev → Bool
  | .freed x _ => decide (x = m)
  | _ => false

end Verif.Drain
