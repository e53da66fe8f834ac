import Verif.RegPlugin.Model
/-!
# What an actor that registers and discovers names is meant to do
-/

namespace Verif.RegPlugin
open Verif

/-- the names differ, and each discovery has a variable of its own -/
def Conf.Good (c : Conf) : Prop :=
  (∀ n v d b n' v' d' b', .disc n v d b ∈ c.wants → .disc n' v' d' b' ∈ c.wants → n = n' ∨ v = v' → n = n' ∧ v = v' ∧ d = d' ∧ b = b') ∧
  ∀ n a a', .reg n a ∈ c.wants → .reg n a' ∈ c.wants → a = a'

/-- executions in which the operations have a property -/
inductive Reach (c : Conf) (P : State → Op → Prop) : State → Prop where
  | init : Reach c P .init
  | step {σ σ' : State} (op : Op) : Reach c P σ → P σ op → step c σ op = .ok σ' → Reach c P σ'

/-- the user does not write to the variables -/
def NoPoke (_ : State) : Op → Prop
  | .poke _ _ => False
  | _ => True

/-- .. and no name is found at an address after the link to it has been established -/
def NoLate (σ : State) : Op → Prop
  | .poke _ _ => False
  | .discRes _ (some a) _ => Ev.linkRes a true ∉ σ.log
  | _ => True

/-- everything asked for has succeeded -/
structure AllDone (c : Conf) (l : List Ev) : Prop where
  regs : ∀ n a, .reg n a ∈ c.wants → .register n a ∈ l ∧ .regRes n true ∈ l
  disc : ∀ n v d b, .disc n v d b ∈ c.wants → ∃ a, .discRes n (some a) ∈ l ∧ .linkRes a true ∈ l
  links : ∀ a, a ∈ c.links → .linkRes a true ∈ l

/-- what the callback of a name is told: the address found is in the variable; then, the outcome of the link to this address -/
def Truthful : Ev → List Ev → Prop
  | .called n .discovering ok val, l => ok = true ∧ ∃ a, val = some a ∧ .discRes n (some a) ∈ l
  | .called n .linking ok val, l => ∃ a, val = some a ∧ .discRes n (some a) ∈ l ∧ .linkRes a ok ∈ l
  | _, _ => True

/-- the callback of a name -/
def isCall (n : Nat) (ph : Phase) : Ev → Bool
  | .called m ph' _ _ => decide (m = n ∧ ph' = ph)
  | _ => false

/-- a link request of a discovery -/
def isLinkReq (a : Nat) : Ev → Bool
  | .linkReq b (.task _) => decide (b = a)
  | _ => false

end Verif.RegPlugin
