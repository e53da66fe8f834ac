import Verif.Config.Model

/-! # Well-formed configurations -/

namespace Verif.Config

/-- the init timeout was given -/
def givesInit : Setter → Bool | .timeout _ => true | .initTimeout _ => true | _ => false
/-- the shutdown timeout was given -/
def givesShutdown : Setter → Bool | .timeout _ => true | .shutdownTimeout _ => true | _ => false
/-- the back-end setting `i` was given -/
def givesExtra (i : Nat) : Setter → Bool | .extra j => i == j | _ => false

/-- the value a setting has after the calls: the last one given, or the default -/
def lastOf {α : Type} (f : Setter → Option α) (dflt : α) : List Setter → α
  | [] => dflt
  | s :: ss => lastOf f ((f s).getD dflt) ss

/-- all required settings were given -/
def complete (extraBits : List Nat) (ss : List Setter) : Prop :=
  (∃ s ∈ ss, givesInit s) ∧ (∃ s ∈ ss, givesShutdown s) ∧ ∀ i ∈ extraBits, ∃ s ∈ ss, givesExtra i s

/-- contradictory: an external registry is given and a registry is to be created -/
def contradictory (ss : List Setter) : Prop :=
  (lastOf (fun | .registryAddress a => some a | _ => none) none ss).isSome ∧
  lastOf (fun | .createRegistry b => some b | _ => none) false ss = true

end Verif.Config
