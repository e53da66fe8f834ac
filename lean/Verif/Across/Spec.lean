import Verif.Across.Model
/-!
# Requests between event loops: what is claimed of the log
-/

namespace Verif.Across

/-- an actor is in the locality of its supervisor -/
def Cfg.Good (c : Cfg) : Prop := ∀ a, c.loc (c.supOf a) = c.loc a

/-- responses for actors of the locality `K` are asked for there, as with `request` -/
def Own (c : Cfg) (K : Nat) (ops : List Op) : Prop := ∀ a b o, Op.request a b o ∈ ops → c.loc o = K → c.loc a = K

/-- how many responses to the request `n` of `s` were seen -/
def responses (s n : Nat) : List Ev → Nat
  | [] => 0
  | .got ⟨.response s' n' _ _, _, _⟩ :: l => (if s' = s ∧ n' = n then 1 else 0) + responses s n l
  | _ :: l => responses s n l

/-- the first `k` operations of an execution that does not end -/
def upto (f : Nat → Op) (k : Nat) : List Op := (List.range k).map f

/-- every event loop goes on: again and again it takes a message from its queue and looks into its inbound queue -/
def Fair (c : Cfg) (f : Nat → Op) : Prop := ∀ a k, (∃ d, f (k + d) = .turn (c.loc a)) ∧ ∃ d, f (k + d) = .take (c.loc a)

end Verif.Across
