import Verif.TextMaker.Model
/-!
# The stringifier of a system context: when the user may ask for it
-/

namespace Verif.TextMaker

/-- a call of the user, or the creation of a root supervisor, begins before everything else or when somebody has got the
stringifier -/
def calmStep (s : State) : Op → Prop
  | .create _ => (∀ j, s.pc j = .idle) ∨ s.root ≠ none ∨ ∃ j o, s.pc j = .done o
  | .call _ => (∀ j, s.pc j = .idle) ∨ ∃ j o, s.pc j = .done o
  | _ => True

/-- this holds whenever one begins -/
def Calm : State → List Op → Prop
  | _, [] => True
  | s, op :: ops => calmStep s op ∧ ∀ s1, step s op = .ok s1 → Calm s1 ops

/-- the user does not ask -/
def Unasked (ops : List Op) : Prop := ∀ k, Op.call k ∉ ops

end Verif.TextMaker
