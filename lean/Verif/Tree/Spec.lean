import Verif.Children.Spec
import Verif.Tree.Model
/-!
# What is claimed about a tree of supervisors
-/

namespace Verif.Tree
open Verif Verif.Children

/-- nothing is going on in the tree: no message is on its way, no supervisor is about to finish its shutdown, and no other actor is about
to answer an init request, or is shutting down -/
structure Settled (s : Sys) (T : Tree) : Prop where
  quiet : ∀ p, Member s T p → Quiet (T p)
  done : ∀ p, Member s T p → ∀ σ', step (s.conf p) (T p) .finish ≠ .ok σ'
  leaf : ∀ p a, Member s T p → s.sup (a :: p) = false → ¬ Busy (T p) a ∧ ((T p).kid a).st ≠ .shuttingDown

/-- the states of all actors of the tree: the supervisors, and the children of the supervisors -/
def All (s : Sys) (T : Tree) (P : AState → Prop) : Prop :=
  ∀ p, Member s T p → P (T p).st ∧ ∀ a, ((T p).kid a).born = true → P ((T p).kid a).st

end Verif.Tree
