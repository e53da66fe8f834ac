import Verif.Locality.Model

/-! # Maximal connected groups of supervisors on one event loop -/

namespace Verif.Locality

/-- `c` is a child of `p` on the same event loop -/
def Link (t : Tree) (c p : Nat) : Prop :=
  ∃ cs ps, t[c]? = some cs ∧ t[p]? = some ps ∧ cs.parent = some p ∧ cs.loc = ps.loc

/-- connected by a chain of such links, in any direction -/
inductive Connected (t : Tree) : Nat → Nat → Prop where
  | refl (s : Nat) : s < t.length → Connected t s s
  | link (c p : Nat) : Link t c p → Connected t c p
  | symm (a b : Nat) : Connected t a b → Connected t b a
  | trans (a b c : Nat) : Connected t a b → Connected t b c → Connected t a c

/-- the topmost supervisor of its group: no link upwards -/
def Topmost (t : Tree) (s : Nat) : Prop := ∀ p, ¬ Link t s p

end Verif.Locality
