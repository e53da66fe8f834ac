/-!
# Model of localities

Sources: `src/rotor/plugin/locality.cpp:31-43`, `src/rotor/supervisor.cpp:41-51`,
`src/rotor/asio/supervisor_asio.cpp:36`, `include/rotor/address.hpp:38-53`,
`include/rotor/supervisor.h:182,445-469`.
-/

namespace Verif.Locality

/-- the `locality` pointer of an address: the root supervisor (`src/rotor/supervisor.cpp:41-47`), or
a strand (`src/rotor/asio/supervisor_asio.cpp:36`) -/
inductive Loc where
  | root (sup : Nat)
  | strand (n : Nat)
deriving DecidableEq, Repr

/-- what is fixed when a supervisor is activated: its parent, the locality of its address and its
`locality_leader`; supervisors are numbered in the order of creation -/
structure Sup where
  parent : Option Nat
  loc : Loc
  leader : Nat
deriving DecidableEq, Repr

abbrev Tree := List Sup

/-- the loop of `supervisor_t::make_address`, `src/rotor/supervisor.cpp:42-45`; a parent is created
before its children, `fuel` bounds the depth -/
def rootOf (t : Tree) : Nat → Nat → Nat
  | 0, s => s
  | fuel + 1, s => match t[s]? with
    | some ⟨some p, _, _⟩ => rootOf t fuel p
    | _ => s

/-- `make_address`: the strand of an asio supervisor (`supervisor_asio.cpp:36`), otherwise the root
supervisor (`supervisor.cpp:41-47`) -/
def locOf (strand : Option Nat) (root : Nat) : Loc :=
  match strand with
  | some n => .strand n
  | none => .root root

/-- creation of a supervisor: the address maker creates the address (`address_maker.cpp:36-41`), then
the locality plugin selects the leader (`locality.cpp:31-43`).  `strand` is given for an asio
supervisor.  The parent has to exist. -/
def create (t : Tree) (parent : Option Nat) (strand : Option Nat) : Option Tree :=
  let self := t.length
  match parent with
  | none =>
    some (t ++ [⟨none, locOf strand self, self⟩])
  | some p => match t[p]? with
    | none => none
    | some ps =>
      let loc := locOf strand (rootOf t t.length p)
      -- `use_other ? parent->locality_leader : &sup`
      let leader := if ps.loc = loc then ps.leader else self
      some (t ++ [⟨some p, loc, leader⟩])

/-- a history of creations -/
def build (t : Tree) : List (Option Nat × Option Nat) → Option Tree
  | [] => some t
  | (p, s) :: ops => match create t p s with
    | none => none
    | some t' => build t' ops

/-- what `process()` of the leader `l` does with a message for an address of supervisor `d`
(`include/rotor/supervisor.h:452-466`): dispatch it here, or hand it over to `d` -/
inductive Routing where
  | dispatch | enqueue (sup : Nat)
deriving DecidableEq, Repr

def route (t : Tree) (l d : Nat) : Option Routing :=
  match t[l]?, t[d]? with
  | some ls, some ds => some (if ds.loc = ls.loc then .dispatch else .enqueue d)
  | _, _ => none

end Verif.Locality
