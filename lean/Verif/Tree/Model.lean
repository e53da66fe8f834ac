import Verif.Children.Model
/-!
# A tree of supervisors

Every supervisor of the tree is one of `Verif.Children`; a member is found by the way to it, the address of the member itself first.
A child of a supervisor may be a supervisor of the tree (`Sys.sup`) or any other actor. The messages between a supervisor
and a child that is a supervisor, too, go through the queues of the parent (`to`, `out`): what the parent has to know about
such a child is what the child is (`mirror`), and the child sends what `report` says.

Sources: as for `Verif.Children`; `src/rotor/supervisor.cpp:53-67` (`do_initialize`: the parent of a supervisor is its
supervisor, `on_initialization` of the root), `actor_base.cpp:35-46` (`do_shutdown` sends the trigger to the parent),
`actor_base.cpp:97-101` (response to the init request), `actor_base.cpp:121-145` (to the shutdown request).

Simplification: as in `Verif.Children`, messages of a child arrive in their order, but possibly later.
-/

namespace Verif.Tree
open Verif Verif.Children

abbrev Path := List Nat

/-- which members are supervisors, and how they are configured -/
structure Sys where
  sup : Path → Bool
  sync : Path → Bool
  selfPolicy : Path → Bool

def Sys.conf (s : Sys) (p : Path) : Conf := ⟨p.isEmpty, s.sync p, s.selfPolicy p⟩

/-- the supervisors of the tree -/
abbrev Tree := Path → State

def Tree.init (s : Sys) : Tree := fun p => .init (s.conf p)

/-- the supervisor has been created -/
def Member (s : Sys) (T : Tree) : Path → Prop
  | [] => True
  | a :: p => Member s T p ∧ s.sup (a :: p) = true ∧ ((T p).kid a).born = true

def put (T : Tree) (p : Path) (σ : State) : Tree := fun x => if x = p then σ else T x

/-- the number of answers to the init request -/
def answers (σ : State) : Nat := σ.initOks + σ.initFails

/-- a supervisor as a child -/
def mirror (σ : State) : Kid where
  born := true
  st := σ.st
  ireq := σ.initReq
  asked := σ.initReq || decide (0 < answers σ)
  ans := decide (0 < answers σ)
  want := decide (0 < σ.wants)

/-- the messages a supervisor sends to its parent in a step: triggers (`actor_base.cpp:38-43`), the answer to the init request
(`actor_base.cpp:97-101`, `child_manager.cpp:112-114`), the answer to the shutdown request (`actor_base.cpp:134-140`). In the order of the code:
`remove_child` tells the parent first that it wants to be shut down, and then may go on with its initialization. -/
def report (σ σ' : State) : List KM :=
  List.replicate (σ'.wants - σ.wants) .trigger ++ (if σ'.initFails = σ.initFails then [] else [.initRes false]) ++
    (if σ'.initOks = σ.initOks then [] else [.initRes true]) ++ (if σ'.st = .shutDown ∧ σ.st ≠ .shutDown then [.shutRes] else [])

/-- the parent `τ` when its child `a` changes -/
def seen (a : Nat) (σ σ' : State) (τ : State) : State :=
  { τ with
    kid := upd τ.kid a (mirror σ')
    out := upd τ.out a (τ.out a ++ report σ σ') }

/-- a supervisor changes -/
def change (T : Tree) (p : Path) (σ' : State) : Tree :=
  match p with
  | [] => put T [] σ'
  | a :: p' => put (put T p' (seen a (T (a :: p')) σ' (T p'))) (a :: p') σ'

/-- the operations of `Verif.Children` that are steps of the tree on their own: not those of the parent, and not those of a child that is in
the tree itself -/
def Own (s : Sys) (p : Path) (σ : State) : Op → Prop
  | .pInit _ | .pStart | .pShut _ => False
  | .kidRecv a _ | .kidInit a _ _ | .kidDown a | .kidShut a => s.sup (a :: p) = false ∨ (σ.kid a).born = false
  | _ => True

/-- a message of the parent is an operation of the child -/
def opOf (o : Ora) : Dn → Op
  | .initReq => .pInit o
  | .start => .pStart
  | .shutReq => .pShut o

/-- the parent's queue without its first message to `a` -/
def taken (a : Nat) (τ : State) : State := { τ with to := upd τ.to a (τ.to a).tail }

end Verif.Tree
