/-!
# Which registry an actor uses

Sources: `src/rotor/supervisor.cpp:25-32, 53-67`, `include/rotor/supervisor_config.h:134-140`, `src/rotor/plugin/child_manager.cpp:65-82`
(the user creates children in `configure` of the child manager), `src/rotor/plugin/child_manager.cpp:176-199` (`create_child`),
`include/rotor/supervisor.h:240, 622-634`. An actor asks `get_supervisor().get_registry_address()` (`plugin/registry.cpp:60, 122, 133, 156,
263, 276`).

Any number of supervisors, created in any order: from outside, or by the user's `configure`, which runs in the middle of `do_initialize` of
another supervisor (and may create supervisors anywhere in the tree). Simplification: actors that are not supervisors are left out, but for
the registries.
-/

namespace Verif.RegTree

/-- an address of a registry: one the user has made elsewhere, or that of the registry `create_registry` makes for the supervisor -/
inductive Addr where
  | user (k : Nat)
  | own (s : Nat)
deriving DecidableEq, Repr

/-- `supervisor_config_t`: `registry_address`, `create_registry` (`supervisor_config.h:31, 42`) -/
structure Cfg where
  given : Option Addr
  create : Bool
deriving DecidableEq, Repr

/-- `validate`, `supervisor_config.h:134-140` -/
def Cfg.valid (c : Cfg) : Bool := !(c.given.isSome && c.create)

/-- a supervisor. `reg`: `registry_address`; `done`: `do_initialize` is over; `early`: it was created while `do_initialize` of its parent
was running (only recorded) -/
structure Sup where
  parent : Option Nat
  cfg : Cfg
  reg : Option Addr
  done : Bool
  early : Bool
deriving DecidableEq, Repr

/-- `sups`: the supervisors, by number; `stack`: those whose `do_initialize` is running, the innermost first -/
structure State where
  n : Nat
  sups : Nat → Option Sup
  stack : List Nat

def State.init : State := ⟨0, fun _ => none, []⟩

/-- update of a function -/
def upd (f : Nat → Option Sup) (i : Nat) (v : Sup) : Nat → Option Sup := fun j => if j = i then some v else f j

inductive Op where
  /-- `create_supervisor` (no parent) or `create_actor` on a supervisor, up to `configure` of the plugins: constructor
  (`supervisor.cpp:25-32`) and the beginning of `do_initialize` (`supervisor.cpp:53-59`) -/
  | start (parent : Option Nat) (cfg : Cfg)
  /-- the rest of `do_initialize`, `supervisor.cpp:60-66` -/
  | finish
deriving DecidableEq, Repr

/-- `registry_address` of the parent -/
def regOf (σ : State) (p : Option Nat) : Option Addr :=
  match p with
  | none => none
  | some p => match σ.sups p with
    | none => none
    | some x => x.reg

/-- lines 60-66 of `supervisor.cpp` -/
def resolve (σ : State) (s : Nat) (x : Sup) : Option Addr :=
  let r := if x.cfg.create then some (.own s) else x.reg
  match r with
  | some a => some a
  | none => regOf σ x.parent

/-- `do_initialize` of the parent is running -/
def running (σ : State) (p : Option Nat) : Bool :=
  match p with
  | none => false
  | some p => decide (p ∈ σ.stack)

def step (σ : State) : Op → Option State
  | .start p c =>
    if c.valid then
      if (∀ q, p = some q → q < σ.n) then
        some { n := σ.n + 1, sups := upd σ.sups σ.n ⟨p, c, c.given, false, running σ p⟩, stack := σ.n :: σ.stack }
      else none
    else some σ
  | .finish =>
    match σ.stack with
    | [] => none
    | s :: t => match σ.sups s with
      | none => none
      | some x => some { σ with sups := upd σ.sups s { x with reg := resolve σ s x, done := true }, stack := t }

def run : State → List Op → Option State
  | σ, [] => some σ
  | σ, op :: ops => match step σ op with
    | none => none
    | some σ' => run σ' ops

end Verif.RegTree
