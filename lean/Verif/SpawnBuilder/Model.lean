import Verif.Spawner.Model
/-!
# The object returned by `supervisor_t::spawn`

Sources: `include/rotor/spawner.h:30-72`, `src/rotor/spawner.cpp:21-52`, `src/rotor/supervisor.cpp:151`, `src/rotor/plugin/child_manager.cpp:483-491`.

`spawner_t` has a destructor and declares no copy or move constructor: the compiler generates the copying one, and an initialisation from the
result of a setter (`spawner_t &&`) copies (`spawner.h:31`; C++ rules [class.copy.ctor]). The result of `supervisor_t::spawn` itself is
not copied (guaranteed elision).

Objects are numbered in the order of their creation. Every use of an object that does not exist (any more) is not possible.
-/

namespace Verif.SpawnBuilder
open Verif.Spawner

/-- the fields of `spawner_t`, `spawner.h:60-67`; `factory`: which one, none when it has been moved out; `alive`: the destructor has not run -/
structure Obj where
  factory : Option Nat
  cfg : Cfg
  done : Bool
  alive : Bool
deriving DecidableEq, Repr

/-- `restart_period`, `restart_policy`, `max_attempts`, `escalate_failure`, `spawner.cpp:26-44` -/
inductive Setter where
  | period (d : Int)
  | policy (p : Policy)
  | attempts (n : Nat)
  | escalate (b : Bool)
deriving DecidableEq, Repr

/-- what `child_manager_plugin_t::spawn` is called with, `child_manager.cpp:483-491`; `by`: the object that has called it. It creates a record
with an address of its own and sends `spawn_actor_t`: one spawner for each call -/
structure Call where
  by_ : Nat
  factory : Option Nat
  cfg : Cfg
deriving DecidableEq, Repr

/-- calls newest first -/
structure State where
  objs : List Obj
  calls : List Call
deriving DecidableEq, Repr

def State.init : State := ⟨[], []⟩

/-- the default values, `spawner.h:62-66` -/
def Cfg.default : Cfg := ⟨.normalOnly, 15, 0, false⟩

/-- the setters, `spawner.cpp:26-44` -/
def apply (c : Cfg) : Setter → Cfg
  | .period d => { c with period := d }
  | .policy p => { c with policy := p }
  | .attempts n => { c with maxAttempts := n }
  | .escalate b => { c with escalateFailure := b }

/-- `spawner_t::spawn`, `spawner.cpp:46-52`, of object `i` -/
def spawn (s : State) (i : Nat) (o : Obj) : State :=
  if o.done then s
  else ⟨s.objs.set i { o with done := true, factory := none }, ⟨i, o.factory, o.cfg⟩ :: s.calls⟩

inductive Op where
  /-- `sup.spawn(factory)`, `supervisor.cpp:151`, `spawner.cpp:21-22` -/
  | create (f : Nat)
  /-- a variable is initialised from the object, or from the result of one of its setters -/
  | copy (i : Nat)
  | set (i : Nat) (x : Setter)
  | spawn (i : Nat)
  /-- the destructor, `spawner.cpp:24` -/
  | destroy (i : Nat)
deriving DecidableEq, Repr

/-- the object, if it is alive -/
def live (s : State) (i : Nat) : Option Obj :=
  match s.objs[i]? with
  | some o => if o.alive then some o else none
  | none => none

def step (s : State) : Op → Option State
  | .create f => some { s with objs := s.objs ++ [⟨some f, Cfg.default, false, true⟩] }
  | .copy i => match live s i with
    | some o => some { s with objs := s.objs ++ [o] }
    | none => none
  | .set i x => match live s i with
    | some o => some { s with objs := s.objs.set i { o with cfg := apply o.cfg x } }
    | none => none
  | .spawn i => match live s i with
    | some o => some (spawn s i o)
    | none => none
  | .destroy i => match live s i with
    | some o =>
      let t := spawn s i o
      some { t with objs := t.objs.set i ⟨none, o.cfg, true, false⟩ }
    | none => none

def run (s : State) : List Op → Option State
  | [] => some s
  | op :: ops => match step s op with
    | some t => run t ops
    | none => none

end Verif.SpawnBuilder
