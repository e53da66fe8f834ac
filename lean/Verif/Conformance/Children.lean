import Verif.Children.Cases
/-!
# The scenarios of `tests/023-supervisor-children.cpp` in the model of a supervisor and its children

Each `example` replays a test of the project and compares what it checks. They are tests of the model, not proofs of properties. The numbers are the
lines of the test.
-/

namespace Verif.Children.Conformance
open Verif Verif.Children

/-- the next thing that happens in `do_process` with at most `n` children: a child gets a message; answers its init request, when `auto` says so; completes
its shutdown; sends a message; the supervisor handles a message, or completes its shutdown -/
def next (auto : Nat → Bool) (n : Nat) (σ : State) : Option Op :=
  match (List.range n).find? (fun a => !(σ.to a).isEmpty) with
  | some a => some (.kidRecv a false)
  | none =>
    match (List.range n).find? (fun a => auto a && (σ.kid a).ireq && decide ((σ.kid a).st = .initializing)) with
    | some a => some (.kidInit a true false)
    | none =>
      match (List.range n).find? (fun a => decide ((σ.kid a).st = .shuttingDown)) with
      | some a => some (.kidShut a)
      | none =>
        match (List.range n).find? (fun a => !(σ.out a).isEmpty) with
        | some a => some (.flush a)
        | none => if !σ.q.isEmpty then some (.recv yes) else if σ.closed && decide (σ.st = .shuttingDown) then some .finish else none

/-- `do_process` -/
def settle (c : Conf) (auto : Nat → Bool) : Nat → State → Except Err State
  | 0, σ => .ok σ
  | k + 1, σ =>
    match next auto 3 σ with
    | none => .ok σ
    | some op => match step c σ op with | .ok σ1 => settle c auto k σ1 | .error e => .error e

/-- operations, then `do_process` -/
def go (c : Conf) (auto : Nat → Bool) : List (List Op) → State → Except Err State
  | [], σ => .ok σ
  | ops :: rest, σ =>
    match run c σ ops with
    | .error e => .error e
    | .ok σ1 => match settle c auto 60 σ1 with | .ok σ2 => go c auto rest σ2 | .error e => .error e

/-- the states of the supervisor and of the first children -/
def sts (c : Conf) (auto : Nat → Bool) (n : Nat) (phases : List (List Op)) : Option (List AState) :=
  match go c auto phases (.init c) with
  | .ok σ => some (σ.st :: (List.range n).map (fun a => (σ.kid a).st))
  | .error _ => none

/-- a root supervisor with the policy `shutdown_self`, `shutdown_failed`; with `synchronize_start` -/
def self : Conf := ⟨true, false, true⟩
def failed : Conf := ⟨true, false, false⟩
def sync : Conf := ⟨true, true, true⟩

def all : Nat → Bool := fun _ => true
def nobody : Nat → Bool := fun _ => false
def but (x : Nat) : Nat → Bool := fun a => a != x
def c1 : List Op := [.create 0]
def c2 : List Op := [.create 0, .create 0]
/-- `confirm_init` -/
def ok (a : Nat) : List Op := [.kidInit a true false]

/-- "supervisor is not initialized, while it child did not confirmed initialization" (237) -/
example : sts self nobody 1 [c1] = some [.initializing, .initializing] := rfl
example : sts self nobody 1 [c1, ok 0] = some [.operational, .operational] := rfl
example : sts self nobody 1 [c1, ok 0, [.down]] = some [.shutDown, .shutDown] := rfl

/-- "supervisor is not initialized, while it 1 of 2 children did not confirmed initialization" (256) -/
example : sts self nobody 2 [c2] = some [.initializing, .initializing, .initializing] := rfl
example : sts self nobody 2 [c2, ok 0] = some [.initializing, .operational, .initializing] := rfl

/-- "supervisor does not starts, if a children did not initialized" (278): the init request expires; with both policies -/
example : sts self nobody 2 [c2, ok 0, [.initTmo 1]] = some [.shutDown, .shutDown, .shutDown] := rfl
example : sts failed nobody 2 [c2, ok 0, [.initTmo 1]] = some [.shutDown, .shutDown, .shutDown] := rfl

/-- "supervisor create child during init phase" (303): the child is created when the init request is handled -/
def born : Except Err State :=
  match step self (.init self) (.recv { yes with late := 1, next := false }) with | .ok σ => settle self nobody 60 σ | .error e => .error e
def two (r : Except Err State) : Option (AState × AState) := match r with | .ok σ => some (σ.st, (σ.kid 0).st) | .error _ => none
example : two born = some (.initializing, .initializing) := rfl
example : two (match born with | .ok σ => go self nobody [ok 0] σ | .error e => .error e) = some (.operational, .operational) := rfl

/-- "shutdown_failed policy" (322), "shutdown_self policy" (351) -/
example : sts failed nobody 1 [c1, [.initTmo 0]] = some [.shutDown, .shutDown] := rfl
example : sts self nobody 1 [c1, [.initTmo 0]] = some [.shutDown, .shutDown] := rfl

/-- "actor shuts self down during start => supervisor is not affected" (373) -/
example : sts self all 1 [c1, [.kidDown 0]] = some [.operational, .shutDown] := rfl
example : sts self all 1 [c1, [.kidDown 0], [.down]] = some [.shutDown, .shutDown] := rfl

/-- "actor shuts supervisor down during start" (387, 397) -/
example : sts self all 1 [c1, [.down]] = some [.shutDown, .shutDown] := rfl

/-- "actor shutdown on init_finish()" (407): it shuts the supervisor down instead of answering -/
example : sts self nobody 1 [c1, [.down]] = some [.shutDown, .shutDown] := rfl

/-- "actor shutdown on init_start()" (417, 427), "actor shutdown during init" (457): a child that is not initialized shuts itself down; the supervisor, which
is not initialized either, shuts down -/
example : sts self nobody 1 [c1, [.kidDown 0]] = some [.shutDown, .shutDown] := rfl
example : sts failed nobody 1 [c1, [.kidDown 0]] = some [.shutDown, .shutDown] := rfl

/-- "actor replies with error to init" (447) -/
example : sts self nobody 1 [c1, [.kidInit 0 false false]] = some [.shutDown, .shutDown] := rfl
example : sts failed nobody 1 [c1, [.kidInit 0 false false]] = some [.shutDown, .shutDown] := rfl

/-- "two actors shutdown during init" (476) -/
example : sts self nobody 2 [c2, [.kidDown 0, .kidDown 1]] = some [.shutDown, .shutDown, .shutDown] := rfl

/-- "double shutdown attempt (pre)" (518): the child calls `do_shutdown` when it has been asked to shut down -/
example : sts self all 1 [c1, [.down, .recv yes, .kidDown 0]] = some [.shutDown, .shutDown] := rfl

/-- "synchronized start" (615) -/
example : sts sync (but 0) 2 [c2] = some [.initializing, .initializing, .initialized] := rfl
example : sts sync (but 0) 2 [c2, ok 0] = some [.operational, .operational, .operational] := rfl

/-- "1 child is initializing, and another one started, and then shutted down" (640) -/
example : sts self (but 0) 2 [c2] = some [.initializing, .initializing, .operational] := rfl
example : sts self (but 0) 2 [c2, [.kidDown 1]] = some [.initializing, .initializing, .shutDown] := rfl
example : sts self (but 0) 2 [c2, [.kidDown 1], ok 0] = some [.operational, .operational, .shutDown] := rfl

/-! `tests/012-actor-lifetime.cpp` -/

/-- "fail initialize test" (175): the init request of a child of an operational supervisor expires -/
example : sts failed nobody 1 [[], c1] = some [.operational, .initializing] := rfl
example : sts failed nobody 1 [[], c1, [.initTmo 0]] = some [.operational, .shutDown] := rfl
/-- "double shutdown test" (202, 224) -/
example : sts self all 1 [c1, [.kidDown 0, .kidDown 0]] = some [.operational, .shutDown] := rfl
example : sts self all 1 [c1, [.down, .down]] = some [.shutDown, .shutDown] := rfl
/-- "autoshutdown supervisor" (240), "escalate failure" (258): the child triggers the shutdown of the supervisor when its own begins -/
example : sts self all 1 [c1, [.kidDown 0, .flush 0, .recv yes, .kidRecv 0 false, .escalate]] = some [.shutDown, .shutDown] := rfl

end Verif.Children.Conformance
