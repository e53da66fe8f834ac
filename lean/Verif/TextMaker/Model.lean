/-!
# The stringifier of a system context that threads share

Sources: `src/rotor/system_context.cpp:52-61`, `include/rotor/supervisor.h:351-365`, `src/rotor/plugin/delivery.cpp:28-37`,
`src/rotor/plugin/child_manager.cpp:176-201`, `include/rotor/system_context.h:46, 70-83`.

A system context makes its stringifier when it is asked for it first, without a lock. It is asked by the delivery plugin of each supervisor,
when the plugin is activated, in whatever thread the supervisor is created, and by the user, in any thread. The plugin keeps a plain
pointer and uses it for each message it prints.

Simplifications:
* reading the pointer, making a stringifier and assigning it are one step each; a thread may be interrupted between them. (In C++ a read
  and an assignment at the same time are undefined behaviour already; here the worst that comes of it is that an object is destroyed
  while somebody refers to it.)
* activities are numbered: the activation of the delivery plugin of the supervisor `k`, or the call `k` of the user;
* of the activation of a supervisor only this plugin is kept. A supervisor creates children when its child manager is there
  (`child_manager.cpp:67`), which is activated after the delivery plugin (`supervisor.h:77-87`);
* the context lives as long as it is used; its end is C78. The error of a second root supervisor terminates the program, unless the user has
  overridden `on_error` (`system_context.cpp:28-35`); here it is only recorded.
-/

namespace Verif.TextMaker

/-- where an activity is in `get_stringifier`, `system_context.cpp:52-57` -/
inductive PC where
  | idle
  /-- before line 53 -/
  | start
  /-- before line 54: there was none -/
  | empty
  /-- in line 54: the new one is not assigned yet -/
  | made (o : Nat)
  /-- before line 56 -/
  | ret
  /-- has got a reference -/
  | done (o : Nat)
deriving DecidableEq, Repr

inductive Err where
  /-- a destroyed object, or none, is used -/
  | fault
  /-- what the library does not do -/
  | illegal
deriving DecidableEq, Repr

structure State where
  /-- `system_context_t::stringifier` -/
  ptr : Option Nat
  /-- how many were made; they are numbered from 0 -/
  count : Nat
  dead : List Nat
  /-- `system_context_t::supervisor` -/
  root : Option Nat
  /-- supervisors that were not taken, `supervisor.h:355-358` -/
  refused : List Nat
  pc : Nat → PC

def State.init : State := { ptr := none, count := 0, dead := [], root := none, refused := [], pc := fun _ => .idle }

def upd {α : Type} (f : Nat → α) (k : Nat) (v : α) : Nat → α := fun x => if x = k then v else f x

/-- the next step of `get_stringifier`, `system_context.cpp:52-57`. The assignment destroys the object that was there (`std::unique_ptr`) -/
def advance (k : Nat) (s : State) : Except Err State :=
  match s.pc k with
  | .start => .ok { s with pc := upd s.pc k (if s.ptr = none then .empty else .ret) }
  | .empty => .ok { s with count := s.count + 1, pc := upd s.pc k (.made s.count) }
  | .made o => .ok { s with ptr := some o, dead := s.ptr.toList ++ s.dead, pc := upd s.pc k .ret }
  | .ret =>
    match s.ptr with
    | some o => .ok { s with pc := upd s.pc k (.done o) }
    | none => .error .fault
  | _ => .error .illegal

inductive Op where
  /-- `create_supervisor` of the context, `supervisor.h:351-365` -/
  | create (k : Nat)
  /-- the supervisor `p` creates the supervisor `k`, `child_manager.cpp:176-201`, `delivery.cpp:28-37` -/
  | child (p k : Nat)
  /-- the user calls `get_stringifier` -/
  | call (k : Nat)
  /-- the activity goes on -/
  | go (k : Nat)
  /-- a message is printed, `delivery.cpp:114-135` -/
  | use (k : Nat)
deriving DecidableEq, Repr

def isDone : PC → Bool
  | .done _ => true
  | _ => false

def step (s : State) : Op → Except Err State
  | .create k =>
    if s.pc k = .idle then
      match s.root with
      | none => .ok { s with root := some k, pc := upd s.pc k .start }
      | some _ => .ok { s with refused := k :: s.refused }
    else .error .illegal
  | .child p k =>
    if s.pc k = .idle ∧ isDone (s.pc p) = true ∧ p ∉ s.refused then .ok { s with pc := upd s.pc k .start } else .error .illegal
  | .call k => if s.pc k = .idle then .ok { s with pc := upd s.pc k .start } else .error .illegal
  | .go k => advance k s
  | .use k =>
    match s.pc k with
    | .done o => if o ∈ s.dead then .error .fault else .ok s
    | _ => .error .illegal

def run : State → List Op → Except Err State
  | s, [] => .ok s
  | s, op :: ops =>
    match step s op with
    | .error e => .error e
    | .ok s1 => run s1 ops

end Verif.TextMaker
