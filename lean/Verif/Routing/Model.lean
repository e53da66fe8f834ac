/-!
# The second hop of a routed message

Modelled: the end of a turn of the dispatch loop (`include/rotor/supervisor.h:457-462`, same in the inspected
loop `484-491`), the destructor of `handler_call_t` (`src/rotor/messages.cpp:13-20`), wrapping for foreign
handlers (`src/rotor/plugin/delivery.cpp:41-46`), with the reference count of one message made by
`make_routed_message` (`include/rotor/message.h:145-151`).

Everybody who has a reference is a *holder*: the frame of the dispatch loop (number 0), every wrapped call
(in some other thread), and pointers captured by user code. The loop and the wrapped calls first test
`next_route && use_count() == 1` and then act: move the message on, or drop their reference. The test and the
action are two steps, other threads may run in between; all steps are sequentially consistent.

After the hop the message is an ordinary message without route (`next_route` has been moved away) in a
queue; its delivery to the second address is the subject of `Verif.Net`.
-/

namespace Verif.Routing

/-- `busy`: handlers may still be using the message; `done`: they have returned (or the call was dropped);
`saw n`: `use_count()` was read as `n` -/
inductive Phase where
  | busy
  | done
  | saw (n : Nat)
  deriving DecidableEq, Repr

/-- `checks`: the loop or a wrapped call; otherwise a pointer captured by user code, which is simply
dropped -/
structure Holder where
  id : Nat
  phase : Phase
  checks : Bool
  deriving DecidableEq, Repr

inductive Ev where
  /-- holder `i` got its reference -/
  | start (i : Nat)
  /-- the recipients served by holder `i` have finished with the message -/
  | finish (i : Nat)
  /-- holder `i` sends the message to its `next_route` -/
  | hop (i : Nat)
  deriving DecidableEq, Repr

/-- `route`: `next_route` is set; `queued`: the message was put into a queue for its second hop; log:
newest first -/
structure State where
  holders : List Holder
  route : Bool
  queued : Bool
  next : Nat
  log : List Ev
  deriving DecidableEq, Repr

/-- the message has just been taken from the queue of the loop -/
def State.init : State := ⟨[⟨0, .busy, true⟩], true, false, 1, [.start 0]⟩

/-- `use_count()`; the queue holds one reference too -/
def State.count (s : State) : Nat := s.holders.length + if s.queued then 1 else 0

inductive Op where
  /-- the loop makes a wrapped call for a foreign handler, `delivery.cpp:44-45` -/
  | wrap
  /-- a handler run by holder `i` keeps a copy of the pointer -/
  | capture (i : Nat)
  /-- user code drops a captured pointer -/
  | dropCaptured (i : Nat)
  /-- all handlers that holder `i` has to run are finished -/
  | finish (i : Nat)
  /-- `next_route && use_count() == 1` is evaluated, `supervisor.h:458`, `messages.cpp:15` -/
  | load (i : Nat)
  /-- the branch is taken: `supervisor.h:459-461` / `messages.cpp:16-18`, or the pointer is dropped -/
  | act (i : Nat)
  deriving DecidableEq, Repr

def setPhase (l : List Holder) (i : Nat) (p : Phase) : List Holder := l.map fun h => if h.id = i then { h with phase := p } else h
def remove (l : List Holder) (i : Nat) : List Holder := l.filter fun h => decide (h.id ≠ i)
def get (l : List Holder) (i : Nat) : Option Holder := l.find? fun h => decide (h.id = i)

/-- steps that are not possible leave the state as it is -/
def step (s : State) : Op → State
  | .wrap =>
    match get s.holders 0 with
    | some h => if h.phase = .busy then
        { s with holders := s.holders ++ [⟨s.next, .busy, true⟩], next := s.next + 1, log := .start s.next :: s.log } else s
    | none => s
  | .capture i =>
    match get s.holders i with
    | some h => if h.phase = .busy then
        { s with holders := s.holders ++ [⟨s.next, .busy, false⟩], next := s.next + 1, log := .start s.next :: s.log } else s
    | none => s
  | .dropCaptured i =>
    match get s.holders i with
    | some h => if h.checks = false then { s with holders := remove s.holders i, log := .finish i :: s.log } else s
    | none => s
  | .finish i =>
    match get s.holders i with
    | some h => if h.phase = .busy ∧ h.checks = true then { s with holders := setPhase s.holders i .done, log := .finish i :: s.log } else s
    | none => s
  | .load i =>
    match get s.holders i with
    | some h => if h.phase = .done then { s with holders := setPhase s.holders i (.saw s.count) } else s
    | none => s
  | .act i =>
    match get s.holders i with
    | some h =>
      match h.phase with
      | .saw n =>
        if s.route = true ∧ n = 1 then
          { s with holders := remove s.holders i, route := false, queued := true, log := .hop i :: s.log }
        else { s with holders := remove s.holders i }
      | _ => s
    | none => s

def run (s : State) (ops : List Op) : State := ops.foldl step s

/-- `P` holds in every state on the way -/
def Along (P : State → Prop) : State → List Op → Prop
  | s, [] => P s
  | s, op :: ops => P s ∧ Along P (step s op) ops

end Verif.Routing
