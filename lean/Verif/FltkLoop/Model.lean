/-!
# Model of a locality of the FLTK backend, with its messages

Sources: `src/rotor/fltk/system_context_fltk.cpp:27-58` (`queue_counter`, `_callback`, `enqueue`),
`src/rotor/fltk/supervisor_fltk.cpp:32-49` (`on_timeout`), `79-81` (`enqueue`), `83-91` (`start`), `93-103` (`shutdown`),
`include/rotor/supervisor.h:130` (`do_process`).

One context, any number of sending threads; atomic steps are the operations of the lock-free queue and of the atomic counter, `Fl::awake`, the
dispatch of one message and the thread-local code in between. `Fltk` models the counter alone, for several contexts.

Simplifications:
* `Fl::awake` with a callback does not fail; `Fl::awake()` without one (`supervisor_fltk.cpp:43`) only ends `Fl::wait` and is left out;
* what handlers and callbacks do is a choice: messages within the locality; messages to other localities do not matter here; messages to the own
  locality by `enqueue` are those of one more thread;
* handlers do not run the event loop of FLTK themselves; code of the user that is called by FLTK, not by rotor, and sends messages calls
  `do_process` afterwards.
-/

namespace Verif.FltkLoop

/-- a message in the queue of the locality: from other threads, put by a handler (or by `do_shutdown`), put by the callback of a timer -/
inductive Item where
  | outside (m : Nat)
  | inside (m : Nat)
  | timer (m : Nat)
deriving DecidableEq, Repr

/-- what the thread of FLTK does -/
inductive Pc where
  /-- it runs no code of rotor -/
  | idle
  /-- the loop of `system_context_fltk.cpp:38-41`, having fetched `n` messages -/
  | fetching (n : Nat)
  /-- in `do_process`: called by `_callback` (line 43), which has fetched `n`; otherwise called by the callbacks of `start` and `shutdown`
  (`supervisor_fltk.cpp:87, 99`) or by the user -/
  | proc (n : Option Nat)
  /-- about to subtract, `system_context_fltk.cpp:44` -/
  | sub (n : Nat)
deriving DecidableEq, Repr

structure State where
  pc : Pc
  /-- `inbound_queue` of the root supervisor -/
  inbound : List Nat
  /-- threads between `push` (line 53) and `fetch_add` (line 54) -/
  pushing : Nat
  /-- `queue_counter`, line 27 -/
  counter : Int
  /-- callbacks handed to `Fl::awake` that have not run: `_callback`, those of `start` and of `shutdown` -/
  wakes : Nat
  starts : Nat
  downs : Nat
  /-- `queue` of the root supervisor -/
  queue : List Item
  /-- what was dispatched, oldest first -/
  taken : List Item
  /-- what was pushed, oldest first (only recorded) -/
  pushed : List Nat
deriving DecidableEq, Repr

def State.init : State := ⟨.idle, [], 0, 0, 0, 0, 0, [], [], []⟩

inductive Op where
  /-- a thread: `push`, `system_context_fltk.cpp:53` -/
  | push (m : Nat)
  /-- a thread: `fetch_add` and `Fl::awake`, lines 54-56 -/
  | add
  /-- FLTK calls `_callback` -/
  | wake
  /-- `_callback` tries to take a message, lines 38-41; `false`: the queue is empty, lines 42-43 -/
  | fetch
  /-- `process` dispatches a message, the handlers put others -/
  | dispatch (puts : List Nat)
  /-- `do_process` returns -/
  | done
  /-- line 44 -/
  | sub
  /-- a thread calls `start`, `shutdown` -/
  | start
  | down
  /-- FLTK calls the callback of `start`, `supervisor_fltk.cpp:85-89` -/
  | runStart
  /-- FLTK calls the callback of `shutdown`, `supervisor_fltk.cpp:96-101`; `do_shutdown` puts messages -/
  | runDown (puts : List Nat)
  /-- FLTK calls `on_timeout`, `supervisor_fltk.cpp:32-49`: the callback of the timer puts messages -/
  | timer (puts : List Nat)
  /-- the user calls `do_process` -/
  | process
deriving DecidableEq, Repr

/-- one operation; `none`: it is not possible now -/
def step (σ : State) : Op → Option State
  | .push m => some { σ with inbound := σ.inbound ++ [m], pushing := σ.pushing + 1, pushed := σ.pushed ++ [m] }
  | .add =>
    if σ.pushing = 0 then none
    else some { σ with pushing := σ.pushing - 1, counter := σ.counter + 1, wakes := if σ.counter = 0 then σ.wakes + 1 else σ.wakes }
  | .wake =>
    if σ.pc = .idle ∧ σ.wakes ≠ 0 then some { σ with pc := .fetching 0, wakes := σ.wakes - 1 } else none
  | .fetch => match σ.pc with
    | .fetching n => match σ.inbound with
      | m :: l => some { σ with pc := .fetching (n + 1), inbound := l, queue := σ.queue ++ [.outside m] }
      | [] => some { σ with pc := if n = 0 then .idle else .proc (some n) }
    | _ => none
  | .dispatch puts => match σ.pc with
    | .proc _ => match σ.queue with
      | x :: q => some { σ with queue := q ++ puts.map .inside, taken := σ.taken ++ [x] }
      | [] => none
    | _ => none
  | .done => match σ.pc with
    | .proc r => if σ.queue = [] then some { σ with pc := match r with | some n => .sub n | none => .idle } else none
    | _ => none
  | .sub => match σ.pc with
    | .sub n => some { σ with counter := σ.counter - n, pc := if σ.counter = n then .idle else .fetching 0 }
    | _ => none
  | .start => some { σ with starts := σ.starts + 1 }
  | .down => some { σ with downs := σ.downs + 1 }
  | .runStart => if σ.pc = .idle ∧ σ.starts ≠ 0 then some { σ with starts := σ.starts - 1, pc := .proc none } else none
  | .runDown puts =>
    if σ.pc = .idle ∧ σ.downs ≠ 0 then some { σ with downs := σ.downs - 1, pc := .proc none, queue := σ.queue ++ puts.map .inside } else none
  | .timer puts => if σ.pc = .idle then some { σ with queue := σ.queue ++ puts.map .timer } else none
  | .process => if σ.pc = .idle then some { σ with pc := .proc none } else none

def run : State → List Op → Option State
  | σ, [] => some σ
  | σ, op :: ops => match step σ op with
    | none => none
    | some σ' => run σ' ops

end Verif.FltkLoop
