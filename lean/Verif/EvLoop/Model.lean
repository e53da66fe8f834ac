/-!
# Model of a locality of the libev backend and of the threads that send to it

Sources: `src/rotor/ev/supervisor_ev.cpp` (`enqueue` 70-75, `do_initialize` 64-68, `shutdown_finish` 79-83, `timer_cb` 39-56,
`on_async` 118-141, `move_inbound_queue` 149-157).

Any number of supervisors of one locality and any number of sending threads; atomic steps are the operations of the lock-free queue, of the
watchers, the dispatch of one message and the thread-local code in between. A supervisor is a number, and so is a message.

libev: `ev_async_send` marks the watcher (`sent`). The loop collects the marks of the active watchers (`fed`), and calls them back later;
`ev_async_start` clears the mark, `ev_async_stop` takes a collected mark back.

Simplifications:
* how long `on_async` polls for messages, and whether it does, is a choice: `poll_duration`, the time, and what `do_process` returns are not
  modelled;
* what handlers and callbacks do is a choice: messages within the locality, new supervisors, the end of a supervisor; messages to other
  localities do not matter here; messages to the own locality by `enqueue` are those of one more thread;
* `start` (77) only calls `ev_async_send`: a sender without a message. It has been called once when the execution begins.
-/

namespace Verif.EvLoop

/-- a message in the inbound queue: the supervisor whose `enqueue` was called, and (ghost) whether its watcher was stopped already -/
structure Msg where
  m : Nat
  via : Nat
  late : Bool
deriving DecidableEq, Repr

/-- a message in the queue of the locality: from other threads, or of the locality itself -/
inductive Item where
  | outside (m : Nat)
  | inside (m : Nat)
deriving DecidableEq, Repr

/-- where the loop is. `proc last`: in `do_process`, what follows is the end of the callback if `last`, otherwise maybe polling -/
inductive Pc where
  /-- in the event loop -/
  | idle
  /-- in the first `move_inbound_queue` of `on_async`, line 119 -/
  | moving
  /-- in `do_process`, lines 51, 124, 138 -/
  | proc (last : Bool)
  /-- in `move_inbound_queue` of `shutdown_finish` of a supervisor, line 82, inside `do_process` or a callback -/
  | halting (s : Nat) (last : Bool)
  /-- in the loop of lines 131-135 -/
  | polling
deriving DecidableEq, Repr

structure State where
  pc : Pc
  /-- `inbound_queue`, `queue` of the leader -/
  inbound : List Msg
  queue : List Item
  /-- what was dispatched -/
  taken : List Item
  /-- the watchers: started once; active; marked by `ev_async_send`; collected by the loop -/
  used : Nat → Bool
  active : Nat → Bool
  sent : Nat → Bool
  fed : Nat → Bool
  /-- the threads between `push` and `ev_async_send`, lines 73-74 -/
  threads : Nat → Option Nat

def upd {α : Type} (f : Nat → α) (i : Nat) (v : α) : Nat → α := fun j => if j = i then v else f j

/-- the root supervisor has been initialized: its watcher is started, line 66, and messages are in the queue; `start` was called, line 77 -/
def State.init (root : Nat) (msgs : List Nat) : State where
  pc := .idle
  inbound := []
  queue := msgs.map .inside
  taken := []
  used := fun s => decide (s = root)
  active := fun s => decide (s = root)
  sent := fun s => decide (s = root)
  fed := fun _ => false
  threads := fun _ => none

inductive Label where
  /-- thread `i` calls `enqueue` of the supervisor `s`, line 73 -/
  | push (i s m : Nat)
  /-- thread `i` calls `start` of the supervisor `s`, line 77 -/
  | start (i s : Nat)
  /-- .. `ev_async_send`, lines 74, 77 -/
  | signal (i : Nat)
  /-- libev collects the marks of the active watchers -/
  | collect
  /-- libev calls a watcher back, lines 32-37 -/
  | callback (s : Nat)
  /-- a timer is due: its callback leaves messages behind, lines 47-51; `msgs` -/
  | timer (msgs : List Nat)
  /-- one `pop`, lines 154-156 -/
  | pop
  /-- in `polling`: the loop is left because of the time or a message -/
  | leave
  /-- one message is dispatched, its handlers leave messages behind -/
  | dispatch (msgs : List Nat)
  /-- the queue is empty: `do_process` returns; `poll`: lines 127-129 -/
  | return (poll : Bool)
  /-- inside of `do_process`: a supervisor is created, lines 64-68; a supervisor ends, lines 79-82 -/
  | create (s : Nat)
  | halt (s : Nat)
deriving DecidableEq, Repr

def step (σ : State) : Label → Option State
  | .push i s m =>
    if σ.threads i = none ∧ σ.used s = true then
      some { σ with inbound := σ.inbound ++ [⟨m, s, !σ.active s⟩], threads := upd σ.threads i (some s) }
    else none
  | .start i s => if σ.threads i = none ∧ σ.used s = true then some { σ with threads := upd σ.threads i (some s) } else none
  | .signal i =>
    match σ.threads i with
    | none => none
    | some s => some { σ with sent := upd σ.sent s true, threads := upd σ.threads i none }
  | .collect =>
    if σ.pc = .idle then
      some { σ with sent := fun s => σ.sent s && !σ.active s, fed := fun s => σ.fed s || (σ.sent s && σ.active s) }
    else none
  | .callback s =>
    if σ.pc = .idle ∧ σ.fed s = true ∧ σ.active s = true then some { σ with pc := .moving, fed := upd σ.fed s false } else none
  | .timer msgs => if σ.pc = .idle then some { σ with pc := .proc true, queue := σ.queue ++ msgs.map .inside } else none
  | .pop =>
    match σ.inbound with
    | x :: l =>
      match σ.pc with
      | .moving | .halting _ _ | .polling => some { σ with inbound := l, queue := σ.queue ++ [.outside x.m] }
      | _ => none
    | [] =>
      match σ.pc with
      | .moving => some { σ with pc := if σ.queue = [] then .idle else .proc false }
      | .halting _ last => some { σ with pc := .proc last }
      | .polling => some σ
      | _ => none
  | .leave => if σ.pc = .polling then some { σ with pc := if σ.queue = [] then .idle else .proc true } else none
  | .dispatch msgs =>
    match σ.pc, σ.queue with
    | .proc _, x :: q => some { σ with queue := q ++ msgs.map .inside, taken := σ.taken ++ [x] }
    | _, _ => none
  | .return poll =>
    match σ.pc, σ.queue with
    | .proc last, [] => some { σ with pc := if poll && !last then .polling else .idle }
    | _, _ => none
  | .create s =>
    match σ.pc with
    | .proc _ =>
      if σ.used s = false then
        some { σ with used := upd σ.used s true, active := upd σ.active s true, sent := upd σ.sent s false }
      else none
    | _ => none
  | .halt s =>
    match σ.pc with
    | .proc last => if σ.active s then some { σ with pc := .halting s last, active := upd σ.active s false, fed := upd σ.fed s false } else none
    | _ => none

def run (σ : State) : List Label → Option State
  | [] => some σ
  | l :: ls =>
    match step σ l with
    | none => none
    | some σ' => run σ' ls

end Verif.EvLoop
