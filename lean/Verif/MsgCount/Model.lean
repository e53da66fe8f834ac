/-!
# Model of the reference counts of messages

Sources: `include/rotor/arc.hpp:17-29`, `include/rotor/message.h:57-151`, `include/rotor/supervisor.h` (`put` 182, `process` 445-469),
`src/rotor/supervisor.cpp` (destructor 34-39, `uplift_last_message` 165-171), `src/rotor/system_context.cpp:43-50`,
`src/rotor/plugin/delivery.cpp:41-46`; the inbound queues: `src/rotor/asio/supervisor_asio.cpp:81-84, 113-116`,
`src/rotor/ev/supervisor_ev.cpp:70-73, 149-157`, `src/rotor/thread/supervisor_thread.cpp:24-30`,
`src/rotor/thread/system_context_thread.cpp:45-50, 83-92`, `src/rotor/fltk/system_context_fltk.cpp:29-58`, `src/rotor/wx/supervisor_wx.cpp:68-75`.

A message has a counter of the intrusive pointers to it. The inbound queues of the supervisors hold plain pointers: a pointer is put there by `detach`, which
does not change the counter, and taken from there by a constructor that may add to the counter or not, or by a destructor that
releases it. Everything else that refers to messages is a variable (of the user, of `process`, of a closure) or a member of another message.

Simplifications:
* members of a message that are messages (`orig_message` of a foreign call, `req` of a response, requests of errors) are given when it is created and do not
  change; they are older than the message;
* the destructor of a message destroys its members one after the other: from the moment it begins they are variables in the model, and are
  dropped by further steps;
* every step is atomic and any thread may do it at any time; the push to an inbound queue does not fail for lack of memory;
* the counters are atomic, as they are without `ROTOR_REFCOUNT_THREADUNSAFE` (`arc.hpp:15-21`);
* nobody sends to a supervisor that has been destroyed (what happens then: `C65_late_send_counterexample`);
* which supervisor is the locality leader is of no interest: messages may be put into the queue of any supervisor.
-/

namespace Verif.MsgCount

/-- `next`: messages with smaller numbers have been created; `count`: the counter in the message; `refs`: members of the message; `vars`: variables; `queue`,
`inbound`: `supervisor_t::queue` and `inbound_queue`; `later`: closures of wx with a message; `dead`: the supervisor has been destroyed; `freed`: the destroyed messages,
newest first -/
structure State where
  next : Nat
  count : Nat → Nat
  refs : Nat → List Nat
  vars : List Nat
  queue : Nat → List Nat
  inbound : Nat → List Nat
  later : Nat → List Nat
  dead : Nat → Bool
  freed : List Nat

def upd {α : Type} (f : Nat → α) (i : Nat) (v : α) : Nat → α := fun j => if j = i then v else f j

def State.init : State where
  next := 0
  count _ := 0
  refs _ := []
  vars := []
  queue _ := []
  inbound _ := []
  later _ := []
  dead _ := false
  freed := []

inductive Err where
  /-- a message is used that has been destroyed -/
  | freed
  /-- not possible now -/
  | illegal
deriving DecidableEq, Repr

/-- `intrusive_ptr_add_ref` -/
def addRef (m : Nat) (σ : State) : Except Err State :=
  if σ.count m = 0 then .error .freed else .ok { σ with count := upd σ.count m (σ.count m + 1) }

/-- `intrusive_ptr_release`; the last one destroys the message -/
def release (m : Nat) (σ : State) : Except Err State :=
  if σ.count m = 0 then .error .freed
  else if σ.count m = 1 then
    .ok { σ with count := upd σ.count m 0, freed := m :: σ.freed, vars := σ.refs m ++ σ.vars, refs := upd σ.refs m [] }
  else .ok { σ with count := upd σ.count m (σ.count m - 1) }

/-- the constructor `message_ptr_t(ptr, add)` -/
def adopt (m : Nat) (add : Bool) (σ : State) : Except Err State :=
  if σ.count m = 0 then .error .freed else if add then addRef m σ else .ok σ

def addAll : List Nat → State → Except Err State
  | [], σ => .ok σ
  | m :: l, σ => match addRef m σ with
    | .error e => .error e
    | .ok σ' => addAll l σ'

def releaseAll : List Nat → State → Except Err State
  | [], σ => .ok σ
  | m :: l, σ => match release m σ with
    | .error e => .error e
    | .ok σ' => releaseAll l σ'

inductive Label where
  /-- `new message_t<M>(...)` with copies of the messages `ms` as members (`message.h:116-119, 124-128`); `delivery.cpp:44` -/
  | create (ms : List Nat)
  /-- a variable is copied -/
  | copy (m : Nat)
  /-- a variable goes out of scope -/
  | drop (m : Nat)
  /-- `put`, `supervisor.h:182` -/
  | put (m s : Nat)
  /-- `enqueue` of the asio, ev, thread and fltk supervisors -/
  | enqueue (m s : Nat)
  /-- one message from the inbound queue to the queue of the supervisor -/
  | move (s : Nat)
  /-- `supervisor.h:448-451` -/
  | take (s : Nat)
  /-- `supervisor.cpp:165-171` -/
  | uplift (s : Nat)
  /-- `enqueue` of the wx supervisor, `supervisor_wx.cpp:68-70` -/
  | defer (m s : Nat)
  /-- its closure is called and destroyed, `supervisor_wx.cpp:70-74` -/
  | undefer (s : Nat)
  /-- `~supervisor_t`, `supervisor.cpp:34-39`, and the destructor of the member `queue` -/
  | destroy (s : Nat)
  /-- `~system_context_t`, `system_context.cpp:43-50`; `s`: the root supervisor -/
  | context (s : Nat)
deriving DecidableEq, Repr

def step (n : Nat) (σ : State) : Label → Except Err State
  | .create ms =>
    if ∀ m ∈ ms, m ∈ σ.vars then
      match addAll ms σ with
      | .error e => .error e
      | .ok σ => .ok { σ with
          next := σ.next + 1,
          count := upd σ.count σ.next 1,
          refs := upd σ.refs σ.next ms,
          vars := σ.next :: σ.vars }
    else .error .illegal
  | .copy m =>
    if m ∈ σ.vars then
      match addRef m σ with
      | .error e => .error e
      | .ok σ => .ok { σ with vars := m :: σ.vars }
    else .error .illegal
  | .drop m => if m ∈ σ.vars then release m { σ with vars := σ.vars.erase m } else .error .illegal
  | .put m s =>
    -- `queue.emplace_back(std::move(message))`
    if m ∈ σ.vars ∧ s < n ∧ σ.dead s = false then
      .ok { σ with vars := σ.vars.erase m, queue := upd σ.queue s (σ.queue s ++ [m]) }
    else .error .illegal
  | .enqueue m s =>
    -- `inbound.push(message.detach())`
    if m ∈ σ.vars ∧ s < n ∧ σ.dead s = false then
      .ok { σ with vars := σ.vars.erase m, inbound := upd σ.inbound s (σ.inbound s ++ [m]) }
    else .error .illegal
  | .move s =>
    if σ.dead s = false then
      match σ.inbound s with
      | [] => .error .illegal
      | m :: l =>
        -- `queue.emplace_back(ptr, false)`
        match adopt m false { σ with inbound := upd σ.inbound s l } with
        | .error e => .error e
        | .ok σ => .ok { σ with queue := upd σ.queue s (σ.queue s ++ [m]) }
    else .error .illegal
  | .take s =>
    match σ.queue s with
    | [] => .error .illegal
    | m :: q =>
      -- `message_ptr_t(queue->front().detach(), false)`, `queue->pop_front()`
      match adopt m false { σ with queue := upd σ.queue s q } with
      | .error e => .error e
      | .ok σ => .ok { σ with vars := m :: σ.vars }
  | .uplift s =>
    match (σ.queue s).getLast? with
    | none => .error .illegal
    | some m =>
      -- `message_ptr_t(q.back().detach(), false)`, `q.push_front(std::move(message))`, `q.pop_back()`
      match adopt m false { σ with queue := upd σ.queue s (σ.queue s).dropLast } with
      | .error e => .error e
      | .ok σ => .ok { σ with queue := upd σ.queue s (m :: σ.queue s) }
  | .defer m s =>
    -- the closure takes the variable
    if m ∈ σ.vars ∧ s < n ∧ σ.dead s = false then
      .ok { σ with vars := σ.vars.erase m, later := upd σ.later s (σ.later s ++ [m]) }
    else .error .illegal
  | .undefer s =>
    match σ.later s with
    | [] => .error .illegal
    | m :: l =>
      -- `sup.put(message)`: a copy; the closure is destroyed afterwards
      match addRef m σ with
      | .error e => .error e
      | .ok σ => release m { σ with queue := upd σ.queue s (σ.queue s ++ [m]), later := upd σ.later s l }
  | .destroy s =>
    -- a closure of wx holds the supervisor, `supervisor_wx.cpp:69`
    if s < n ∧ σ.dead s = false ∧ σ.later s = [] then
      match releaseAll (σ.inbound s ++ σ.queue s) { σ with inbound := upd σ.inbound s [], queue := upd σ.queue s [], dead := upd σ.dead s true } with
      | .error e => .error e
      | .ok σ => .ok σ
    else .error .illegal
  | .context s =>
    if s < n ∧ σ.dead s = false then releaseAll (σ.inbound s) { σ with inbound := upd σ.inbound s [] } else .error .illegal

def run (n : Nat) (σ : State) : List Label → Except Err State
  | [] => .ok σ
  | l :: ls =>
    match step n σ l with
    | .error e => .error e
    | .ok σ' => run n σ' ls

end Verif.MsgCount
