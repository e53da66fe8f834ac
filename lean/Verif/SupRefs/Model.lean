/-!
# References of the event loops to a supervisor

Sources: `src/rotor/ev/supervisor_ev.cpp` (`async_cb` 32-37, `timer_cb` 39-56, `do_initialize` 64-68, `enqueue` 70-75, `start` 77, `shutdown_finish`
79-83, `do_start_timer` 92-103, `do_cancel_timer` 105-116, `on_async` 118-140), `src/rotor/fltk/supervisor_fltk.cpp` (`on_timeout` 32-49,
`do_start_timer` 56-63, `do_cancel_timer` 65-76, `start` 82-91, `shutdown` 93-103), `src/rotor/fltk/system_context_fltk.cpp` (`_callback` 29-48,
`enqueue` 49-58), `src/rotor/wx/supervisor_wx.cpp` (`Notify` 32-45, `start` 49-55, `shutdown` 57-66, `enqueue` 68-75, `do_start_timer` 77-83,
`do_cancel_timer` 85-95), `src/rotor/asio/supervisor_asio.cpp` (`start`, `shutdown` 38-40, `do_start_timer` 42-66, `do_cancel_timer` 69-79, `enqueue`
81-91).

One supervisor. Its counter of references is changed by the code of the backend (explicit `intrusive_ptr_add_ref` and `intrusive_ptr_release`,
`intrusive_ptr_t` in timers and closures) and by everybody else (`ext`: the system context, the record of the parent, handlers, the user). Between
the steps of a callback of the event loop arbitrary code runs: handlers of timers and of messages start and cancel timers, drop references to the
supervisor, finish its shutdown.

Simplifications:
* callbacks of the event loop do not overlap: they start when no other runs (the completion of an asio timer may come at any time: it only passes on);
* timers have distinct identifiers (C13, C14), a callback of a timer does not cancel this timer (that fails anyway: C61);
* nobody else calls methods of the supervisor without having a reference to it;
* several closures of one kind are counted, not named.
-/

namespace Verif.SupRefs

inductive Backend where
  | ev | fltk | wx | asio
deriving DecidableEq, Repr

/-- who has called `do_process`: a timer that keeps a reference until its end (`ev`: the explicit one; `asio`: the closure); a timer that does not
(`wx`: the timer object is erased before); a closure with a reference; the watcher of libev; `_callback` of FLTK; somebody outside -/
inductive From where
  | timerHeld | timerBare | task | async | raw | outside
deriving DecidableEq, Repr

/-- the calls under way, the innermost first -/
inductive Frame where
  /-- in `on_timer_trigger(id, false)`; the timer is in `timers_map` -/
  | trig (id : Nat)
  /-- in `on_timer_trigger(id, true)` -/
  | cancel (id : Nat)
  | proc (f : From)
deriving DecidableEq, Repr

structure State where
  /-- the counter of the supervisor -/
  rc : Nat
  /-- it is destroyed -/
  dead : Bool
  /-- references held elsewhere -/
  ext : Nat
  /-- `timers_map` of the supervisor -/
  timers : List Nat
  /-- timers that the event loop will call back -/
  armed : List Nat
  /-- `asio`: completions not yet run (of cancelled timers too), with a reference each; and deferred closures of timers that have expired -/
  waits : List Nat
  defers : List Nat
  /-- closures with a reference each -/
  tasks : Nat
  /-- `ev`: the watcher is started; a signal to it is pending -/
  watching : Bool
  sent : Bool
  /-- `fltk`: pending calls of `_callback`, with a plain pointer each -/
  raws : Nat
  stack : List Frame
deriving DecidableEq, Repr

/-- the supervisor is created, somebody holds it; `do_initialize` of `ev` -/
def State.init : State := ⟨1, false, 1, [], [], [], [], 0, true, false, 0, []⟩

inductive Fault where
  /-- a timer, a closure, the watcher of libev, `_callback` of FLTK uses the destroyed supervisor -/
  | timer | task | async | raw
  /-- a reference is released that is not there -/
  | double
deriving DecidableEq, Repr

/-- `intrusive_ptr_add_ref`, construction and copies of `intrusive_ptr_t` -/
def addRef (s : State) : State := { s with rc := s.rc + 1 }

/-- `intrusive_ptr_release` -/
def release (s : State) : Except Fault State :=
  if s.dead ∨ s.rc = 0 then .error .double
  else if s.rc = 1 then .ok { s with rc := 0, dead := true } else .ok { s with rc := s.rc - 1 }

/-- `do_start_timer` -/
def startTimer (b : Backend) (id : Nat) (s : State) : State :=
  let s := { s with timers := id :: s.timers }
  match b with
  -- `ev_timer_start`, `add_ref`; `timer_t::sup` is not set
  | .ev => addRef { s with armed := id :: s.armed }
  -- `timer_t::sup` and `add_ref`
  | .fltk => addRef (addRef { s with armed := id :: s.armed })
  -- `timer_t::sup`
  | .wx => addRef { s with armed := id :: s.armed }
  -- the completion handler
  | .asio => addRef { s with armed := id :: s.armed, waits := id :: s.waits }

/-- `timers_map.erase`: the timer is destroyed, and with it its `sup` -/
def eraseTimer (b : Backend) (id : Nat) (s : State) : Except Fault State :=
  let s := { s with timers := s.timers.erase id }
  match b with
  | .ev => .ok s
  | .fltk => release s
  | .wx => release s
  | .asio => .ok s

/-- the rest of `do_cancel_timer` -/
def cancelEnd (b : Backend) (id : Nat) (s : State) : Except Fault State :=
  match eraseTimer b id s with
  | .error f => .error f
  | .ok s =>
    match b with
    | .ev => release s
    | .fltk => release s
    | .wx => .ok s
    | .asio => .ok s

/-- the rest of `timer_cb`, `on_timeout`, `Notify`, the deferred closure, up to the call of `do_process` -/
def trigEnd (b : Backend) (id : Nat) (s : State) : Except Fault State :=
  if s.dead then .error .timer
  else
    match eraseTimer b id s with
    | .error f => .error f
    | .ok s =>
      match b with
      | .ev => .ok { s with stack := .proc .timerHeld :: s.stack }
      -- no `do_process`, the explicit reference is released
      | .fltk => if s.dead then .error .timer else release s
      | .wx => if s.dead then .error .timer else .ok { s with stack := .proc .timerBare :: s.stack }
      | .asio => .ok { s with stack := .proc .timerHeld :: s.stack }

/-- after `do_process` -/
def procEnd (f : From) (s : State) : Except Fault State :=
  match f with
  | .timerHeld => if s.dead then .error .timer else release s
  | .timerBare => .ok s
  | .task => if s.dead then .error .task else release s
  -- `on_async` reads `poll_duration`
  | .async => if s.dead then .error .async else .ok s
  -- `_callback` looks at the inbound queue again
  | .raw => if s.dead then .error .raw else .ok s
  | .outside => .ok s

inductive Op where
  /-- somebody takes, gives up a reference -/
  | hold | drop
  /-- `start_timer` -/
  | start (id : Nat)
  /-- `cancel_timer` up to the callback of the user -/
  | cancel (id : Nat)
  /-- the end of the innermost call -/
  | ret
  /-- the event loop calls a timer -/
  | fire (id : Nat)
  /-- `asio`: the completion handler of a timer, with or without an error -/
  | complete (id : Nat) (err : Bool)
  /-- `start()`, `shutdown()`, `enqueue()` -/
  | post
  /-- a closure runs -/
  | runTask
  /-- the watcher of libev is called -/
  | async
  /-- `_callback` of FLTK is called -/
  | callback
  /-- somebody calls `do_process` -/
  | process
  /-- `shutdown_finish` -/
  | finish
deriving DecidableEq, Repr

/-- the timers whose callbacks run -/
def busy (s : State) : List Nat :=
  s.stack.filterMap (fun f => match f with | .trig id => some id | .cancel id => some id | .proc _ => none)

/-- `post`: ev: `ev_async_send`; fltk: `start`, `shutdown` have a reference, `enqueue` passes a plain pointer (`raw`); wx, asio: closures -/
def post (b : Backend) (raw : Bool) (s : State) : State :=
  match b with
  | .ev => { s with sent := true }
  | .fltk => if raw then { s with raws := s.raws + 1 } else addRef { s with tasks := s.tasks + 1 }
  | .wx => addRef { s with tasks := s.tasks + 1 }
  | .asio => addRef { s with tasks := s.tasks + 1 }

/-- `raw`: FLTK, `enqueue` and not `start` or `shutdown`. What is not possible changes nothing -/
def step (b : Backend) (raw : Bool) (s : State) : Op → Except Fault State
  | .hold => if s.dead then .ok s else .ok (addRef { s with ext := s.ext + 1 })
  | .drop => if s.ext = 0 then .ok s else release { s with ext := s.ext - 1 }
  | .start id => if s.dead ∨ id ∈ s.timers ∨ id ∈ s.waits ∨ id ∈ s.defers then .ok s else .ok (startTimer b id s)
  | .cancel id =>
    if s.dead ∨ id ∉ s.timers ∨ id ∈ busy s then .ok s
    else .ok { s with armed := s.armed.erase id, stack := .cancel id :: s.stack }
  | .ret =>
    match s.stack with
    | [] => .ok s
    | .trig id :: fs => trigEnd b id { s with stack := fs }
    | .cancel id :: fs => if s.dead then .error .timer else cancelEnd b id { s with stack := fs }
    | .proc f :: fs => procEnd f { s with stack := fs }
  | .fire id =>
    if s.stack ≠ [] then .ok s
    else
      match b with
      | .asio =>
        -- the deferred closure
        if id ∉ s.defers then .ok s
        else if s.dead then .error .timer
        else
          let s := { s with defers := s.defers.erase id }
          if id ∈ s.timers then .ok { s with stack := [.trig id] }
          else release s
      | _ =>
        if id ∉ s.armed then .ok s
        else if s.dead then .error .timer
        else .ok { s with armed := s.armed.erase id, stack := [.trig id] }
  | .complete id err =>
    if b = .asio ∧ id ∈ s.waits then
      if s.dead then .error .timer
      else
        let s := { s with waits := s.waits.erase id }
        if err then release s else .ok { s with armed := s.armed.erase id, defers := id :: s.defers }
    else .ok s
  | .post => if s.dead then .ok s else .ok (post b raw s)
  | .runTask =>
    if s.stack ≠ [] ∨ s.tasks = 0 then .ok s
    else if s.dead then .error .task
    else .ok { s with tasks := s.tasks - 1, stack := [.proc .task] }
  | .async =>
    if b ≠ .ev ∨ s.stack ≠ [] ∨ s.watching = false ∨ s.sent = false then .ok s
    else if s.dead then .error .async
    else .ok { s with sent := false, stack := [.proc .async] }
  | .callback =>
    if s.stack ≠ [] ∨ s.raws = 0 then .ok s
    else if s.dead then .error .raw
    else .ok { s with raws := s.raws - 1, stack := [.proc .raw] }
  | .process => if s.dead then .ok s else .ok { s with stack := .proc .outside :: s.stack }
  | .finish => if s.dead then .ok s else .ok { s with watching := false }

/-- an execution; with every operation the choice of `raw` -/
def run (b : Backend) (s : State) : List (Op × Bool) → Except Fault State
  | [] => .ok s
  | (o, raw) :: os =>
    match step b raw s o with
    | .error f => .error f
    | .ok s' => run b s' os

end Verif.SupRefs
