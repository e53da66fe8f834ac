/-!
# Model of the wake-up protocol of the FLTK backend

Source: `src/rotor/fltk/system_context_fltk.cpp:27-58`.

Atomic steps: a push to / pop from the lock-free inbound queue, an operation on the atomic counter,
`Fl::awake`.  A message is counted, not named; several contexts of the same process are numbered.
Simplifications: `Fl::awake` never fails (its ring buffer may be full in reality); the callbacks of
several contexts may overlap (FLTK runs them one after the other, which is the special case); the
32-bit counter does not overflow.
-/

namespace Verif.Fltk

/-- where the callback `_callback` of a context is -/
inductive Drain where
  /-- not running -/
  | idle
  /-- in the loop of lines 38-41, having fetched `n` messages -/
  | fetching (n : Nat)
  /-- after `do_process`, about to subtract, line 44 -/
  | processed (n : Nat)
deriving DecidableEq, Repr

structure Ctx where
  /-- messages in the inbound queue of the root supervisor -/
  inbound : Nat
  /-- threads between `push` (line 53) and `fetch_add` (line 54) -/
  pushing : Nat
  /-- `Fl::awake` calls whose callback has not run yet -/
  pending : Nat
  drain : Drain
  /-- messages handed over to the queue of the locality -/
  delivered : Nat
deriving DecidableEq, Repr

def Ctx.init : Ctx := ⟨0, 0, 0, .idle, 0⟩

/-- `counter`: the static `queue_counter`, line 27, shared by all the contexts -/
structure State where
  counter : Int
  ctx : Nat → Ctx

def State.init : State := ⟨0, fun _ => .init⟩

inductive Label where
  /-- a thread pushes a message for context `k`, line 53 -/
  | push (k : Nat)
  /-- a thread that has pushed increments the counter and perhaps wakes up the loop, lines 54-56 -/
  | add (k : Nat)
  /-- the loop of FLTK starts a pending callback -/
  | start (k : Nat)
  /-- the callback of context `k` makes a step -/
  | drain (k : Nat)
deriving DecidableEq, Repr

def State.set (s : State) (k : Nat) (c : Ctx) : State := { s with ctx := fun j => if j = k then c else s.ctx j }

/-- lines 52-53 -/
def push (c : Ctx) : Ctx := { c with inbound := c.inbound + 1, pushing := c.pushing + 1 }

/-- lines 54-56; `old`: the counter before -/
def add (old : Int) (c : Ctx) : Ctx :=
  { c with pushing := c.pushing - 1, pending := if old = 0 then c.pending + 1 else c.pending }

/-- one step of the callback, lines 35-46; the counter may change -/
def drainStep (counter : Int) (c : Ctx) : Option (Int × Ctx) :=
  match c.drain with
  | .idle => none
  | .fetching n =>
    if c.inbound = 0 then
      if n = 0 then some (counter, { c with drain := .idle })
      else some (counter, { c with drain := .processed n })
    else some (counter, { c with inbound := c.inbound - 1, drain := .fetching (n + 1), delivered := c.delivered + 1 })
  | .processed n =>
    some (counter - n, { c with drain := if counter = n then .idle else .fetching 0 })

def step (s : State) : Label → Option State
  | .push k => some (s.set k (push (s.ctx k)))
  | .add k => if (s.ctx k).pushing = 0 then none
              else some { s.set k (add s.counter (s.ctx k)) with counter := s.counter + 1 }
  | .start k =>
    if (s.ctx k).pending = 0 ∨ (s.ctx k).drain ≠ .idle then none
    else some (s.set k { s.ctx k with pending := (s.ctx k).pending - 1, drain := .fetching 0 })
  | .drain k => match drainStep s.counter (s.ctx k) with
    | none => none
    | some (n, c) => some { s.set k c with counter := n }

def run (s : State) : List Label → Option State
  | [] => some s
  | l :: ls => match step s l with
    | none => none
    | some s' => run s' ls

end Verif.Fltk
