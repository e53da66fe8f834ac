import Verif.Redirect.Props

/-!
# C62: who is called with a dispatched message, and what the operations of handlers do

`include/rotor/supervisor.h:367-374, 445-469`, `src/rotor/actor_base.cpp:48-52`.
-/

namespace Verif.Redirect

/-- the calls of handlers, oldest first, with the message -/
def calls (s : St) : List (Handler × Nat) :=
  (s.log.filterMap fun e => match e with | .call h m => some (h, m) | _ => none).reverse

theorem calls_op (m : Nat) (s : St) (o : Op) : calls (runOp m s o) = calls s := by
  cases o with
  | send a n => simp [calls, runOp, send, put, assign]
  | redirect a n => simp only [runOp, redirect, put, assign]; split <;> simp [calls]
  | keep => rfl
  | release x a n =>
    simp only [runOp]
    split
    · simp only [redirect, put, assign]; split <;> simp [calls]
    · rfl
  | forget x => rfl

theorem calls_ops (m : Nat) : ∀ (l : List Op) (s : St), calls (l.foldl (runOp m) s) = calls s := by
  intro l
  induction l with
  | nil => intro s; rfl
  | cons o l ih => intro s; rw [List.foldl_cons, ih, calls_op]

theorem calls_calls (env : Env) (m : Nat) : ∀ (l : List Handler) (s : St), calls (l.foldl (call env m) s) = calls s ++ l.map (·, m) := by
  intro l
  induction l with
  | nil => intro s; simp
  | cons h l ih =>
    intro s
    rw [List.foldl_cons, ih]
    simp only [call, calls_ops]
    simp [calls]

/-- **C62** With every dispatched message exactly the handlers subscribed to the address it was dispatched at are called, in the order of their
subscriptions and once each, whether or not messages are redirected while they wait; and every turn of the loop dispatches the first message of the queue. -/
theorem C62_called (subs : Addr → List Handler) (env : Env) (l : List Act) :
    calls (run subs env l) = (dispatched (run subs env l)).flatMap (fun p => (subs p.2).map (·, p.1)) ∧
    ∀ m q, (run subs env l).queue = m :: q →
      dispatched (run subs env (l ++ [.turn])) = dispatched (run subs env l) ++ [(m, ((run subs env l).heap m).addr)] := by
  have turn_disp : ∀ (s : St) (m : Nat) (q : List Nat), s.queue = m :: q →
      dispatched (turn subs env s) = dispatched s ++ [(m, (s.heap m).addr)] ∧ calls (turn subs env s) = calls s ++ (subs (s.heap m).addr).map (·, m) := by
    intro s m q hq
    have hd := (grows_foldl (grows_call env m) (subs (s.heap m).addr) { s with queue := q, log := .dispatch m (s.heap m).addr :: s.log }).disp
    have hc := calls_calls env m (subs (s.heap m).addr) { s with queue := q, log := .dispatch m (s.heap m).addr :: s.log }
    simp only [turn, hq]
    generalize ((subs (s.heap m).addr).foldl (call env m) { s with queue := q, log := .dispatch m (s.heap m).addr :: s.log }) = s2 at hd hc
    have hd' : dispatched s2 = dispatched s ++ [(m, (s.heap m).addr)] := by rw [hd]; simp [dispatched]
    have hc' : calls s2 = calls s ++ (subs (s.heap m).addr).map (·, m) := by rw [hc]; simp [calls]
    have e1 : ∀ n, dispatched (put (assign s2 m n none) m) = dispatched s2 := by intro n; simp [dispatched, put, assign]
    have e2 : ∀ n, calls (put (assign s2 m n none) m) = calls s2 := by intro n; simp [calls, put, assign]
    split
    · exact ⟨hd', hc'⟩
    · split
      · exact ⟨(e1 _).trans hd', (e2 _).trans hc'⟩
      · exact ⟨hd', hc'⟩
  constructor
  · have key : ∀ (l : List Act) (s : St), calls s = (dispatched s).flatMap (fun p => (subs p.2).map (·, p.1)) →
        calls (l.foldl (step subs env) s) = (dispatched (l.foldl (step subs env) s)).flatMap (fun p => (subs p.2).map (·, p.1)) := by
      intro l
      induction l with
      | nil => intro s h; exact h
      | cons c l ih =>
        intro s h
        rw [List.foldl_cons]
        refine ih _ ?_
        cases c with
        | send a n =>
          have e1 : calls (step subs env s (.send a n)) = calls s := by simp [step, calls, send, put, assign]
          have e2 : dispatched (step subs env s (.send a n)) = dispatched s := by simp [step, dispatched, send, put, assign]
          rw [e1, e2, h]
        | turn =>
          cases hq : s.queue with
          | nil => simpa [step, turn, hq] using h
          | cons m q =>
            obtain ⟨h1, h2⟩ := turn_disp s m q hq
            simp only [step]
            rw [h1, h2, h]
            simp
    exact key l init rfl
  · intro m q hq
    simp only [run, List.foldl_append, List.foldl_cons, List.foldl_nil]
    exact (turn_disp _ m q hq).1

/-- **C62** What the operations of handlers do, in every reachable state: `send` and `route` put a new object, one nobody refers to, `redirect` the same
one, both last, with the address and the route given; kept references are counted. A redirection of a waiting message is recorded. -/
theorem C62_recorded (subs : Addr → List Handler) (env : Env) (l : List Act) (s : St) (hs : s = run subs env l) (m : Nat) :
    (∀ a n, ∃ i, i ∉ s.queue ∧ i ∉ s.held ∧ (runOp m s (.send a n)).queue = s.queue ++ [i] ∧ (runOp m s (.send a n)).heap i = ⟨a, n⟩ ∧
      (∀ x, x ≠ i → (runOp m s (.send a n)).heap x = s.heap x) ∧ (runOp m s (.send a n)).log = .put i a :: s.log) ∧
    (∀ a n, (runOp m s (.redirect a n)).queue = s.queue ++ [m] ∧ (runOp m s (.redirect a n)).heap m = ⟨a, n⟩ ∧
      (∀ x, x ≠ m → (runOp m s (.redirect a n)).heap x = s.heap x) ∧
      (runOp m s (.redirect a n)).log = .put m a :: if m ∈ s.queue then .clash m :: s.log else s.log) ∧
    ((runOp m s .keep).held.count m = s.held.count m + 1 ∧ (runOp m s .keep).queue = s.queue ∧ (runOp m s .keep).log = s.log) ∧
    (∀ x, (runOp m s (.forget x)).held.count x = s.held.count x - 1 ∧ (runOp m s (.forget x)).queue = s.queue ∧ (runOp m s (.forget x)).log = s.log) ∧
    (∀ x a n, x ∈ s.held → (runOp m s (.release x a n)).held.count x = s.held.count x - 1 ∧ (runOp m s (.release x a n)).queue = s.queue ++ [x] ∧
      (runOp m s (.release x a n)).heap x = ⟨a, n⟩ ∧ (∀ y, y ≠ x → (runOp m s (.release x a n)).heap y = s.heap y) ∧
      (runOp m s (.release x a n)).log = .put x a :: if x ∈ s.queue then .clash x :: s.log else s.log) := by
  have hi : Inv s := hs ▸ inv_run l
  refine ⟨fun a n => ⟨s.fresh, ?_, ?_, ?_⟩, fun a n => ?_, ?_, fun x => ?_, fun x a n hx => ?_⟩
  · intro hc; exact absurd (hi.bound _ hc) (Nat.lt_irrefl _)
  · intro hc; exact absurd (hi.heldBound _ hc) (Nat.lt_irrefl _)
  · refine ⟨rfl, by simp [runOp, send, put, assign], fun x hx => by simp [runOp, send, put, assign, hx], by simp [runOp, send, put, assign]⟩
  · by_cases hq : m ∈ s.queue
    · exact ⟨by simp [runOp, redirect, put, assign, hq], by simp [runOp, redirect, put, assign, hq],
        fun x hx => by simp [runOp, redirect, put, assign, hq, hx], by simp [runOp, redirect, put, assign, hq]⟩
    · exact ⟨by simp [runOp, redirect, put, assign, hq], by simp [runOp, redirect, put, assign, hq],
        fun x hx => by simp [runOp, redirect, put, assign, hq, hx], by simp [runOp, redirect, put, assign, hq]⟩
  · simp [runOp]
  · simp [runOp, List.count_erase_self]
  · by_cases hq : x ∈ s.queue
    · exact ⟨by simp [runOp, redirect, put, assign, hq, hx, List.count_erase_self], by simp [runOp, redirect, put, assign, hq, hx],
        by simp [runOp, redirect, put, assign, hq, hx],
        fun y hy => by simp [runOp, redirect, put, assign, hq, hx, hy], by simp [runOp, redirect, put, assign, hq, hx]⟩
    · exact ⟨by simp [runOp, redirect, put, assign, hq, hx, List.count_erase_self], by simp [runOp, redirect, put, assign, hq, hx],
        by simp [runOp, redirect, put, assign, hq, hx],
        fun y hy => by simp [runOp, redirect, put, assign, hq, hx, hy], by simp [runOp, redirect, put, assign, hq, hx]⟩

/-- the state in which the handlers of the address leave the locality when the first message of the queue is dispatched -/
def handled (subs : Addr → List Handler) (env : Env) (s : St) (m : Nat) (q : List Nat) : St :=
  (subs (s.heap m).addr).foldl (call env m) { s with queue := q, log := .dispatch m (s.heap m).addr :: s.log }

/-- **C62** A message whose handlers have all run is moved on to its next route, once, if nobody kept, redirected or otherwise refers to it, and is left
alone if somebody does. -/
theorem C62_hop (subs : Addr → List Handler) (env : Env) (s : St) (m : Nat) (q : List Nat) (hq : s.queue = m :: q) :
    (∀ n, ((handled subs env s m q).heap m).next = some n → m ∉ (handled subs env s m q).queue → m ∉ (handled subs env s m q).held →
      (turn subs env s).queue = (handled subs env s m q).queue ++ [m] ∧ (turn subs env s).heap m = ⟨n, none⟩ ∧
      (turn subs env s).log = .put m n :: (handled subs env s m q).log) ∧
    ((m ∈ (handled subs env s m q).queue ∨ m ∈ (handled subs env s m q).held ∨ ((handled subs env s m q).heap m).next = none) →
      turn subs env s = handled subs env s m q) := by
  have e : turn subs env s = (match ((handled subs env s m q).heap m).next with
      | none => handled subs env s m q
      | some n => if useCount (handled subs env s m q) m = 1 then put (assign (handled subs env s m q) m n none) m else handled subs env s m q) := by
    simp only [turn, hq, handled]; rfl
  generalize handled subs env s m q = s2 at e
  constructor
  · intro n hn h1 h2
    have hu : useCount s2 m = 1 := by simp [useCount, List.count_eq_zero_of_not_mem h1, List.count_eq_zero_of_not_mem h2]
    simp only [hn, hu, if_true] at e
    rw [e]
    simp [put, assign]
  · intro h
    rw [e]
    split
    · rfl
    · rename_i n hn
      rw [if_neg]
      intro hu
      simp only [useCount] at hu
      rcases h with h | h | h
      · have := List.count_pos_iff.mpr h; omega
      · have := List.count_pos_iff.mpr h; omega
      · rw [h] at hn; cases hn

/-- two handlers at address 1, one of which redirects, one at 2 -/
def three : Addr → List Handler := fun a => if a = 1 then [10, 11] else if a = 2 then [20] else []
def passOn : Env := fun h _ _ => if h = 10 then [.redirect 2 none, .keep] else []

example : (calls (run three passOn [.send 1 none, .send 2 none, .turn, .turn, .turn]),
    dispatched (run three passOn [.send 1 none, .send 2 none, .turn, .turn, .turn])) =
    ([(10, 0), (11, 0), (20, 1), (20, 0)], [(0, 1), (1, 2), (0, 2)]) := by decide

/-- nobody refers to the message: moved on; the handler keeps it: left alone -/
example : (run three (fun _ _ _ => []) [.send 2 (some 5), .turn]).queue = [0] ∧
    (run three (fun _ _ _ => [.keep]) [.send 2 (some 5), .turn]).queue = [] := by decide

end Verif.Redirect
