import Verif.SupTeardown.Props
/-! # Concrete cases for C72, and a counterexample for requests made too late -/

namespace Verif.SupTeardown
open Verif

/-- a supervisor with few plugins: lifetime, init_shutdown, foreigners_support, child manager, starter, in the order of `supervisor.h:77-90` -/
def sup : Cfg where
  n := 5
  life := 0
  cm := 3
  fgn := 2
  cnt := fun p => [3, 1, 1, 1, 1].getD p 0
  votes := fun p => [true, true, false, true, false].getD p false
  hcm1 := by decide
  hcm2 := by decide
  hlife := by decide
  hcnt := by decide
  hstart := by decide
  hbefore := by decide
  hvlife := by decide
  hvshut := by decide
  hvcm := by decide
  hf1 := by decide
  hf2 := by decide
  hf3 := by decide
  hvf := by decide

/-- everybody agrees -/
def yes : Env := fun _ => true

/-- what can be seen of a result -/
def view : Except Err State → Option (AState × List Nat × List Sub × Nat × Bool × Nat)
  | .ok s => some (s.st, s.kids, s.mapping, s.queue.length, s.selfRec, size sup s)
  | .error _ => none

/-- a supervisor with two children; child 1 has made a request itself -/
def two : List Op := [.create 1, .create 2, .request 0 1, .request 1 5, .subscribe true, .subscribe false, .shutdown]

-- the children are asked, nothing is deactivated
example : view (run sup yes (State.init sup) two) =
    some (.shuttingDown, [2, 1], [.map 0 1 0, .map 1 5 1, .map 0 shutTy 4], 0, true, 20) := by decide +kernel
-- the record of child 1 stays until the subscription for its responses is gone
example : view (run sup yes (State.init sup) (two ++ [.kidConfirm 1])) =
    some (.shuttingDown, [2, 1], [.map 0 1 0, .map 1 5 1, .map 0 shutTy 4], 1, true, 20) := by decide +kernel
example : view (run sup yes (State.init sup) (two ++ [.kidConfirm 1, .confirm])) =
    some (.shuttingDown, [2], [.map 0 1 0, .map 0 shutTy 4], 0, true, 19) := by decide +kernel
-- the last child confirms: the plugins are deactivated, except the child manager
example : view (run sup yes (State.init sup) (two ++ [.kidConfirm 1, .confirm, .kidConfirm 2])) =
    some (.shuttingDown, [], [.map 0 1 0, .map 0 shutTy 4], 7, true, 11) := by decide +kernel
-- eleven messages finish the shutdown
example : view (run sup yes (State.init sup) (two ++ [.kidConfirm 1, .confirm, .kidConfirm 2] ++ List.replicate 10 .confirm)) =
    some (.shuttingDown, [], [], 1, false, 1) := by decide +kernel
example : view (run sup yes (State.init sup) (two ++ [.kidConfirm 1, .confirm, .kidConfirm 2] ++ List.replicate 11 .confirm)) =
    some (.shutDown, [], [], 0, false, 0) := by decide +kernel
-- a supervisor without children and requests: its own record is removed during the deactivation, in a nested round
example : view (run sup yes (State.init sup) [.shutdown]) = some (.shuttingDown, [], [], 4, false, 7) := by decide +kernel
example : view (run sup yes (State.init sup) (.shutdown :: List.replicate 7 .confirm)) =
    some (.shutDown, [], [], 0, false, 0) := by decide +kernel
-- one level of `shutdown_continue` would not be enough
example : sc sup yes 1 { State.init sup with st := .shuttingDown } = .error .deep := by rfl

/-! ## the last subscriber of another locality leaves -/

/-- The exception in `C72_children_first` is needed: when the last subscriber of another locality leaves during the shutdown, the
plugin for them is deactivated while there still are children. Nothing else is affected: the shutdown goes on as before. -/
theorem C72_foreigners_first_counterexample :
    ∃ s, run sup yes (State.init sup) (two ++ [.foreignLeft, .confirm]) = .ok s ∧ .created 1 ∈ s.log ∧ .gone 1 ∉ s.log ∧
      s.active sup.fgn = false ∧ .removed (.plug sup.fgn 0) ∈ s.log := by
  have h : (match run sup yes (State.init sup) (two ++ [.foreignLeft, .confirm]) with
      | .ok s => decide (.created 1 ∈ s.log ∧ .gone 1 ∉ s.log ∧ s.active sup.fgn = false ∧ .removed (.plug sup.fgn 0) ∈ s.log)
      | .error _ => false) = true := by decide +kernel
  revert h
  generalize run sup yes (State.init sup) (two ++ [.foreignLeft, .confirm]) = r
  intro h
  match r, h with
  | .ok s, h => exact ⟨s, rfl, by simpa only [decide_eq_true_eq] using h⟩

-- the shutdown goes on as before
example : view (run sup yes (State.init sup) ([.create 1, .shutdown, .foreignLeft, .confirm, .kidConfirm 1] ++
    List.replicate 7 .confirm)) = some (.shutDown, [], [], 0, false, 0) := by decide +kernel
-- also when the children are gone before the messages of the plugin are delivered
example : view (run sup yes (State.init sup) ([.create 1, .shutdown, .foreignLeft, .kidConfirm 1] ++
    List.replicate 8 .confirm)) = some (.shutDown, [], [], 0, false, 0) := by decide +kernel

/-! ## requests of the supervisor after its plugins were deactivated -/

def isFault : Except Err State → Bool
  | .error .fault => true
  | _ => false

/-- the state after `pre`, in which `p` holds, and what follows when the supervisor makes a request then -/
def late (pre : List Op) (p : State → Bool) (ty : Nat) (post : List Op) (q : Except Err State → Bool) : Bool :=
  match run sup yes (State.init sup) pre with
  | .error _ => false
  | .ok s => p s && q (run sup yes (request 0 ty s) post)

theorem late_spec {pre : List Op} {p : State → Bool} {ty : Nat} {post : List Op} {q : Except Err State → Bool}
    (h : late pre p ty post q = true) :
    ∃ s, run sup yes (State.init sup) pre = .ok s ∧ p s = true ∧ q (run sup yes (request 0 ty s) post) = true := by
  simp only [late] at h
  split at h
  · cases h
  · next s e =>
    rw [Bool.and_eq_true] at h
    exact ⟨s, e, h.1, h.2⟩

/-- The restriction of `Op.request` is needed. A supervisor that has never made a request makes its first one after its
plugins were deactivated, in a handler (`user 0`) that still is subscribed at this time: the subscription for the response is
removed after the record of the supervisor and the child manager are gone. -/
theorem C72_late_first_request_counterexample :
    ∃ s, run sup yes (State.init sup) [.subscribe true, .shutdown] = .ok s ∧ s.own sup.starter = [.plug 4 0, .user 0] ∧
      run sup yes (request 0 1 s) (List.replicate 6 .confirm) = .error .fault := by
  obtain ⟨s, h1, h2, h3⟩ := late_spec (pre := [.subscribe true, .shutdown]) (p := fun s => decide (s.own sup.starter = [.plug 4 0, .user 0]))
    (ty := 1) (post := List.replicate 6 .confirm) (q := isFault) (by decide +kernel)
  refine ⟨s, h1, by simpa using h2, ?_⟩
  revert h3
  generalize run sup yes (request 0 1 s) (List.replicate 6 .confirm) = r
  intro h3
  match r, h3 with
  | .error .fault, _ => rfl

/-- Even when there have been requests before: a request of a new type in an anonymous handler (`anon 1`, still subscribed)
leaves a subscription nobody will remove, and the supervisor is `SHUTTING_DOWN` for ever. -/
theorem C72_late_request_counterexample :
    ∃ s s', run sup yes (State.init sup) [.request 0 1, .subscribe false, .shutdown, .confirm, .confirm, .confirm] = .ok s ∧ .anon 1 ∈ s.points ∧
      run sup yes (request 0 2 s) (List.replicate 2 .confirm) = .ok s' ∧ s'.st = .shuttingDown ∧ s'.points = [.map 0 2 2] ∧
      ∀ n, run sup yes s' (List.replicate n .confirm) = .ok s' := by
  obtain ⟨s, h1, h2, h3⟩ := late_spec (pre := [.request 0 1, .subscribe false, .shutdown, .confirm, .confirm, .confirm])
    (p := fun s => decide (.anon 1 ∈ s.points))
    (ty := 2) (post := List.replicate 2 .confirm) (q := fun r => match r with
      | .ok s' => decide (s'.st = .shuttingDown ∧ s'.points = [.map 0 2 2] ∧ s'.queue = [])
      | .error _ => false) (by decide +kernel)
  refine ⟨s, ?_⟩
  revert h3
  generalize run sup yes (request 0 2 s) (List.replicate 2 .confirm) = r
  intro h3
  match r, h3 with
  | .ok s', h3 =>
    simp only [decide_eq_true_eq] at h3
    refine ⟨s', h1, by simpa using h2, rfl, h3.1, h3.2.1, ?_⟩
    intro n
    induction n with
    | zero => rfl
    | succ n ih =>
      rw [List.replicate_succ]
      have : step sup yes s' .confirm = .ok s' := by simp only [step, confirm, h3.2.2]
      simp only [run, this]
      exact ih

end Verif.SupTeardown
