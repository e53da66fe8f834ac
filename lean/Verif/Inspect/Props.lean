import Verif.Inspect.Model

/-!
# C46: inspected delivery is equivalent to plain delivery
-/

namespace Verif.Inspect

/-- handlers leave the pointer they are called with in place (true for all handler classes of the library:
`handler_t::call`, `lambda_handler`, `handler_intercepted_t::call` in `include/rotor/handler.h`) -/
def Keeps {σ : Type} (e : Env σ) : Prop := ∀ w h m, (e.call w h (some m)).2 = some m

/-- forget what was printed -/
def dropOut {σ : Type} : Except Fault (World σ × Nat × List String) → Except Fault (World σ × Nat)
  | .error f => .error f
  | .ok (w, k, _) => .ok (w, k)

theorem callAll_keeps {σ : Type} (e : Env σ) (hk : Keeps e) (m : Nat) : ∀ (hs : List Nat) (w : World σ), (callAll e hs w (some m)).2 = some m := by
  intro hs
  induction hs with
  | nil => intro w; rfl
  | cons h hs ih => intro w; simp only [callAll]; rw [hk w h m]; exact ih _

theorem delivery_keeps {σ : Type} (e : Env σ) (hk : Keeps e) (w : World σ) (m : Nat) (j : Joint) : (delivery e w m j).2 = some m :=
  callAll_keeps e hk m _ _

theorem turn_same {σ : Type} (e : Env σ) (hk : Keeps e) (w : World σ) (m : Nat) (q : List Nat) :
    dropOut (turnInspected e w m q) = turn e w m q := by
  simp only [turnInspected, turn]
  by_cases hs : e.same (w.addr m) = true
  · rw [if_pos hs, if_pos hs]
    cases hj : e.recipients { w with queue := q } m with
    | some j =>
      simp only [delivery_keeps e hk]
      cases hr : (delivery e { w with queue := q } m j).1.route m with
      | none => simp only [turnInspected.finish, delivery_keeps e hk, dropOut]
      | some a =>
        simp only
        by_cases h1 : (delivery e { w with queue := q } m j).1.refs m = 1
        · rw [if_pos h1, if_pos h1]; rfl
        · rw [if_neg h1, if_neg h1]; simp only [turnInspected.finish, delivery_keeps e hk, dropOut]
    | none =>
      simp only
      cases hr : w.route m with
      | none => simp only [turnInspected.finish, dropOut]
      | some a =>
        simp only
        by_cases h1 : w.refs m = 1
        · rw [if_pos h1, if_pos h1]; rfl
        · rw [if_neg h1, if_neg h1]; simp only [turnInspected.finish, dropOut]
  · rw [if_neg hs, if_neg hs]; rfl

/-- **C46.** From every state, with every handler behaviour, every subscription table and every behaviour of
the rest of the world: after any number of turns the two loops have produced the same world (queue,
addresses, routes, reference counts, messages for other supervisors, everything else) and the same
count of enqueued messages; they differ only in what is printed. -/
theorem C46_equivalent {σ : Type} (e : Env σ) (hk : Keeps e) : ∀ (n : Nat) (w : World σ), dropOut (processInspected e n w) = process e n w := by
  intro n
  induction n with
  | zero => intro w; rfl
  | succ n ih =>
    intro w
    simp only [processInspected, process]
    cases w.queue with
    | nil => rfl
    | cons m q =>
      simp only
      have ht := turn_same e hk w m q
      cases hi : turnInspected e w m q with
      | error f => rw [hi] at ht; simp only [dropOut] at ht; rw [← ht]; rfl
      | ok r =>
        obtain ⟨w1, k, o⟩ := r
        rw [hi] at ht
        simp only [dropOut] at ht
        rw [← ht]
        simp only
        rw [← ih w1]
        cases processInspected e n w1 with
        | error f => rfl
        | ok r2 => obtain ⟨w2, k2, o2⟩ := r2; rfl

/-- the log is not printed unless something is delivered or discarded: a world with an empty queue prints
nothing -/
theorem C46_silent_when_idle {σ : Type} (e : Env σ) (n : Nat) (w : World σ) (h : w.queue = []) : processInspected e n w = .ok (w, 0, []) := by
  cases n with
  | zero => rfl
  | succ n => simp [processInspected, h]

/-! ## concrete cases -/

/-- one handler (1) that sends message 9 when it sees message 5, nobody for address 2; address 3 is foreign -/
def exEnv : Env (List (Nat × Nat)) where
  same a := a != 3
  recipients w m := if w.addr m = 1 then some ⟨[], [1]⟩ else none
  wrap w _ _ := w
  call w h m := ({ w with queue := if m = some 5 then w.queue ++ [9] else w.queue, rest := w.rest ++ [(h, m.getD 0)] }, m)
  line p _ m := some (p ++ toString m)
  release w m := { w with refs := fun x => if x = m then w.refs x - 1 else w.refs x }

theorem exKeeps : Keeps exEnv := fun _ _ _ => rfl

/-- message 5 to address 1 with route 2, message 6 to the foreign address, message 9 to address 2 -/
def exW : World (List (Nat × Nat)) :=
  ⟨[5, 6], fun m => if m = 5 then 1 else if m = 6 then 3 else 2, fun m => if m = 5 then some 2 else none, fun _ => 1, [], []⟩

example : ∃ w k, process exEnv 10 exW = .ok (w, k) ∧ k = 1 ∧ w.rest = [(1, 5)] ∧ w.foreign = [(3, 6)] ∧ w.queue = [] ∧ w.addr 5 = 2 :=
  ⟨_, _, rfl, rfl, rfl, rfl, rfl, rfl⟩

example : ∃ w k, processInspected exEnv 10 exW = .ok (w, k, [">> 5", "<DISCARDED> 9", "<DISCARDED> 5"]) ∧ k = 1 ∧ w.rest = [(1, 5)] :=
  ⟨_, _, rfl, rfl, rfl⟩

/-- **The hypothesis is needed**: with a handler that takes the pointer away the plain loop dereferences a
null pointer, the inspected one does not when the message has no route. -/
theorem C46_stolen_pointer_counterexample : ∃ (e : Env Unit) (w : World Unit), (process e 1 w matches .error _) ∧ (processInspected e 1 w matches .ok _) :=
  ⟨⟨fun _ => true, fun _ _ => some ⟨[], [0]⟩, fun w _ _ => w, fun w _ _ => (w, none), fun _ _ _ => none, fun w _ => w⟩,
   ⟨[0], fun _ => 0, fun _ => none, fun _ => 1, [], ()⟩, rfl, rfl⟩

end Verif.Inspect
