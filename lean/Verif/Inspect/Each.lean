import Verif.Inspect.Props

/-!
# C46: what a turn of the loops does, and what is printed
-/

namespace Verif.Inspect

/-- what the loops do with handlers: a message is wrapped for a handler of another supervisor; a handler is called -/
inductive Call where
  | wrap (m h : Nat)
  | call (h : Nat) (m : Option Nat)
deriving DecidableEq, Repr

def lower {σ : Type} (w : World (σ × List Call)) : World σ := ⟨w.queue, w.addr, w.route, w.refs, w.foreign, w.rest.1⟩
def lift {σ : Type} (w : World σ) (l : List Call) : World (σ × List Call) := ⟨w.queue, w.addr, w.route, w.refs, w.foreign, (w.rest, l)⟩

/-- the environment `e` with a record of all calls -/
def recording {σ : Type} (e : Env σ) : Env (σ × List Call) where
  same := e.same
  recipients w m := e.recipients (lower w) m
  wrap w m h := lift (e.wrap (lower w) m h) (w.rest.2 ++ [.wrap m h])
  call w h m := (lift (e.call (lower w) h m).1 (w.rest.2 ++ [.call h m]), (e.call (lower w) h m).2)
  line p w m := e.line p (lower w) m
  release w m := lift (e.release (lower w) m) w.rest.2

/-- the calls that message `m` has to get: one per recipient -/
def due (j : Option Joint) (m : Nat) : List Call :=
  match j with
  | none => []
  | some j => j.ext.map (.wrap m) ++ j.int.map (fun h => .call h (some m))

theorem recording_keeps {σ : Type} {e : Env σ} (hk : Keeps e) : Keeps (recording e) := fun w h m => hk (lower w) h m

theorem wraps {σ : Type} (e : Env σ) (m : Nat) : ∀ (l : List Nat) (w : World (σ × List Call)),
    (l.foldl (fun w h => (recording e).wrap w m h) w).rest.2 = w.rest.2 ++ l.map (.wrap m) := by
  intro l
  induction l with
  | nil => intro w; simp
  | cons h l ih => intro w; rw [List.foldl_cons, ih]; simp [recording, lift]

theorem calls {σ : Type} {e : Env σ} (hk : Keeps e) (m : Nat) : ∀ (l : List Nat) (w : World (σ × List Call)),
    (callAll (recording e) l w (some m)).1.rest.2 = w.rest.2 ++ l.map (fun h => .call h (some m)) := by
  intro l
  induction l with
  | nil => intro w; simp [callAll]
  | cons h l ih =>
    intro w
    simp only [callAll]
    rw [recording_keeps hk w h m, ih]
    simp [recording, lift]

/-- what becomes of a message after the handlers have left the world `w1`: it is sent on if it has a route and nobody else refers to it, otherwise given
up -/
def After {σ : Type} (e : Env σ) (w1 w' : World σ) (m : Nat) : Prop :=
  (∀ a, w1.route m = some a → w1.refs m = 1 → w'.queue = w1.queue ++ [m] ∧ w'.addr m = a ∧ w'.route m = none ∧
    (∀ x, x ≠ m → w'.addr x = w1.addr x ∧ w'.route x = w1.route x) ∧ w'.refs = w1.refs ∧ w'.foreign = w1.foreign ∧ w'.rest = w1.rest) ∧
  (w1.route m = none ∨ w1.refs m ≠ 1 → w' = e.release w1 m)

/-- **C46.** A turn of the plain loop (and so, with `C46_equivalent`, of the inspected one) takes the first message `m`. If its address belongs to
another supervisor, it is handed over; otherwise exactly the recipients it has at that time get it, each once and in order, and then it is sent on or
given up. -/
theorem C46_delivers {σ : Type} (e : Env σ) (hk : Keeps e) (w : World (σ × List Call)) (m : Nat) (q : List Nat) (hq : w.queue = m :: q) :
    (e.same (w.addr m) = false → process (recording e) 1 w = .ok ({ w with queue := q, foreign := w.foreign ++ [(w.addr m, m)] }, 1)) ∧
    (e.same (w.addr m) = true → ∃ w1 w', process (recording e) 1 w = .ok (w', 0) ∧
      w1.rest.2 = w.rest.2 ++ due ((recording e).recipients { w with queue := q } m) m ∧ After (recording e) w1 w' m) := by
  have hk' := recording_keeps hk
  refine ⟨fun hs => ?_, fun hs => ?_⟩
  · have hs' : (recording e).same (w.addr m) = false := hs
    simp [process, hq, turn, hs', enqueue]
  · have hs' : (recording e).same (w.addr m) = true := hs
    simp only [process, hq, turn]
    rw [if_pos hs']
    cases hj : (recording e).recipients { w with queue := q } m with
    | none =>
      simp only
      refine ⟨{ w with queue := q }, ?_⟩
      cases hr : w.route m with
      | none => exact ⟨_, rfl, by simp [due], by simp [hr], by simp⟩
      | some a =>
        simp only
        by_cases h1 : w.refs m = 1
        · rw [if_pos h1]
          refine ⟨_, rfl, by simp [due], ?_, by simp [hr, h1]⟩
          intro a' ha' _
          simp only [hr, Option.some.injEq] at ha'
          subst ha'
          exact ⟨rfl, by simp [reroute], by simp [reroute], fun x hx => by simp [reroute, hx], rfl, rfl, rfl⟩
        · rw [if_neg h1]
          exact ⟨_, rfl, by simp [due], by simp [h1], by simp⟩
    | some j =>
      simp only [delivery_keeps (recording e) hk']
      have hrec : (delivery (recording e) { w with queue := q } m j).1.rest.2 = w.rest.2 ++ due (some j) m := by
        simp only [delivery, calls hk, wraps, due, List.append_assoc]
      generalize (delivery (recording e) { w with queue := q } m j).1 = w1 at hrec
      refine ⟨w1, ?_⟩
      cases hr : w1.route m with
      | none => exact ⟨_, rfl, hrec, by simp [hr], by simp⟩
      | some a =>
        simp only
        by_cases h1 : w1.refs m = 1
        · rw [if_pos h1]
          refine ⟨_, rfl, hrec, ?_, by simp [hr, h1]⟩
          intro a' ha' _
          rw [hr] at ha'
          cases ha'
          exact ⟨rfl, by simp [reroute], by simp [reroute], fun x hx => by simp [reroute, hx], rfl, rfl, rfl⟩
        · rw [if_neg h1]
          exact ⟨_, rfl, hrec, by simp [h1], by simp⟩

/-- **C46.** The loop goes on turn after turn and counts the messages it hands over: `n + k` turns are `n` turns and `k` more. -/
theorem C46_turns {σ : Type} (e : Env σ) : ∀ (n k : Nat) (w w1 : World σ) (c : Nat), process e n w = .ok (w1, c) →
    process e (n + k) w = (match process e k w1 with | .error f => .error f | .ok (w2, c2) => .ok (w2, c + c2)) := by
  intro n
  induction n with
  | zero =>
    intro k w w1 c h
    simp only [process, Except.ok.injEq, Prod.mk.injEq] at h
    obtain ⟨rfl, rfl⟩ := h
    rw [Nat.zero_add]
    cases process e k w with
    | error f => rfl
    | ok r => simp
  | succ n ih =>
    intro k w w1 c h
    rw [Nat.succ_add]
    simp only [process] at h ⊢
    cases hq : w.queue with
    | nil =>
      rw [hq] at h
      simp only [Except.ok.injEq, Prod.mk.injEq] at h
      obtain ⟨rfl, rfl⟩ := h
      cases k with
      | zero => simp [process]
      | succ k => simp [process, hq]
    | cons m q =>
      rw [hq] at h
      simp only at h ⊢
      cases ht : turn e w m q with
      | error f => rw [ht] at h; cases h
      | ok r =>
        obtain ⟨w', c'⟩ := r
        rw [ht] at h
        simp only at h ⊢
        cases hp : process e n w' with
        | error f => rw [hp] at h; cases h
        | ok r2 =>
          obtain ⟨w2, c2⟩ := r2
          rw [hp] at h
          simp only [Except.ok.injEq, Prod.mk.injEq] at h
          obtain ⟨rfl, rfl⟩ := h
          rw [ih k w' w2 c2 hp]
          cases process e k w2 with
          | error f => rfl
          | ok r3 => simp [Nat.add_assoc]

/-- **C46.** What is printed in a turn: for a delivered message at most one line, made before the handlers run; for a message that nobody gets and that is
not sent on, the note that it is discarded; nothing for messages of other supervisors and for messages sent on without a recipient. -/
theorem C46_printed {σ : Type} (e : Env σ) (hk : Keeps e) (w : World σ) (m : Nat) (q : List Nat) (hq : w.queue = m :: q) :
    ∃ w' k, processInspected e 1 w = .ok (w', k,
      if e.same (w.addr m) = true then
        match e.recipients { w with queue := q } m with
        | some _ => (e.line ">> " { w with queue := q } m).toList
        | none => if (w.route m).isSome = true ∧ w.refs m = 1 then [] else (e.line "<DISCARDED> " { w with queue := q } m).toList
      else []) := by
  simp only [processInspected, hq, turnInspected]
  by_cases hs : e.same (w.addr m) = true
  · rw [if_pos hs, if_pos hs]
    cases hj : e.recipients { w with queue := q } m with
    | none =>
      simp only
      cases hr : w.route m with
      | none => simp [turnInspected.finish]
      | some a =>
        simp only
        by_cases h1 : w.refs m = 1
        · simp [h1]
        · simp [h1, turnInspected.finish]
    | some j =>
      simp only [delivery_keeps e hk]
      cases hr : (delivery e { w with queue := q } m j).1.route m with
      | none => simp [turnInspected.finish, delivery_keeps e hk]
      | some a =>
        simp only
        by_cases h1 : (delivery e { w with queue := q } m j).1.refs m = 1
        · simp [h1]
        · simp [h1, turnInspected.finish, delivery_keeps e hk]
  · rw [if_neg hs, if_neg hs]
    simp

/-- a case: message 5 is given to handler 1 and then sent on, message 6 is handed over -/
example : ∃ w c, process (recording exEnv) 2 (lift exW []) = .ok (w, c) ∧ c = 1 ∧ w.rest.2 = [.call 1 (some 5)] ∧ w.addr 5 = 2 ∧ w.foreign = [(3, 6)] :=
  ⟨_, _, rfl, rfl, rfl, rfl, rfl⟩

end Verif.Inspect
