import Verif.Lifetime.Reach

/-!
# C32: an actor is shut down only when all its subscriptions are gone
-/

namespace Verif.Lifetime
open Verif

/-- **C32**. Whatever the plugins answer, whatever the user subscribes and unsubscribes at whatever time: when the reply to
the shutdown request is sent, every subscription that was ever made (by a plugin for itself, through the starter or
anonymously) has been undone, exactly once. -/
theorem C32_no_subscription_left (c : Cfg) (env : Env) (ops : List Op) (s : State) (h : run c env (State.init c) ops = .ok s)
    (hr : .reply ∈ s.log) (x : Sub) : s.log.count (.made x) = s.log.count (.removed x) ∧ x ∉ s.live := by
  have hi := run_inv c env ops _ s (init_inv c) h
  have hl := (hi.all.dn (hi.k.rp hr)).1
  refine ⟨?_, by rw [hl]; simp⟩
  have := hi.k.cnt x
  rw [hl] at this
  simpa using this

/-- **C32**. The same for the reported state. -/
theorem C32_shut_down_means_none (c : Cfg) (env : Env) (ops : List Op) (s : State) (h : run c env (State.init c) ops = .ok s)
    (hd : s.st = .shutDown) : s.live = [] :=
  ((run_inv c env ops _ s (init_inv c) h).all.dn hd).1

/-- **C32**. At any time a subscription that was made is either in the table or has been undone once; nothing is undone
that was not made, and nothing twice. -/
theorem C32_undone_once (c : Cfg) (env : Env) (ops : List Op) (s : State) (h : run c env (State.init c) ops = .ok s) (x : Sub) :
    (.made x ∈ s.log → (x ∈ s.live ∧ .removed x ∉ s.log) ∨ (x ∉ s.live ∧ s.log.count (.removed x) = 1)) ∧
    (.made x ∉ s.log → x ∉ s.live ∧ .removed x ∉ s.log) := by
  have hi := run_inv c env ops _ s (init_inv c) h
  have h1 := hi.k.cnt x
  have h2 := hi.k.m1 x
  constructor
  · intro hm
    have h3 := List.count_pos_iff.2 hm
    by_cases hx : x ∈ s.live
    · have h4 := List.count_pos_iff.2 hx
      exact .inl ⟨hx, List.count_eq_zero.1 (by omega)⟩
    · have h4 := List.count_eq_zero.2 hx
      exact .inr ⟨hx, by omega⟩
  · intro hm
    have h3 := List.count_eq_zero.2 hm
    exact ⟨List.count_eq_zero.1 (by omega), List.count_eq_zero.1 (by omega)⟩

/-- **C32**. As long as the user does not subscribe or unsubscribe after the deactivation of the plugins (and makes
subscriptions to foreign addresses only through the starter) no assertion fails and no plugin is used after its
deactivation. -/
theorem C32_no_fault (c : Cfg) (env : Env) (ops : List Op) (hc : ∀ op ∈ ops, op.clean = true) :
    run c env (State.init c) ops ≠ .error .fault := by
  rcases run_good c env ops _ (.inl (init_good c)) hc with ⟨s', g1, _⟩ | g
  · rw [g1]; simp
  · rw [g]; simp

/-- **C32**. Under the same hypothesis, from the moment when the init_shutdown plugin has deactivated the others, one
confirmation for each remaining subscription finishes the shutdown, for any set of subscriptions. -/
theorem C32_completes (c : Cfg) (env : Env) (ops : List Op) (s : State) (h : run c env (State.init c) ops = .ok s)
    (hc : ∀ op ∈ ops, op.clean = true) (hs : s.react c.shut = false) :
    ∃ s', run c env s (List.replicate s.live.length .confirm) = .ok s' ∧ s'.st = .shutDown ∧ s'.live = [] := by
  rcases run_good c env ops _ (.inl (init_good c)) hc with ⟨s1, g1, g2⟩ | g
  · rw [g1] at h
    simp only [Except.ok.injEq] at h
    subst h
    rcases g2 with g | g | ⟨g, _⟩
    · rw [g.rs] at hs; simp at hs
    · obtain ⟨s', k1, k2⟩ := completes c env _ s1 g rfl
      exact ⟨s', k1, k2.st, k2.live⟩
    · rw [g.live]; exact ⟨s1, rfl, g.st, g.live⟩
  · rw [g] at h; simp at h

/-- **C32**. If no plugin objects, a shutdown request and the confirmations are enough. -/
theorem C32_request_completes (c : Cfg) (env : Env) (henv : ∀ l, env l = true) (ops : List Op) (s : State)
    (h : run c env (State.init c) ops = .ok s) (hc : ∀ op ∈ ops, op.clean = true) (hs : s.st = .operational) :
    ∃ s', run c env s (.request :: List.replicate s.live.length .confirm) = .ok s' ∧ s'.st = .shutDown ∧ s'.live = [] := by
  rcases run_good c env ops _ (.inl (init_good c)) hc with ⟨s1, g1, g2⟩ | g
  · rw [g1] at h
    simp only [Except.ok.injEq] at h
    subst h
    rcases g2 with g | g | ⟨g, _⟩
    · obtain ⟨s2, k1, k2, k3, k4, k5⟩ := continue_A (s := { s1 with st := .shuttingDown }) env
        (g.of rfl rfl rfl rfl rfl rfl (fun _ _ => rfl) (by simp) rfl rfl rfl) rfl
      obtain ⟨s', m1, m2⟩ := completes c env _ s2 (k5 henv) rfl
      refine ⟨s', ?_, m2.st, m2.live⟩
      simp only [run, step]
      rw [if_pos (by rw [hs]; simp [AState.rank]), k1]
      simp only
      rw [k3] at m1
      exact m1
    · rw [g.b.st] at hs; simp at hs
    · rw [g.st] at hs; simp at hs
  · rw [g] at h; simp at h

/-! ## a case -/

/-- address maker, lifetime, init_shutdown, link_server, resources, starter -/
def demo : Cfg where
  n := 6
  life := 1
  cnt p := if p = 1 then 3 else if p = 2 then 2 else if p = 3 then 4 else if p = 5 then 1 else 0
  votes p := decide (p = 1 ∨ p = 2 ∨ p = 4)
  hn := by decide
  hlife := rfl
  hstart := by decide
  hbefore := by intro i hi; have : i = 0 := by omega
                subst this; rfl
  hvlife := rfl
  hvshut := rfl

def agree : Env := fun _ => true

/-- three subscriptions of the user, one of them undone before; 12 confirmations bring the actor down -/
def demoOps : List Op :=
  [.subscribe true false, .subscribe false false, .subscribe true true, .unsubscribe ⟨some 5, true, 0, false⟩, .confirm, .request] ++
    List.replicate 12 .confirm

def summary (r : Except Err State) : Option (AState × Nat × Nat × Bool) :=
  match r with
  | .ok s => some (s.st, s.live.length, s.queue.length, s.lifeNull)
  | .error _ => none

example : summary (run demo agree (State.init demo) demoOps) = some (.shutDown, 0, 0, false) := by decide
example : summary (run demo agree (State.init demo) (demoOps.take 17)) = some (.shuttingDown, 1, 1, false) := by decide
example : ∀ op ∈ demoOps, op.clean = true := by decide
example : summary (run demo agree (State.init demo) (.request :: List.replicate 10 .confirm)) = some (.shutDown, 0, 0, true) := by decide

/-! ## without the hypotheses -/

def stuck (s : State) : Bool := decide (s.st = .shuttingDown) && decide (s.queue = []) && decide (s.live ≠ [])

theorem stuck_stays {c : Cfg} {env : Env} {s : State} (h : stuck s = true) : ∀ n, run c env s (List.replicate n .confirm) = .ok s := by
  simp only [stuck, Bool.and_eq_true, decide_eq_true_eq] at h
  intro n
  induction n with
  | zero => rfl
  | succ n ih =>
    simp only [List.replicate_succ, run, step, confirm, h.1.2]
    exact ih

def isStuck (r : Except Err State) : Bool :=
  match r with
  | .ok s => stuck s
  | .error _ => false

theorem exists_stuck {r : Except Err State} (h : isStuck r = true) : ∃ s, r = .ok s ∧ stuck s = true := by
  cases r with
  | error e => simp [isStuck] at h
  | ok s => exact ⟨s, rfl, h⟩

def isFault (r : Except Err State) : Bool :=
  match r with
  | .ok _ => false
  | .error e => decide (e = .fault)

theorem of_isFault {r : Except Err State} (h : isFault r = true) : r = .error .fault := by
  cases r with
  | ok s => simp [isFault] at h
  | error e => simp only [isFault, decide_eq_true_eq] at h; rw [h]

/-- An actor with an anonymous subscription subscribes once more (`actor_base_t::subscribe`) while the confirmation of the first
is awaited and all other plugins have left: the lifetime plugin asks for the removal only from within `shutdown_continue`,
which nobody calls any more. All messages are processed, the actor is SHUTTING_DOWN for ever. -/
theorem C32_late_subscription_counterexample :
    ∃ s, run demo agree (State.init demo) (.subscribe false false :: .request :: List.replicate 7 .confirm ++ [.lateSubscribe false false, .confirm]) = .ok s ∧
      s.st = .shuttingDown ∧ s.live ≠ [] ∧ ∀ n, run demo agree s (List.replicate n .confirm) = .ok s := by
  obtain ⟨s, h1, h2⟩ := exists_stuck (show isStuck (run demo agree (State.init demo)
    (.subscribe false false :: .request :: List.replicate 7 .confirm ++ [.lateSubscribe false false, .confirm])) = true by decide)
  refine ⟨s, h1, ?_, ?_, stuck_stays h2⟩
  · simp only [stuck, Bool.and_eq_true, decide_eq_true_eq] at h2; exact h2.1.1
  · simp only [stuck, Bool.and_eq_true, decide_eq_true_eq] at h2; exact h2.2

/-- The same with a subscription by the starter plugin, which has asked for the removal of its subscriptions before: it is not
asked again. -/
theorem C32_late_starter_subscription_counterexample :
    ∃ s, run demo agree (State.init demo) (.request :: .lateSubscribe true false :: List.replicate 7 .confirm) = .ok s ∧
      s.st = .shuttingDown ∧ s.live ≠ [] ∧ ∀ n, run demo agree s (List.replicate n .confirm) = .ok s := by
  obtain ⟨s, h1, h2⟩ := exists_stuck (show isStuck (run demo agree (State.init demo)
    (.request :: .lateSubscribe true false :: List.replicate 7 .confirm)) = true by decide)
  refine ⟨s, h1, ?_, ?_, stuck_stays h2⟩
  · simp only [stuck, Bool.and_eq_true, decide_eq_true_eq] at h2; exact h2.1.1
  · simp only [stuck, Bool.and_eq_true, decide_eq_true_eq] at h2; exact h2.2

/-- The user undoes a subscription made by the starter after the lifetime plugin has dropped the plugins' entries from its list:
the assertion in `lifetime_plugin_t::unsubscribe` fails. -/
theorem C32_late_unsubscription_counterexample :
    run demo agree (State.init demo) [.subscribe true false, .request, .lateUnsubscribe ⟨some 5, true, 0, false⟩] = .error .fault :=
  of_isFault (by decide)

/-- An anonymous subscription to an address of another locality: its confirmation finds no plugin. -/
theorem C32_anonymous_external_counterexample :
    run demo agree (State.init demo) (.subscribe false true :: .request :: List.replicate 8 .confirm) = .error .fault :=
  of_isFault (by decide)

end Verif.Lifetime
