import Verif.ThreadTimers.Props

/-! # C16: cancelling a timer in an ordinary handler -/

namespace Verif.ThreadTimers

/-- outside of blocking handlers nothing gets lost -/
def Safe : Except Err State → Prop
  | .ok s => s.intercepting = false
  | .error (.notFound _ _) => False
  | .error _ => True

theorem exec_safe (n : Nat) (env : Env) : ∀ (cmd : Cmd) (s : State), s.intercepting = false → Safe (exec n env cmd s) := by
  induction n with
  | zero => intro cmd s _; simp [exec, Safe]
  | succ n ih =>
    intro cmd s hs
    cases cmd with
    | acts l =>
      cases l with
      | nil => simpa [exec, Safe] using hs
      | cons a l =>
        cases a with
        | work d => simp only [exec]; exact ih _ _ hs
        | start iv =>
          have hn : ¬ s.intercepting = true := by simp [hs]
          simp only [exec]
          rw [if_neg hn]
          exact ih _ _ hs
        | cancel id =>
          have hn : ¬ s.intercepting = true := by simp [hs]
          simp only [exec]
          rw [if_neg hn]
          split
          · simp [Safe]
          simp only
          split
          · simp [Safe]
          have h1 := ih (.trigger id true) { s with log := .cancelReq id :: s.log } hs
          revert h1
          cases exec n env (.trigger id true) { s with log := .cancelReq id :: s.log } with
          | error e => exact fun h => h
          | ok s2 =>
            intro h1
            simp only
            split
            · simp [Safe]
            · exact ih _ _ h1
    | update => simp only [exec]; exact ih _ _ hs
    | loop c =>
      cases c with
      | none => simpa [exec, Safe] using hs
      | some id =>
        simp only [exec]
        split
        · simp [Safe]
        split
        · have h1 := ih (.trigger id false) s hs
          revert h1
          cases exec n env (.trigger id false) s with
          | error e => exact fun h => h
          | ok s2 =>
            intro h1
            simp only
            split
            · simp [Safe]
            · exact ih _ _ h1
        · exact hs
    | trigger id c =>
      simp only [exec]
      split
      · exact hs
      · have h1 := ih (.acts (env s.intercepting (.called id c s.clock :: s.log))) { s with log := .called id c s.clock :: s.log, stack := id :: s.stack } hs
        revert h1
        cases exec n env (.acts (env s.intercepting (.called id c s.clock :: s.log))) { s with log := .called id c s.clock :: s.log, stack := id :: s.stack } with
        | error e => exact fun h => h
        | ok s2 =>
          intro h1
          simp only
          split
          · simp [Safe]
          · exact h1

theorem run_plain (n : Nat) (env : Env) (ops : List Op) : ∀ s, s.intercepting = false →
    ∀ s', run n env s ops = .ok s' → s'.intercepting = false := by
  induction ops with
  | nil => intro s hs s' h; simp only [run, Except.ok.injEq] at h; subst h; exact hs
  | cons op ops ih =>
    intro s hs s' h
    simp only [run] at h
    revert h
    cases hx : stepOp n env s op with
    | error e => intro h; simp at h
    | ok s1 =>
      intro h
      refine ih s1 ?_ s' h
      cases op with
      | handler l => have := exec_safe n env (.acts l) s hs; simp only [stepOp] at hx; rw [hx] at this; exact this
      | update => have := exec_safe n env .update s hs; simp only [stepOp] at hx; rw [hx] at this; exact this
      | io l =>
        simp only [stepOp] at hx
        split at hx
        · simp at hx
        split at hx
        · simp at hx
        rename_i s2 _
        have := exec_safe n env .update { s2 with intercepting := false } rfl
        rw [hx] at this; exact this

/-- **C16, ordinary handlers.** After any run, also one with blocking handlers, whatever callbacks do:
a handler that is not marked as blocking can cancel every timer that is pending when it asks for that,
and so can the callbacks of timers fired by the loop; what goes wrong in `C16_only_failure_partial` goes
wrong in blocking handlers only. -/
theorem C16_plain_handlers (n : Nat) (env : Env) (ops : List Op) (c : Int) (s : State)
    (hs : run n env (State.init c) ops = .ok s) (id : Nat) (log : List Ev) :
    (∀ l, stepOp n env s (.handler l) ≠ .error (.notFound id log)) ∧ stepOp n env s .update ≠ .error (.notFound id log) := by
  have h := run_plain n env ops (State.init c) rfl s hs
  constructor
  · intro l he
    have := exec_safe n env (.acts l) s h
    simp only [stepOp] at he
    rw [he] at this
    exact this
  · intro he
    have := exec_safe n env .update s h
    simp only [stepOp] at he
    rw [he] at this
    exact this

/-- the timer of `C16_io_cancel_counterexample` is cancelled in an ordinary handler after a blocking one,
late: nothing goes wrong -/
example : ∃ s, run 20 (fun _ _ => []) (State.init 0) [.handler [.start 5], .io [.work 3]] = .ok s ∧ 1 ∈ s.map ∧
    ∃ t, stepOp 20 (fun _ _ => []) s (.handler [.work 10, .cancel 1]) = .ok t ∧ Ev.called 1 true 13 ∈ t.log :=
  ⟨_, rfl, by decide, _, rfl, by decide⟩

end Verif.ThreadTimers
