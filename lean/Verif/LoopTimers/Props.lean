import Verif.LoopTimers.Lemmas
/-!
# C52: timers of the event loop backends

Everything is stated over the log of observable events, for any of the four backends, any behaviour
of the callbacks (`env`) and any sequence of handler runs, expiries and strand activity. Runs in
which user code cancels a timer that is not pending (`illegal`) and those that do not end within the
fuel are excluded; the fuel is arbitrary.
-/

namespace Verif.LoopTimers

/-- a timer is pending in a log: started and its callback not yet invoked -/
def Pending (id : Nat) (log : List Ev) : Prop :=
  Ev.started id ∈ log ∧ Ev.called id true ∉ log ∧ Ev.called id false ∉ log

/-- **C52, no fault.** No exception leaves `do_cancel_timer`, and no callback of an event loop meets a
destroyed timer or handler. -/
theorem C52_no_fault (fuel : Nat) (k : Kind) (env : Env) (ops : List Op) : run fuel k env .init ops ≠ .error .fault :=
  run_no_fault ops (inv_init k) rfl

/-- **C52, exactly once.** The callback of a timer runs at most once; it reports a cancellation if and
only if the user cancelled the timer; a timer the user cancelled is never reported as expired. -/
theorem C52_exactly_once (fuel : Nat) (k : Kind) (env : Env) (ops : List Op) (s : State)
    (h : run fuel k env .init ops = .ok s) (id : Nat) :
    s.log.countP (fun e => e = .called id true ∨ e = .called id false) ≤ 1 ∧
    (Ev.called id true ∈ s.log ↔ Ev.cancelReq id ∈ s.log) ∧
    (Ev.called id false ∈ s.log → Ev.cancelReq id ∉ s.log) ∧
    (Ev.called id true ∈ s.log ∨ Ev.called id false ∈ s.log → Ev.started id ∈ s.log) := by
  obtain ⟨hi, hst⟩ := run_inv ops (inv_init k) rfl h
  have hc : calls id s.log ≤ 1 := by
    by_cases hlt : id < s.next
    · by_cases ht : id ∈ s.table
      · rw [hi.pend id ht (by simp [hst])]; omega
      · rw [hi.done id hlt (.inl ht)]; omega
    · rw [hi.future id (by omega)]; omega
  refine ⟨hc, hi.req id, hi.exp id, ?_⟩
  intro hm
  rw [hi.started]
  by_cases hlt : id < s.next
  · exact hlt
  · have := hi.future id (by omega)
    rcases hm with hm | hm <;> exact absurd hm (called_mem this)

/-- **C52, forgotten.** Whenever the event loop is back in control, the tables of the supervisor and of
the actors contain exactly the pending timers. -/
theorem C52_tables (fuel : Nat) (k : Kind) (env : Env) (ops : List Op) (s : State)
    (h : run fuel k env .init ops = .ok s) (id : Nat) :
    (id ∈ s.table ↔ Pending id s.log) ∧ (id ∈ s.map ↔ Pending id s.log) := by
  obtain ⟨hi, hst⟩ := run_inv ops (inv_init k) rfl h
  have : id ∈ s.table ↔ Pending id s.log := by
    constructor
    · intro ht
      have := hi.pend id ht (by simp [hst])
      exact ⟨(hi.started id).2 (hi.lt id ht), called_mem this, called_mem this⟩
    · rintro ⟨h1, h2, h3⟩
      by_cases ht : id ∈ s.table
      · exact ht
      · have := hi.done id ((hi.started id).1 h1) (.inl ht)
        have hp : 0 < calls id s.log := by omega
        rw [calls, List.countP_pos_iff] at hp
        obtain ⟨e, he, hee⟩ := hp
        simp only [decide_eq_true_eq] at hee
        rcases hee with rfl | rfl
        · exact absurd he h2
        · exact absurd he h3
  exact ⟨this, (hi.same id).symm.trans this⟩

/-- **C52, not lost.** A pending timer is armed in the event loop or (asio) its expiry is on its way
through the strand. -/
theorem C52_not_lost (fuel : Nat) (k : Kind) (env : Env) (ops : List Op) (s : State)
    (h : run fuel k env .init ops = .ok s) (id : Nat) (hp : Pending id s.log) :
    id ∈ s.armed ∨ (k = .asio ∧ id ∈ s.posted) := by
  obtain ⟨hi, hst⟩ := run_inv ops (inv_init k) rfl h
  rcases hi.wait id (((C52_tables fuel k env ops s h id).1).2 hp) (by simp [hst]) with h' | h'
  · exact .inl h'
  · by_cases hk : k = .asio
    · exact .inr ⟨hk, h'⟩
    · rw [(hi.notAsio hk).1] at h'; simp at h'

theorem run_snoc {fuel : Nat} {k : Kind} {env : Env} {ops : List Op} {op : Op} {s : State} :
    ∀ {s0 : State}, run fuel k env s0 (ops ++ [op]) = .ok s → ∃ s1, run fuel k env s0 ops = .ok s1 ∧
      step fuel k env s1 op = .ok s := by
  induction ops with
  | nil =>
    intro s0 h
    refine ⟨s0, rfl, ?_⟩
    simp only [List.nil_append, run] at h
    split at h
    · cases h
    · rename_i s1 h1; cases h; exact h1
  | cons a l ih =>
    intro s0 h
    simp only [List.cons_append, run] at h
    split at h
    · cases h
    · rename_i s1 h1
      obtain ⟨s2, h2, h3⟩ := ih h
      exact ⟨s2, by simp only [run, h1]; exact h2, h3⟩

/-- **C52, expiry.** When the expiry of a pending timer reaches the supervisor (for asio: the posted
closure runs), its callback is invoked, not cancelled, and the timer is no longer pending. -/
theorem C52_expiry (fuel : Nat) (k : Kind) (env : Env) (ops : List Op) (s0 s : State) (id : Nat)
    (h0 : run fuel k env .init ops = .ok s0) (hp : Pending id s0.log)
    (hop : (k ≠ .asio ∧ run fuel k env .init (ops ++ [.expire id]) = .ok s) ∨
      (k = .asio ∧ id ∈ s0.posted ∧ run fuel k env .init (ops ++ [.runPosted id]) = .ok s)) :
    Ev.called id false ∈ s.log := by
  have ht := ((C52_tables fuel k env ops s0 h0 id).1).2 hp
  have hm := ((C52_tables fuel k env ops s0 h0 id).2).2 hp
  rcases hop with ⟨hk, h⟩ | ⟨hk, hpo, h⟩
  · have ha : id ∈ s0.armed := by
      rcases C52_not_lost fuel k env ops s0 h0 id hp with ha | ha
      · exact ha
      · exact absurd ha.1 hk
    obtain ⟨s1, h1, h2⟩ := run_snoc h
    rw [h0] at h1; cases h1
    simp only [step, ha, if_true, hk, if_false] at h2
    exact fire_called (s := { s0 with armed := without id s0.armed }) ht hm h2
  · obtain ⟨s1, h1, h2⟩ := run_snoc h
    rw [h0] at h1; cases h1
    simp only [step, hpo, if_true] at h2
    split at h2
    · cases h2
    · rename_i s2 h3
      cases h2
      have := fire_called (s := s0) ht hm h3
      exact this

/-- **C52, keeping the supervisor alive.** Pending timers hold references to the supervisor, and once
no timer is pending and nothing of asio's is in flight no reference is left. -/
theorem C52_references (fuel : Nat) (k : Kind) (env : Env) (ops : List Op) (s : State)
    (h : run fuel k env .init ops = .ok s) :
    (∀ id, Pending id s.log → 0 < s.refs) ∧
    ((∀ id, ¬ Pending id s.log) → s.posted = [] → s.aborted = [] → s.refs = 0) := by
  obtain ⟨hi, hst⟩ := run_inv ops (inv_init k) rfl h
  constructor
  · intro id hp
    have ht := ((C52_tables fuel k env ops s h id).1).2 hp
    have hl : 0 < s.table.length := List.length_pos_of_mem ht
    rw [hi.refs]
    rcases C52_not_lost fuel k env ops s h id hp with ha | ⟨hk, ha⟩
    · have := List.length_pos_of_mem ha
      cases k <;> simp only [expRefs] <;> omega
    · have := List.length_pos_of_mem ha
      cases k <;> simp only [expRefs] <;> omega
  · intro hn hp ha
    have ht : s.table = [] := by
      cases ht : s.table with
      | nil => rfl
      | cons a l => exact absurd (((C52_tables fuel k env ops s h a).1).1 (by simp [ht])) (hn a)
    have har : s.armed = [] := by
      cases har : s.armed with
      | nil => rfl
      | cons a l =>
        have := (hi.armedSub a (by simp [har])).1
        rw [ht] at this; simp at this
    rw [hi.refs]
    cases k <;> simp [expRefs, ht, har, hp, ha]

/-! ## concrete cases -/

/-- a callback that cancels timer 1 and starts a new one when timer 0 has expired -/
def demoEnv : Env
  | .called 0 false :: _ => [.cancel 1, .start]
  | _ => []

/-- ev: two timers, the first expires and cancels the second, the new one stays -/
example : run 10 .ev demoEnv .init [.user [.start, .start], .expire 0] =
    .ok ⟨[2], [2], [2], [], [], 1, 3, [],
      [.started 2, .called 1 true, .cancelReq 1, .called 0 false, .started 1, .started 0]⟩ := rfl

/-- asio: both expired, the closures of both are posted; the second is cancelled by the callback of the
first, and its closure then finds nothing -/
example : run 10 .asio demoEnv .init [.user [.start, .start], .expire 0, .expire 1, .runPosted 0, .runPosted 1] =
    .ok ⟨[2], [2], [2], [], [], 1, 3, [],
      [.started 2, .called 1 true, .cancelReq 1, .called 0 false, .started 1, .started 0]⟩ := rfl

/-- asio: cancelled while armed: the completion handler is still to be called with an error -/
example : run 10 .asio demoEnv .init [.user [.start, .start, .cancel 1]] =
    .ok ⟨[0], [0], [0], [], [1], 2, 2, [], [.called 1 true, .cancelReq 1, .started 1, .started 0]⟩ := rfl

/-- fltk keeps two references per timer -/
example : (run 10 .fltk demoEnv .init [.user [.start, .start], .expire 1]).toOption.map (·.refs) = some 2 := rfl

end Verif.LoopTimers
