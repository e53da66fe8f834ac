import Verif.LoopTimers.Props

/-!
# C52: starting, cancelling and expiring one timer of an event loop, and the references counted

`src/rotor/asio/supervisor_asio.cpp:42-79`, `src/rotor/ev/supervisor_ev.cpp:39-56, 92-116`, `src/rotor/fltk/supervisor_fltk.cpp:32-76`,
`src/rotor/wx/supervisor_wx.cpp:32-45, 77-95`.
-/

namespace Verif.LoopTimers

/-- **C52** `start_timer` always succeeds, with an identity no timer had before, and invokes no callback. -/
theorem C52_start {k : Kind} {env env' : Env} {ops : List Op} {s : State} {fuel : Nat} (h : run fuel k env .init ops = .ok s) (n : Nat) :
    ∃ t id, step (n + 2) k env' s (.user [.start]) = .ok t ∧ t.log = .started id :: s.log ∧ Ev.started id ∉ s.log := by
  obtain ⟨hi, -⟩ := run_inv ops (inv_init k) rfl h
  refine ⟨startTimer k s, s.next, by simp [step, exec], rfl, ?_⟩
  rw [hi.started]; exact Nat.lt_irrefl _

/-- **C52** Only pending timers can be cancelled, and the callback of a timer that is cancelled is invoked, with the cancellation, before
`cancel_timer` returns. -/
theorem C52_cancel {k : Kind} {env : Env} {ops : List Op} {s t : State} {fuel id : Nat} (h : run fuel k env .init ops = .ok s)
    (hs : step fuel k env s (.user [.cancel id]) = .ok t) :
    Pending id s.log ∧ Ev.called id true ∈ t.log := by
  obtain ⟨hi, hst⟩ := run_inv ops (inv_init k) rfl h
  simp only [step] at hs
  cases fuel with
  | zero => simp [exec] at hs
  | succ n =>
    simp only [exec] at hs
    split at hs
    · cases hs
    rename_i hm
    simp only [not_or, Decidable.not_not] at hm
    have hp := ((C52_tables _ k env ops s h id).2).1 hm.1
    have ht := ((C52_tables _ k env ops s h id).1).2 hp
    refine ⟨hp, ?_⟩
    split at hs
    · cases hs
    rename_i s1 h1
    refine exec_log k env _ _ _ _ _ hs ?_
    cases n with
    | zero => simp [exec] at h1
    | succ n =>
      simp only [exec, ht, hm.1, not_true_eq_false, if_false] at h1
      split at h1
      · cases h1
      rename_i s2 h2
      simp only [dropTimer] at h1
      split at h1
      · cases h1
      cases h1
      cases n with
      | zero => simp [exec] at h2
      | succ n =>
        have hm' : id ∈ ({ disarm k id s with log := .cancelReq id :: s.log } : State).map := by
          simp only [disarm]; split <;> exact hm.1
        simp only [exec] at h2
        rw [if_neg (by simpa using hm')] at h2
        split at h2
        · cases h2
        rename_i s3 h3
        cases h2
        have := exec_log k env (.called id true) _ _ _ _ h3 (List.mem_cons_self ..)
        exact this

/-- **C52** A pending timer can be cancelled in every state: if its callback does nothing, this is all that happens. -/
theorem C52_cancel_quiet {k : Kind} {env env' : Env} {ops : List Op} {s : State} {fuel id : Nat} (h : run fuel k env .init ops = .ok s)
    (hp : Pending id s.log) (hq : env' (.called id true :: .cancelReq id :: s.log) = []) (n : Nat) :
    ∃ t, step (n + 4) k env' s (.user [.cancel id]) = .ok t ∧ t.log = .called id true :: .cancelReq id :: s.log := by
  obtain ⟨hi, hst⟩ := run_inv ops (inv_init k) rfl h
  have hm := ((C52_tables _ k env ops s h id).2).2 hp
  have ht := ((C52_tables _ k env ops s h id).1).2 hp
  simp only [step, exec, hm, hst, ht, hq, not_true_eq_false, List.not_mem_nil, or_self, if_false]
  by_cases hc : k = .asio ∧ id ∈ s.armed
  · simp [disarm, hc, hm, hq, exec, dropTimer]
  · simp [disarm, hc, hm, hq, exec, dropTimer]

/-- **C52** A pending timer expires in every state in which the loop fires it (asio: in which its closure is run): if its callback does nothing, this is
all that happens. -/
theorem C52_expires {k : Kind} {env env' : Env} {ops : List Op} {s : State} {fuel id : Nat} (h : run fuel k env .init ops = .ok s)
    (hp : Pending id s.log) (hq : env' (.called id false :: s.log) = []) (n : Nat) :
    (k ≠ .asio → ∃ t, step (n + 3) k env' s (.expire id) = .ok t ∧ t.log = .called id false :: s.log) ∧
    (k = .asio → id ∈ s.posted → ∃ t, step (n + 3) k env' s (.runPosted id) = .ok t ∧ t.log = .called id false :: s.log) ∧
    (k = .asio → id ∉ s.posted → ∃ t u, step (n + 3) k env' s (.expire id) = .ok t ∧ step (n + 3) k env' t (.runPosted id) = .ok u ∧
      t.log = s.log ∧ u.log = .called id false :: s.log) := by
  obtain ⟨hi, hst⟩ := run_inv ops (inv_init k) rfl h
  have hm := ((C52_tables _ k env ops s h id).2).2 hp
  have ht := ((C52_tables _ k env ops s h id).1).2 hp
  refine ⟨fun hk => ?_, fun hk hpo => ?_, fun hk hpo => ?_⟩
  · have ha : id ∈ s.armed := by
      rcases C52_not_lost _ k env ops s h id hp with ha | ha
      · exact ha
      · exact absurd ha.1 hk
    simp [step, exec, ha, hk, ht, hm, hq, dropTimer]
  · subst hk
    simp [step, exec, hpo, ht, hm, hq, dropTimer]
  · have ha : id ∈ s.armed := by
      rcases C52_not_lost _ k env ops s h id hp with ha | ha
      · exact ha
      · exact absurd ha.2 hpo
    subst hk
    simp [step, exec, ha, ht, hm, hq, dropTimer]

/-- **C52** The references to the supervisor are counted exactly: one per pending timer (fltk: two), asio: one per armed timer, per closure and per
completion handler underway; a closure that has run is not run again. -/
theorem C52_counted {k : Kind} {env : Env} {ops : List Op} {s : State} {fuel : Nat} (h : run fuel k env .init ops = .ok s) :
    s.table.Nodup ∧ s.posted.Nodup ∧
    s.refs = (match k with | .asio => s.armed.length + s.posted.length + s.aborted.length | .fltk => 2 * s.table.length | _ => s.table.length) ∧
    ∀ id t, step fuel k env s (.runPosted id) = .ok t → id ∉ t.posted ∧ (id ∈ s.posted → ∀ i, i ≠ id → (i ∈ t.posted ↔ i ∈ s.posted)) := by
  obtain ⟨hi, hst⟩ := run_inv ops (inv_init k) rfl h
  refine ⟨hi.nd, hi.postedNd, ?_, fun id t hs => ?_⟩
  · rw [hi.refs]; cases k <;> rfl
  · simp only [step] at hs
    split at hs
    · rename_i hpo
      split at hs
      · cases hs
      rename_i s1 h1
      cases hs
      have he := exec_posted k env _ _ _ _ h1
      simp only [he]
      refine ⟨fun hc => ?_, fun _ i hne => ?_⟩
      · exact (List.Nodup.not_mem_erase hi.postedNd) hc
      · exact List.mem_erase_of_ne hne
    · rename_i hpo
      cases hs
      exact ⟨hpo, fun hc => absurd hc hpo⟩

/-- asio: timer 1 is cancelled while its expiry is underway, the closure is run and finds nothing; timer 0 is pending -/
def underway : List Op := [.user [.start, .start], .expire 1, .user [.cancel 1], .user [.start], .expire 2, .user [.cancel 0]]

example : run 10 .asio (fun _ => []) .init underway =
    .ok ⟨[2], [2], [], [2, 1], [0], 3, 3, [], [.called 0 true, .cancelReq 0, .started 2, .called 1 true, .cancelReq 1, .started 1, .started 0]⟩ := rfl
example : Pending 2 [.called 0 true, .cancelReq 0, .started 2, .called 1 true, .cancelReq 1, .started 1, .started 0] := by
  simp [Pending]

end Verif.LoopTimers
