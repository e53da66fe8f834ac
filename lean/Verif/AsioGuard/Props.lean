import Verif.AsioGuard.Lemmas

/-! # C76: `guard_context` -/

namespace Verif.AsioGuard

/-- `io_context::run` does not return before a supervisor made with `guard_context` has been through `shutdown_finish` (or was destroyed). -/
theorem C76_guarded {σ σ' : State} {ls : List Label} {s : Nat} (hr : Reachable σ) (h0 : σ.stopped = false) (hm : (s, true) ∈ σ.made)
    (hs : run σ ls = some σ') (hn : s ∉ σ'.over) : σ'.stopped = false := by
  have hi := hr.inv
  clear hr
  induction ls generalizing σ with
  | nil => simp only [run, Option.some.injEq] at hs; subst hs; exact h0
  | cons l ls ih =>
    simp only [run] at hs
    split at hs
    · simp at hs
    · rename_i σ1 h1
      have hi1 := step_inv hi h1
      have hm1 := (step_mono h1).2.1 _ hm
      have hn1 : s ∉ σ1.over := fun h => hn ((run_mono hs).2.2 s h)
      refine ih ?_ hm1 hs hi1
      cases hst : σ1.stopped with
      | false => rfl
      | true =>
        have hw := step_stops h1 h0 hst
        have hg := (hi1.holds s).2 ⟨hm1, hn1⟩
        have := List.length_pos_of_mem hg
        have := hi1.count
        omega

/-- When the loop stops, every supervisor made with `guard_context` is over, no handler is left to be called, no timer is waiting and no closure has
begun. -/
theorem C76_nothing_left {σ σ' : State} {l : Label} (hr : Reachable σ) (hs : step σ l = some σ') (h0 : σ.stopped = false)
    (h1 : σ'.stopped = true) : ¬ Guarded σ' ∧ Idle σ' := by
  have hi := step_inv hr.inv hs
  have hw := step_stops hs h0 h1
  have hc := hi.count
  refine ⟨?_, ?_, ?_, ?_⟩
  · rintro ⟨s, hm, hn⟩
    have := List.length_pos_of_mem ((hi.holds s).2 ⟨hm, hn⟩)
    omega
  · exact List.length_eq_zero_iff.1 (by omega)
  · exact List.length_eq_zero_iff.1 (by omega)
  · exact List.length_eq_zero_iff.1 (by omega)

theorem no_guards {σ : State} (hi : Inv σ) (h : ¬ Guarded σ) : σ.guards = [] := by
  cases hg : σ.guards with
  | nil => rfl
  | cons s gs =>
    have : s ∈ σ.guards := by rw [hg]; exact List.mem_cons_self
    exact absurd ⟨s, (hi.holds s).1 this⟩ h

/-- .. and `run` returns as soon as that is so. -/
theorem C76_returns {σ : State} (hr : Reachable σ) (hc : σ.called = true) (hg : ¬ Guarded σ) (hi : Idle σ) : σ.stopped = true := by
  have h := hr.inv
  refine h.ends hc ?_
  rw [h.count, no_guards h hg, hi.1, hi.2.1, hi.2.2]
  rfl

/-- While some supervisor made with `guard_context` is not over, no message of another thread is forgotten: the loop runs, and the thread is about to
defer a closure, or one that takes the message is deferred or has begun. -/
theorem C76_no_message_forgotten {σ σ' : State} {ls : List Label} {s l m : Nat} (hr : Reachable σ) (h0 : σ.stopped = false)
    (hm : (s, true) ∈ σ.made) (hs : run σ ls = some σ') (hn : s ∉ σ'.over) (hin : (l, m) ∈ σ'.inbound) :
    σ'.stopped = false ∧
      ((∃ i, σ'.threads i = some l) ∨ Handler.wake l ∈ σ'.pending ∨ (l, true) ∈ σ'.running) :=
  ⟨C76_guarded hr h0 hm hs hn, (run_inv hr.inv hs).wakes l m hin⟩

/-! ## Progress -/

def weight : Handler → Nat
  | .waited _ _ _ => 4
  | _ => 3

def runWeight (r : Nat × Bool) : Nat := if r.2 then 2 else 1

/-- bounds the steps that the loop takes by itself -/
def measure (σ : State) : Nat :=
  (σ.pending.map weight).sum + 5 * σ.waits.length + (σ.running.map runWeight).sum + σ.inbound.length

theorem sum_eraseIdx {α : Type} (f : α → Nat) (l : List α) (n : Nat) (x : α) (h : l[n]? = some x) :
    ((l.eraseIdx n).map f).sum + f x = (l.map f).sum := by
  induction l generalizing n with
  | nil => simp at h
  | cons a l ih =>
    cases n with
    | zero => simp at h; subst h; simp; omega
    | succ n => simp at h; have := ih n h; simp; omega

theorem sum_erase {α : Type} [BEq α] [LawfulBEq α] (f : α → Nat) (l : List α) (x : α) (h : x ∈ l) :
    ((l.erase x).map f).sum + f x = (l.map f).sum := by
  induction l with
  | nil => simp at h
  | cons a l ih =>
    by_cases hx : a = x
    · subst hx; simp; omega
    · have hm : x ∈ l := by rcases List.mem_cons.1 h with h | h
                            · exact absurd h.symm hx
                            · exact h
      rw [List.erase_cons_tail (by simp [hx])]
      have := ih hm
      simp; omega

theorem sum_settle (l : Nat) (rs : List (Nat × Bool)) :
    (rs.map (runWeight ∘ fun r => if r.1 = l then (l, false) else r)).sum ≤ (rs.map runWeight).sum ∧
      ((l, true) ∈ rs → (rs.map (runWeight ∘ fun r => if r.1 = l then (l, false) else r)).sum < (rs.map runWeight).sum) := by
  induction rs with
  | nil => simp
  | cons r rs ih =>
    obtain ⟨a, b⟩ := r
    simp only [List.map_cons, List.sum_cons, Function.comp, List.mem_cons, Prod.mk.injEq] at ih ⊢
    have e1 : ∀ x, runWeight (x, false) = 1 := fun _ => rfl
    have e2 : ∀ x, runWeight (x, true) = 2 := fun _ => rfl
    by_cases ha : a = l
    · subst ha
      have i1 := ih.1
      cases b
      · simp only [if_true, e1]
        refine ⟨by omega, ?_⟩
        intro h
        have h := ih.2 (by simpa using h)
        omega
      · simp only [if_true, e1, e2]
        exact ⟨by omega, fun _ => by omega⟩
    · simp only [ha, if_false]
      refine ⟨by have := ih.1; omega, ?_⟩
      intro h
      rcases h with h | h
      · exact absurd h.1.symm ha
      · have := ih.2 h; omega

theorem measure_cancelWait (l id : Nat) (σ : State) : measure (cancelWait l id σ) ≤ measure σ := by
  unfold cancelWait
  split
  · rename_i hm
    have hl := List.length_erase_of_mem hm
    have hp := List.length_pos_of_mem hm
    simp only [measure, List.map_append, List.sum_append, List.map_cons, List.map_nil, List.sum_cons, List.sum_nil, weight, hl]
    omega
  · exact Nat.le_refl _

theorem cancelWait_called (l id : Nat) (σ : State) : (cancelWait l id σ).called = σ.called := by
  unfold cancelWait; split <;> rfl

/-- a step of the loop itself -/
theorem own_step {σ σ' : State} {l : Label} (hl : l.own = true) (hs : step σ l = some σ') :
    measure σ' < measure σ ∧ σ'.called = σ.called ∧ σ'.made = σ.made ∧ σ'.over = σ.over := by
  cases l <;> simp only [Label.own, Bool.false_eq_true] at hl <;> simp only [step] at hs
  case begin n =>
    split at hs <;> try (cases hs; done)
    rename_i x hx
    split at hs <;> simp only [Option.some.injEq, reduceCtorEq] at hs
    have hsum := sum_eraseIdx weight σ.pending n x hx
    subst hs
    cases x with
    | wake l => simp only [enter, measure, weight, List.map_append, List.sum_append, List.map_cons, List.map_nil, List.sum_cons,
        List.sum_nil, runWeight, if_true, and_self, and_true] at hsum ⊢; omega
    | call l => simp only [enter, measure, weight, List.map_append, List.sum_append, List.map_cons, List.map_nil, List.sum_cons,
        List.sum_nil, runWeight, Bool.false_eq_true, if_false, and_self, and_true] at hsum ⊢; omega
    | timer l id =>
      unfold enter
      dsimp only
      split
      · refine ⟨?_, by simp [eraseTimer, cancelWait_called], by simp [eraseTimer, cancelWait_made],
          by simp [eraseTimer, cancelWait_over]⟩
        refine Nat.lt_of_le_of_lt (measure_cancelWait _ _ _) ?_
        simp only [measure, weight, List.map_append, List.sum_append, List.map_cons, List.map_nil, List.sum_cons,
          List.sum_nil, runWeight, if_true] at hsum ⊢; omega
      · simp only [measure, weight, List.map_append, List.sum_append, List.map_cons, List.map_nil, List.sum_cons,
          List.sum_nil, runWeight, Bool.false_eq_true, if_false, and_self, and_true] at hsum ⊢; omega
    | waited l id ok =>
      cases ok <;> simp only [enter, finished, defer, started, Bool.false_eq_true, if_false, if_true, measure, weight, List.map_append,
        List.sum_append, List.map_cons, List.map_nil, List.sum_cons, List.sum_nil, and_self, and_true] at hsum ⊢ <;> omega
  case pop l =>
    split at hs
    · rename_i ha
      split at hs <;> simp only [Option.some.injEq, reduceCtorEq] at hs
      subst hs
      obtain ⟨p, hp, hpl⟩ := List.any_eq_true.1 ha
      have h1 := List.length_eraseP_of_mem (p := fun p => p.1 == l) hp hpl
      have h2 := List.length_pos_of_mem hp
      simp only [measure, h1, and_self, and_true]; omega
    · split at hs <;> simp only [Option.some.injEq, reduceCtorEq] at hs
      rename_i hm
      subst hs
      have := (sum_settle l σ.running).2 hm
      simp only [measure, List.map_map, and_self, and_true]; omega
  case expire n =>
    split at hs <;> simp only [Option.some.injEq, reduceCtorEq] at hs
    rename_i l id hx
    have hn : n < σ.waits.length := by
      rcases Nat.lt_or_ge n σ.waits.length with h | h
      · exact h
      · simp [List.getElem?_eq_none h] at hx
    have hlen := List.length_eraseIdx_of_lt hn
    subst hs
    simp only [measure, List.map_append, List.sum_append, List.map_cons, List.map_nil, List.sum_cons, List.sum_nil, weight, hlen,
      and_self, and_true]
    omega
  case ended l =>
    split at hs <;> simp only [Option.some.injEq, reduceCtorEq] at hs
    rename_i hm
    subst hs
    have := sum_erase runWeight σ.running (l, false) hm
    have e1 : runWeight (l, false) = 1 := rfl
    rw [e1] at this
    simp only [finished, measure, and_self, and_true]
    omega

/-- the loop can go on unless nothing is left to do -/
theorem own_enabled {σ : State} (hc : σ.called = true) (hs : σ.stopped = false) (hi : ¬ Idle σ) :
    ∃ l σ', Label.own l = true ∧ step σ l = some σ' := by
  cases hr : σ.running with
  | cons r rs =>
    obtain ⟨l, b⟩ := r
    have hm : (l, b) ∈ σ.running := by rw [hr]; exact List.mem_cons_self
    cases b with
    | false => exact ⟨.ended l, _, rfl, by simp only [step]; rw [if_pos hm]⟩
    | true =>
      by_cases ha : σ.inbound.any (fun p => p.1 == l) = true
      · exact ⟨.pop l, _, rfl, by simp only [step]; rw [if_pos ha, if_pos (List.any_eq_true.2 ⟨_, hm, by simp⟩)]⟩
      · exact ⟨.pop l, _, rfl, by simp only [step]; rw [if_neg ha, if_pos hm]⟩
  | nil =>
    cases hw : σ.waits with
    | cons w ws =>
      exact ⟨.expire 0, _, rfl, by simp only [step, hw, List.getElem?_cons_zero]; rfl⟩
    | nil =>
      cases hp : σ.pending with
      | nil => exact absurd ⟨hp, hw, hr⟩ hi
      | cons x xs =>
        have hready : (σ.called && !σ.stopped && ready σ 0 x) = true := by
          simp only [hc, hs, ready, hr]
          cases x <;> simp [Handler.strand?]
        exact ⟨.begin 0, _, rfl, by simp only [step, hp, List.getElem?_cons_zero]; rw [if_pos hready]⟩

theorem own_run {σ σ' : State} {ls : List Label} (hl : ls.all Label.own = true) (hs : run σ ls = some σ') :
    ls.length + measure σ' ≤ measure σ ∧ σ'.called = σ.called ∧ σ'.made = σ.made ∧ σ'.over = σ.over := by
  induction ls generalizing σ with
  | nil => simp only [run, Option.some.injEq] at hs; subst hs; simp
  | cons l ls ih =>
    simp only [List.all_cons, Bool.and_eq_true] at hl
    simp only [run] at hs
    split at hs
    · simp at hs
    · rename_i σ1 h1
      have a := own_step hl.1 h1
      have b := ih hl.2 hs
      refine ⟨by simp only [List.length_cons]; omega, b.2.1.trans a.2.1, b.2.2.1.trans a.2.2.1, b.2.2.2.trans a.2.2.2⟩

/-- Once all supervisors made with `guard_context` are over and nobody adds anything, `run` returns: the loop takes a bounded number of steps only, and
as long as it has not stopped it can take another one. -/
theorem C76_terminates {σ : State} (hr : Reachable σ) (hc : σ.called = true) (hg : ¬ Guarded σ) :
    ∃ n, ∀ ls σ', ls.all Label.own = true → run σ ls = some σ' →
      ls.length ≤ n ∧ (σ'.stopped = true ∨ ∃ l σ'', Label.own l = true ∧ step σ' l = some σ'') := by
  refine ⟨measure σ, fun ls σ' hl hs => ?_⟩
  obtain ⟨h1, h2, h3, h4⟩ := own_run hl hs
  refine ⟨by omega, ?_⟩
  have hg' : ¬ Guarded σ' := by simpa [Guarded, h3, h4] using hg
  obtain ⟨ls0, hr0⟩ := hr
  have hr' : Reachable σ' := by
    refine ⟨ls0 ++ ls, ?_⟩
    clear hc hg hl h1 h2 h3 h4 hg'
    generalize State.init = τ at hr0
    induction ls0 generalizing τ with
    | nil => simp only [run, Option.some.injEq] at hr0; subst hr0; exact hs
    | cons l ls0 ih =>
      simp only [run, List.cons_append] at hr0 ⊢
      split at hr0
      · simp at hr0
      · exact ih _ hr0
  cases hst : σ'.stopped with
  | true => exact .inl rfl
  | false =>
    refine .inr (own_enabled (h2.trans hc) hst ?_)
    intro hi
    have := C76_returns hr' (h2.trans hc) hg' hi
    simp [hst] at this

/-- A stopped loop begins nothing. -/
theorem stopped_step {σ σ' : State} {l : Label} (hs : step σ l = some σ') (h0 : σ.stopped = true) (h1 : σ.running = []) :
    σ'.running = [] ∧ ∀ p ∈ σ.inbound, p ∈ σ'.inbound := by
  cases l <;> simp only [step] at hs
  case begin n =>
    split at hs <;> simp [h0] at hs
  case finish s => simp [h1] at hs
  case destroy s =>
    split at hs <;> simp only [Option.some.injEq, reduceCtorEq] at hs
    subst hs
    unfold resetGuard
    split <;> simp_all [finished]
  case create s g =>
    split at hs <;> simp only [Option.some.injEq, reduceCtorEq] at hs
    subst hs
    split <;> simp_all [started]
  all_goals
    repeat' split at hs
  all_goals
    simp only [Option.some.injEq, reduceCtorEq] at hs
  all_goals
    try subst hs
  all_goals
    simp_all [defer, started]
  all_goals
    grind

/-- Once the loop has stopped, nothing is called any more and every message that is in an inbound queue stays there. -/
theorem C76_stopped {σ σ' : State} {ls : List Label} (h0 : σ.stopped = true) (h1 : σ.running = []) (hs : run σ ls = some σ') :
    σ'.stopped = true ∧ σ'.running = [] ∧ ∀ p ∈ σ.inbound, p ∈ σ'.inbound := by
  induction ls generalizing σ with
  | nil => simp only [run, Option.some.injEq] at hs; subst hs; simp [h0, h1]
  | cons l ls ih =>
    simp only [run] at hs
    split at hs
    · simp at hs
    · rename_i σ1 hs1
      have a := stopped_step hs1 h0 h1
      have b := ih ((step_mono hs1).1 h0) a.1 hs
      exact ⟨b.1, b.2.1, fun p hp => b.2.2 p (a.2 p hp)⟩

/-- Without `guard_context` the loop stops while the supervisor is operational, and a message that another thread is sending at that moment is never
taken. -/
theorem C76_unguarded_counterexample : ∃ σ, Reachable σ ∧ (0, false) ∈ σ.made ∧ 0 ∉ σ.over ∧ σ.stopped = true ∧ (0, 7) ∈ σ.inbound ∧
    ∀ ls σ', run σ ls = some σ' → (0, 7) ∈ σ'.inbound := by
  refine ⟨(run .init [.create 0 false, .start 0, .run, .begin 0, .pop 0, .push 0 0 7, .ended 0]).get (by decide),
    ⟨[.create 0 false, .start 0, .run, .begin 0, .pop 0, .push 0 0 7, .ended 0], by simp⟩, by decide, by decide, by decide, by decide, ?_⟩
  intro ls σ' hs
  exact (C76_stopped (by decide) (by decide) hs).2.2 _ (by decide)

/-! ## Cases -/

/-- A guarded supervisor is idle; the loop runs. Another thread sends and defers; the closure takes the message; a timer is started, the supervisor
finishes its shutdown, the timer expires: only then the loop stops. -/
def caseLabels : List Label :=
  [.create 0 true, .start 0, .run, .begin 0, .pop 0, .ended 0, .push 0 0 7, .defer 0, .begin 0, .pop 0, .pop 0, .startTimer 0 1, .finish 0, .ended 0]

example : ∃ σ, run .init (caseLabels.take 6) = some σ ∧ Guarded σ ∧ Idle σ ∧ σ.stopped = false :=
  ⟨(run .init (caseLabels.take 6)).get (by decide), by simp, ⟨0, by decide, by decide⟩, ⟨by decide, by decide, by decide⟩, by decide⟩

example : ∃ σ, run .init (caseLabels.take 7) = some σ ∧ Guarded σ ∧ (0, 7) ∈ σ.inbound :=
  ⟨(run .init (caseLabels.take 7)).get (by decide), by simp, ⟨0, by decide, by decide⟩, by decide⟩

example : ∃ σ, run .init caseLabels = some σ ∧ σ.over = [0] ∧ σ.stopped = false ∧ σ.called = true ∧ σ.waits = [(0, 1)] :=
  ⟨(run .init caseLabels).get (by decide), by simp, by decide, by decide, by decide, by decide⟩

example : ∃ σ, run .init (caseLabels ++ [.expire 0, .begin 0, .begin 0, .pop 0, .ended 0]) = some σ ∧ σ.stopped = true ∧ Idle σ :=
  ⟨(run .init (caseLabels ++ [.expire 0, .begin 0, .begin 0, .pop 0, .ended 0])).get (by decide), by simp, by decide,
    ⟨by decide, by decide, by decide⟩⟩

end Verif.AsioGuard
