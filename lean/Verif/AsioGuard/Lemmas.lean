import Verif.AsioGuard.Spec

/-! # The invariant of `guard_context` -/

namespace Verif.AsioGuard

structure Inv (σ : State) : Prop where
  count : σ.work = σ.guards.length + σ.pending.length + σ.waits.length + σ.running.length
  nodup : σ.guards.Nodup
  holds : ∀ s, s ∈ σ.guards ↔ (s, true) ∈ σ.made ∧ s ∉ σ.over
  known : ∀ s ∈ σ.over, ∃ g, (s, g) ∈ σ.made
  ends : σ.called = true → σ.work = 0 → σ.stopped = true
  wakes : ∀ l m, (l, m) ∈ σ.inbound → (∃ i, σ.threads i = some l) ∨ Handler.wake l ∈ σ.pending ∨ (l, true) ∈ σ.running

theorem inv_init : Inv .init := by
  constructor <;> simp [State.init]

theorem inv_cancelWait {σ : State} (l id : Nat) (h : Inv σ) : Inv (cancelWait l id σ) := by
  unfold cancelWait
  split
  · rename_i hm
    have hl := List.length_erase_of_mem hm
    have hp := List.length_pos_of_mem hm
    obtain ⟨h1, h2, h3, h4, h5, h6⟩ := h
    refine ⟨?_, h2, h3, h4, h5, ?_⟩
    · simp only [List.length_append, List.length_cons, List.length_nil, hl]; omega
    · intro l' m' hl'
      rcases h6 l' m' hl' with h | h | h
      · exact .inl h
      · exact .inr (.inl (List.mem_append_left _ h))
      · exact .inr (.inr h)
  · exact h

theorem inv_eraseTimer {σ : State} (l id : Nat) (h : Inv σ) : Inv (eraseTimer l id σ) := by
  refine inv_cancelWait _ _ ?_
  exact ⟨h.count, h.nodup, h.holds, h.known, h.ends, h.wakes⟩

theorem inv_defer {σ : State} (x : Handler) (h : Inv σ) : Inv (defer x σ) := by
  obtain ⟨h1, h2, h3, h4, h5, h6⟩ := h
  refine ⟨?_, h2, h3, h4, ?_, ?_⟩
  · simp only [defer, started, List.length_append, List.length_cons, List.length_nil]; omega
  · intro _ h; simp [defer, started] at h
  · intro l' m' hl'
    rcases h6 l' m' hl' with h | h | h
    · exact .inl h
    · exact .inr (.inl (List.mem_append_left _ h))
    · exact .inr (.inr h)

theorem inv_resetGuard {σ : State} (s : Nat) (h : Inv σ) (hk : σ.made.any (fun p => p.1 == s)) :
    Inv (resetGuard s { σ with over := s :: σ.over }) := by
  obtain ⟨h1, h2, h3, h4, h5, h6⟩ := h
  have hk' : ∀ x ∈ s :: σ.over, ∃ g, (x, g) ∈ σ.made := by
    intro x hx
    rcases List.mem_cons.1 hx with rfl | hx
    · simp only [List.any_eq_true, beq_iff_eq] at hk
      obtain ⟨⟨a, b⟩, hp, rfl⟩ := hk
      exact ⟨b, hp⟩
    · exact h4 x hx
  unfold resetGuard
  split
  · rename_i hm
    have hm' : s ∈ σ.guards := hm
    have hl := List.length_erase_of_mem hm'
    have hp := List.length_pos_of_mem hm'
    refine ⟨?_, h2.erase s, ?_, hk', ?_, h6⟩
    · simp only [finished, hl]; omega
    · intro x
      simp only [finished, List.mem_cons, h2.mem_erase_iff, h3]
      grind
    · intro hc hw
      simp only [finished] at hw ⊢
      simp [hw]
  · rename_i hm
    have hm' : s ∉ σ.guards := hm
    refine ⟨h1, h2, ?_, hk', h5, h6⟩
    intro x
    simp only [List.mem_cons]
    have := h3 x
    grind

theorem step_inv {σ σ' : State} {l : Label} (h : Inv σ) (hs : step σ l = some σ') : Inv σ' := by
  have ⟨h1, h2, h3, h4, h5, h6⟩ := h
  cases l with
  | run =>
    simp only [step, Option.some.injEq] at hs; subst hs
    refine ⟨h1, h2, h3, h4, ?_, h6⟩
    intro _ hw
    have : σ.work = 0 := hw
    simp [this]
  | create s g =>
    simp only [step] at hs
    split at hs
    · simp at hs
    · rename_i hn
      simp only [List.any_eq_true, beq_iff_eq, not_exists, not_and, Prod.forall] at hn
      have hn' : ∀ b, (s, b) ∉ σ.made := fun b hb => hn s b hb rfl
      have hov : s ∉ σ.over := fun ho => by
        obtain ⟨g, hg⟩ := h4 s ho
        exact hn' g hg
      have hng : s ∉ σ.guards := fun hg => hn' true ((h3 s).1 hg).1
      simp only [Option.some.injEq] at hs; subst hs
      cases g
      · simp only [Bool.false_eq_true, if_false]
        refine ⟨h1, h2, ?_, ?_, h5, h6⟩
        · intro x; have := h3 x; simp only [List.mem_append, List.mem_singleton, Prod.mk.injEq]; grind
        · intro x hx; obtain ⟨g, hg⟩ := h4 x hx; exact ⟨g, List.mem_append_left _ hg⟩
      · simp only [if_true]
        refine ⟨?_, ?_, ?_, ?_, ?_, h6⟩
        · simp only [started, List.length_append, List.length_cons, List.length_nil]; omega
        · simp only [started]
          rw [List.nodup_append]
          refine ⟨h2, by simp, ?_⟩
          intro a ha b hb
          simp only [List.mem_singleton] at hb
          subst hb; intro hab; subst hab; exact hng ha
        · intro x; have := h3 x
          simp only [started, List.mem_append, List.mem_singleton, Prod.mk.injEq]; grind
        · intro x hx; obtain ⟨g, hg⟩ := h4 x hx; exact ⟨g, List.mem_append_left _ hg⟩
        · intro _ hw; simp [started] at hw
  | push l i m =>
    simp only [step] at hs
    split at hs <;> simp only [Option.some.injEq, reduceCtorEq] at hs
    rename_i ht
    subst hs
    refine ⟨h1, h2, h3, h4, h5, ?_⟩
    intro l' m' hl'
    simp only [List.mem_append, List.mem_singleton, Prod.mk.injEq] at hl'
    rcases hl' with hl' | ⟨rfl, rfl⟩
    · rcases h6 l' m' hl' with ⟨j, hj⟩ | h | h
      · refine .inl ⟨j, ?_⟩
        have : j ≠ i := fun hji => by subst hji; simp [ht] at hj
        simp [upd, this, hj]
      · exact .inr (.inl h)
      · exact .inr (.inr h)
    · exact .inl ⟨i, by simp [upd]⟩
  | defer i =>
    simp only [step] at hs
    split at hs <;> simp only [Option.some.injEq, reduceCtorEq] at hs
    rename_i l ht
    subst hs
    refine ⟨?_, h2, h3, h4, ?_, ?_⟩
    · simp only [defer, started, List.length_append, List.length_cons, List.length_nil]; omega
    · intro _ hw; simp [defer, started] at hw
    · intro l' m' hl'
      simp only [defer, started, List.mem_append, List.mem_singleton, Handler.wake.injEq]
      by_cases hll : l' = l
      · exact .inr (.inl (.inr hll))
      · rcases h6 l' m' hl' with ⟨j, hj⟩ | h | h
        · refine .inl ⟨j, ?_⟩
          have : j ≠ i := fun hji => by subst hji; rw [ht] at hj; simp only [Option.some.injEq] at hj; exact hll hj.symm
          simp [upd, this, hj]
        · exact .inr (.inl (.inl h))
        · exact .inr (.inr h)
  | start l => simp only [step, Option.some.injEq] at hs; subst hs; exact inv_defer _ h
  | call l => simp only [step, Option.some.injEq] at hs; subst hs; exact inv_defer _ h
  | begin n =>
    simp only [step] at hs
    split at hs <;> try (cases hs; done)
    rename_i x hx
    split at hs <;> simp only [Option.some.injEq, reduceCtorEq] at hs
    have hn : n < σ.pending.length := by
      rcases Nat.lt_or_ge n σ.pending.length with h | h
      · exact h
      · simp [List.getElem?_eq_none h] at hx
    have hlen := List.length_eraseIdx_of_lt hn
    have hmem : ∀ y ∈ σ.pending, y = x ∨ y ∈ σ.pending.eraseIdx n := by
      intro y hy
      obtain ⟨k, hk, rfl⟩ := List.mem_iff_getElem.1 hy
      by_cases hkn : k = n
      · subst hkn; rw [List.getElem?_eq_getElem hn] at hx; simp only [Option.some.injEq] at hx; exact .inl hx
      · exact .inr (List.mem_eraseIdx_iff_getElem.2 ⟨k, hk, hkn, rfl⟩)
    subst hs
    cases x with
    | wake l =>
      refine ⟨?_, h2, h3, h4, h5, ?_⟩
      · simp only [enter, List.length_append, List.length_cons, List.length_nil, hlen]; omega
      · intro l' m' hl'
        simp only [enter, List.mem_append, List.mem_singleton, Prod.mk.injEq, and_true]
        rcases h6 l' m' hl' with h | h | h
        · exact .inl h
        · rcases hmem _ h with hh | hh
          · simp only [Handler.wake.injEq] at hh; exact .inr (.inr (.inr hh))
          · exact .inr (.inl hh)
        · exact .inr (.inr (.inl h))
    | call l =>
      refine ⟨?_, h2, h3, h4, h5, ?_⟩
      · simp only [enter, List.length_append, List.length_cons, List.length_nil, hlen]; omega
      · intro l' m' hl'
        simp only [enter, List.mem_append]
        rcases h6 l' m' hl' with h | h | h
        · exact .inl h
        · rcases hmem _ h with hh | hh
          · simp at hh
          · exact .inr (.inl hh)
        · exact .inr (.inr (.inl h))
    | timer l id =>
      have key : ∀ b, Inv { { σ with pending := σ.pending.eraseIdx n } with running := σ.running ++ [(l, b)] } := by
        intro b
        refine ⟨?_, h2, h3, h4, h5, ?_⟩
        · simp only [List.length_append, List.length_cons, List.length_nil, hlen]; omega
        · intro l' m' hl'
          simp only [List.mem_append]
          rcases h6 l' m' hl' with h | h | h
          · exact .inl h
          · rcases hmem _ h with hh | hh
            · simp at hh
            · exact .inr (.inl hh)
          · exact .inr (.inr (.inl h))
      unfold enter
      dsimp only
      split
      · exact inv_eraseTimer l id (key true)
      · exact key false
    | waited l id ok =>
      cases ok
      · refine ⟨?_, h2, h3, h4, ?_, ?_⟩
        · simp only [enter, Bool.false_eq_true, if_false, finished, hlen]; omega
        · intro _ hw
          simp only [enter, Bool.false_eq_true, if_false, finished] at hw ⊢
          simp [hw]
        · intro l' m' hl'
          simp only [enter, Bool.false_eq_true, if_false, finished]
          rcases h6 l' m' hl' with h | h | h
          · exact .inl h
          · rcases hmem _ h with hh | hh
            · simp at hh
            · exact .inr (.inl hh)
          · exact .inr (.inr h)
      · refine ⟨?_, h2, h3, h4, ?_, ?_⟩
        · simp only [enter, if_true, finished, defer, started, List.length_append, List.length_cons, List.length_nil, hlen]; omega
        · intro _ hw
          simp only [enter, if_true, finished, defer, started] at hw ⊢
          simp at hw
          simp [hw]
        · intro l' m' hl'
          simp only [enter, if_true, finished, defer, started, List.mem_append]
          rcases h6 l' m' hl' with h | h | h
          · exact .inl h
          · rcases hmem _ h with hh | hh
            · simp at hh
            · exact .inr (.inl (.inl hh))
          · exact .inr (.inr h)
  | pop l =>
    simp only [step] at hs
    split at hs
    · split at hs <;> simp only [Option.some.injEq, reduceCtorEq] at hs
      subst hs
      refine ⟨h1, h2, h3, h4, h5, ?_⟩
      intro l' m' hl'
      exact h6 l' m' (List.mem_of_mem_eraseP hl')
    · rename_i hq
      split at hs <;> simp only [Option.some.injEq, reduceCtorEq] at hs
      subst hs
      refine ⟨by simpa using h1, h2, h3, h4, h5, ?_⟩
      intro l' m' hl'
      have hll : l' ≠ l := fun e => by
        subst e
        exact hq (List.any_eq_true.2 ⟨(l', m'), hl', by simp⟩)
      rcases h6 l' m' hl' with h | h | h
      · exact .inl h
      · exact .inr (.inl h)
      · refine .inr (.inr ?_)
        simp only [List.mem_map]
        exact ⟨(l', true), h, by simp [hll]⟩
  | startTimer l id =>
    simp only [step] at hs
    split at hs <;> simp only [Option.some.injEq, reduceCtorEq] at hs
    subst hs
    refine ⟨?_, h2, h3, h4, ?_, h6⟩
    · simp only [started, List.length_append, List.length_cons, List.length_nil]; omega
    · intro _ hw; simp [started] at hw
  | cancelTimer l id =>
    simp only [step] at hs
    split at hs <;> simp only [Option.some.injEq, reduceCtorEq] at hs
    subst hs
    exact inv_eraseTimer l id (inv_cancelWait l id h)
  | expire n =>
    simp only [step] at hs
    split at hs <;> simp only [Option.some.injEq, reduceCtorEq] at hs
    rename_i l id hx
    have hn : n < σ.waits.length := by
      rcases Nat.lt_or_ge n σ.waits.length with h | h
      · exact h
      · simp [List.getElem?_eq_none h] at hx
    have hlen := List.length_eraseIdx_of_lt hn
    subst hs
    refine ⟨?_, h2, h3, h4, h5, ?_⟩
    · simp only [List.length_append, List.length_cons, List.length_nil, hlen]; omega
    · intro l' m' hl'
      rcases h6 l' m' hl' with h | h | h
      · exact .inl h
      · exact .inr (.inl (List.mem_append_left _ h))
      · exact .inr (.inr h)
  | finish s =>
    simp only [step] at hs
    split at hs <;> simp only [Option.some.injEq, reduceCtorEq] at hs
    rename_i hc
    subst hs
    exact inv_resetGuard s h hc.2
  | destroy s =>
    simp only [step] at hs
    split at hs <;> simp only [Option.some.injEq, reduceCtorEq] at hs
    rename_i hc
    subst hs
    exact inv_resetGuard s h hc
  | ended l =>
    simp only [step] at hs
    split at hs <;> simp only [Option.some.injEq, reduceCtorEq] at hs
    rename_i hm
    have hl := List.length_erase_of_mem hm
    have hp := List.length_pos_of_mem hm
    subst hs
    refine ⟨?_, h2, h3, h4, ?_, ?_⟩
    · simp only [finished, hl]; omega
    · intro _ hw
      simp only [finished] at hw ⊢
      simp [hw]
    · intro l' m' hl'
      simp only [finished]
      rcases h6 l' m' hl' with h | h | h
      · exact .inl h
      · exact .inr (.inl h)
      · refine .inr (.inr ?_)
        exact (List.mem_erase_of_ne (by simp)).2 h

theorem run_inv {σ σ' : State} {ls : List Label} (h : Inv σ) (hr : run σ ls = some σ') : Inv σ' := by
  induction ls generalizing σ with
  | nil => simp only [run, Option.some.injEq] at hr; subst hr; exact h
  | cons l ls ih =>
    simp only [run] at hr
    split at hr
    · simp at hr
    · rename_i σ1 h1
      exact ih (step_inv h h1) hr

theorem Reachable.inv {σ : State} (h : Reachable σ) : Inv σ := by
  obtain ⟨ls, hr⟩ := h
  exact run_inv inv_init hr

theorem cancelWait_stopped (l id : Nat) (σ : State) : (cancelWait l id σ).stopped = σ.stopped := by
  unfold cancelWait; split <;> rfl

theorem cancelWait_over (l id : Nat) (σ : State) : (cancelWait l id σ).over = σ.over := by
  unfold cancelWait; split <;> rfl

theorem cancelWait_made (l id : Nat) (σ : State) : (cancelWait l id σ).made = σ.made := by
  unfold cancelWait; split <;> rfl

theorem cancelWait_work (l id : Nat) (σ : State) : (cancelWait l id σ).work = σ.work := by
  unfold cancelWait; split <;> rfl

theorem cancelWait_inbound (l id : Nat) (σ : State) : (cancelWait l id σ).inbound = σ.inbound := by
  unfold cancelWait; split <;> rfl

theorem cancelWait_running (l id : Nat) (σ : State) : (cancelWait l id σ).running = σ.running := by
  unfold cancelWait; split <;> rfl

/-- the loop is stopped by a step only if no work is left -/
theorem step_stops {σ σ' : State} {l : Label} (hs : step σ l = some σ') (h0 : σ.stopped = false) (h1 : σ'.stopped = true) :
    σ'.work = 0 := by
  cases l <;> simp only [step] at hs
  case run => simp only [Option.some.injEq] at hs; subst hs; simpa [h0] using h1
  case finish s =>
    split at hs <;> simp only [Option.some.injEq, reduceCtorEq] at hs
    subst hs
    unfold resetGuard at h1 ⊢
    split at h1 <;> simp_all [finished]
  case destroy s =>
    split at hs <;> simp only [Option.some.injEq, reduceCtorEq] at hs
    subst hs
    unfold resetGuard at h1 ⊢
    split at h1 <;> simp_all [finished]
  case begin n =>
    split at hs <;> try (cases hs; done)
    rename_i x hx
    split at hs <;> simp only [Option.some.injEq, reduceCtorEq] at hs
    subst hs
    cases x with
    | wake l => simp [enter, h0] at h1
    | call l => simp [enter, h0] at h1
    | timer l id =>
      unfold enter at h1
      dsimp only at h1
      split at h1 <;> simp [eraseTimer, cancelWait_stopped, h0] at h1
    | waited l id ok => cases ok <;> simp_all [enter, finished, defer, started]
  all_goals
    repeat' split at hs
  all_goals
    simp only [Option.some.injEq, reduceCtorEq] at hs
  all_goals
    try subst hs
  all_goals
    first
    | (split at h1 <;> simp [started, h0] at h1)
    | simp_all [finished, defer, started, eraseTimer, cancelWait_stopped]

/-- `stopped`, the supervisors and their ends only grow -/
theorem step_mono {σ σ' : State} {l : Label} (hs : step σ l = some σ') :
    (σ.stopped = true → σ'.stopped = true) ∧ (∀ p ∈ σ.made, p ∈ σ'.made) ∧ (∀ s ∈ σ.over, s ∈ σ'.over) := by
  cases l <;> simp only [step] at hs
  case finish s =>
    split at hs <;> simp only [Option.some.injEq, reduceCtorEq] at hs
    subst hs
    unfold resetGuard
    split <;> simp_all [finished]
  case destroy s =>
    split at hs <;> simp only [Option.some.injEq, reduceCtorEq] at hs
    subst hs
    unfold resetGuard
    split <;> simp_all [finished]
  case begin n =>
    split at hs <;> try (cases hs; done)
    rename_i x hx
    split at hs <;> simp only [Option.some.injEq, reduceCtorEq] at hs
    subst hs
    cases x with
    | wake l => simp [enter]
    | call l => simp [enter]
    | timer l id =>
      unfold enter
      dsimp only
      split <;> simp [eraseTimer, cancelWait_stopped, cancelWait_over, cancelWait_made]
    | waited l id ok => cases ok <;> simp_all [enter, finished, defer, started]
  all_goals
    repeat' split at hs
  all_goals
    simp only [Option.some.injEq, reduceCtorEq] at hs
  all_goals
    try subst hs
  all_goals
    first
    | (split <;> simp_all [started] <;> done)
    | (simp_all [finished, defer, started, eraseTimer, cancelWait_stopped, cancelWait_over, cancelWait_made] <;> done)

theorem run_mono {σ σ' : State} {ls : List Label} (hr : run σ ls = some σ') :
    (σ.stopped = true → σ'.stopped = true) ∧ (∀ p ∈ σ.made, p ∈ σ'.made) ∧ (∀ s ∈ σ.over, s ∈ σ'.over) := by
  induction ls generalizing σ with
  | nil => simp only [run, Option.some.injEq] at hr; subst hr; simp
  | cons l ls ih =>
    simp only [run] at hr
    split at hr
    · simp at hr
    · rename_i σ1 h1
      have a := step_mono h1
      have b := ih hr
      exact ⟨fun h => b.1 (a.1 h), fun p h => b.2.1 p (a.2.1 p h), fun s h => b.2.2 s (a.2.2 s h)⟩

end Verif.AsioGuard
