import Verif.AsioGuard.Props

/-! # C76, the timers: which of them keep the loop running -/

namespace Verif.AsioGuard

/-- the timer is underway: it waits, or one of its two handlers is to be called -/
def Underway (σ : State) (l id : Nat) : Prop :=
  (l, id) ∈ σ.waits ∨ Handler.waited l id true ∈ σ.pending ∨ Handler.timer l id ∈ σ.pending

structure TInv (σ : State) : Prop where
  tnodup : σ.timers.Nodup
  wnodup : σ.waits.Nodup
  mapped : ∀ p ∈ σ.waits, p ∈ σ.timers
  alive : ∀ l id, (l, id) ∈ σ.timers → Underway σ l id

theorem tinv_init : TInv .init := by
  constructor <;> simp [State.init]

/-- nothing that matters for timers goes away -/
theorem TInv.mono {σ σ' : State} (h : TInv σ) (ht : σ'.timers = σ.timers) (hw : σ'.waits = σ.waits)
    (hp : ∀ l id, Handler.waited l id true ∈ σ.pending ∨ Handler.timer l id ∈ σ.pending →
      Handler.waited l id true ∈ σ'.pending ∨ Handler.timer l id ∈ σ'.pending) : TInv σ' := by
  obtain ⟨h1, h2, h3, h4⟩ := h
  refine ⟨ht ▸ h1, hw ▸ h2, by rw [ht, hw]; exact h3, ?_⟩
  intro l id hm
  rw [ht] at hm
  rcases h4 l id hm with h | h
  · exact .inl (hw ▸ h)
  · exact .inr (hp l id h)

/-- a timer is erased, with its wait -/
theorem tinv_erase {σ : State} {l id : Nat} (h1 : σ.timers.Nodup) (h2 : σ.waits.Nodup) (h3 : ∀ p ∈ σ.waits, p ∈ σ.timers)
    (h4 : ∀ l' id', (l', id') ∈ σ.timers → (l', id') ≠ (l, id) → Underway σ l' id') : TInv (eraseTimer l id σ) := by
  have key : ∀ p, p ∈ σ.timers.erase (l, id) ↔ p ≠ (l, id) ∧ p ∈ σ.timers := fun p => h1.mem_erase_iff
  unfold eraseTimer cancelWait
  split
  · refine ⟨h1.erase _, h2.erase _, ?_, ?_⟩
    · intro p hp
      have := h2.mem_erase_iff.1 hp
      exact (key p).2 ⟨this.1, h3 p this.2⟩
    · intro l' id' hm
      obtain ⟨hne, hm⟩ := (key _).1 hm
      rcases h4 l' id' hm hne with h | h | h
      · exact .inl (h2.mem_erase_iff.2 ⟨hne, h⟩)
      · exact .inr (.inl (List.mem_append_left _ h))
      · exact .inr (.inr (List.mem_append_left _ h))
  · rename_i hw
    have hw' : (l, id) ∉ σ.waits := hw
    refine ⟨h1.erase _, h2, ?_, ?_⟩
    · intro p hp
      exact (key p).2 ⟨fun e => hw' (e ▸ hp), h3 p hp⟩
    · intro l' id' hm
      obtain ⟨hne, hm⟩ := (key _).1 hm
      exact h4 l' id' hm hne

theorem eraseTimer_cancelWait {σ : State} {l id : Nat} (h : TInv σ) : TInv (eraseTimer l id (cancelWait l id σ)) := by
  obtain ⟨h1, h2, h3, h4⟩ := h
  unfold cancelWait
  split
  · refine tinv_erase h1 (h2.erase _) (fun p hp => h3 p (List.mem_of_mem_erase hp)) ?_
    intro l' id' hm hne
    rcases h4 l' id' hm with h | h | h
    · exact .inl (h2.mem_erase_iff.2 ⟨hne, h⟩)
    · exact .inr (.inl (List.mem_append_left _ h))
    · exact .inr (.inr (List.mem_append_left _ h))
  · exact tinv_erase h1 h2 h3 (fun l' id' hm _ => h4 l' id' hm)

theorem resetGuard_fields (s : Nat) (σ : State) :
    (resetGuard s σ).timers = σ.timers ∧ (resetGuard s σ).waits = σ.waits ∧ (resetGuard s σ).pending = σ.pending := by
  unfold resetGuard; split <;> simp [finished]

theorem step_tinv {σ σ' : State} {l : Label} (h : TInv σ) (hs : step σ l = some σ') : TInv σ' := by
  have ⟨h1, h2, h3, h4⟩ := h
  cases l <;> simp only [step] at hs
  case run =>
    simp only [Option.some.injEq] at hs; subst hs
    exact h.mono rfl rfl (fun _ _ => id)
  case create s g =>
    split at hs <;> simp only [Option.some.injEq, reduceCtorEq] at hs
    subst hs
    cases g
    · exact h.mono rfl rfl (fun _ _ => id)
    · exact h.mono rfl rfl (fun _ _ => id)
  case push l i m =>
    split at hs <;> simp only [Option.some.injEq, reduceCtorEq] at hs
    subst hs
    exact h.mono rfl rfl (fun _ _ => id)
  case defer i =>
    split at hs <;> simp only [Option.some.injEq, reduceCtorEq] at hs
    subst hs
    exact h.mono rfl rfl (fun _ _ => Or.imp (List.mem_append_left _) (List.mem_append_left _))
  case start l =>
    simp only [Option.some.injEq] at hs; subst hs
    exact h.mono rfl rfl (fun _ _ => Or.imp (List.mem_append_left _) (List.mem_append_left _))
  case call l =>
    simp only [Option.some.injEq] at hs; subst hs
    exact h.mono rfl rfl (fun _ _ => Or.imp (List.mem_append_left _) (List.mem_append_left _))
  case begin n =>
    split at hs <;> try (cases hs; done)
    rename_i x hx
    split at hs <;> simp only [Option.some.injEq, reduceCtorEq] at hs
    have hn : n < σ.pending.length := by
      rcases Nat.lt_or_ge n σ.pending.length with h | h
      · exact h
      · simp [List.getElem?_eq_none h] at hx
    have hmem : ∀ y ∈ σ.pending, y = x ∨ y ∈ σ.pending.eraseIdx n := by
      intro y hy
      obtain ⟨k, hk, rfl⟩ := List.mem_iff_getElem.1 hy
      by_cases hkn : k = n
      · subst hkn; rw [List.getElem?_eq_getElem hn] at hx; simp only [Option.some.injEq] at hx; exact .inl hx
      · exact .inr (List.mem_eraseIdx_iff_getElem.2 ⟨k, hk, hkn, rfl⟩)
    subst hs
    cases x with
    | wake l =>
      refine h.mono rfl rfl (fun l' id' hh => hh.imp (fun a => ?_) (fun a => ?_))
      · exact (hmem _ a).resolve_left (by simp)
      · exact (hmem _ a).resolve_left (by simp)
    | call l =>
      refine h.mono rfl rfl (fun l' id' hh => hh.imp (fun a => ?_) (fun a => ?_))
      · exact (hmem _ a).resolve_left (by simp)
      · exact (hmem _ a).resolve_left (by simp)
    | timer l id =>
      have rest : ∀ l' id', (l', id') ∈ σ.timers → (l', id') ≠ (l, id) → (l', id') ∈ σ.waits ∨
          Handler.waited l' id' true ∈ σ.pending.eraseIdx n ∨ Handler.timer l' id' ∈ σ.pending.eraseIdx n := by
        intro l' id' hm hne
        rcases h4 l' id' hm with h | h | h
        · exact .inl h
        · exact .inr (.inl ((hmem _ h).resolve_left (by simp)))
        · refine .inr (.inr ((hmem _ h).resolve_left ?_))
          intro e
          simp only [Handler.timer.injEq] at e
          exact hne (by rw [e.1, e.2])
      unfold enter
      dsimp only
      split
      · exact tinv_erase h1 h2 h3 rest
      · rename_i hno
        have hno' : (l, id) ∉ σ.timers := hno
        exact ⟨h1, h2, h3, fun l' id' hm => rest l' id' hm (fun e => hno' (e ▸ hm))⟩
    | waited l id ok =>
      cases ok
      · refine h.mono rfl rfl (fun l' id' hh => hh.imp (fun a => ?_) (fun a => ?_))
        · exact (hmem _ a).resolve_left (by simp)
        · exact (hmem _ a).resolve_left (by simp)
      · refine h.mono rfl rfl (fun l' id' hh => ?_)
        simp only [enter, if_true, finished, defer, started, List.mem_append, List.mem_singleton, reduceCtorEq, or_false,
          Handler.timer.injEq]
        rcases hh with a | a
        · rcases hmem _ a with e | a
          · simp only [Handler.waited.injEq, and_true] at e; exact .inr (.inr e)
          · exact .inl a
        · exact .inr (.inl ((hmem _ a).resolve_left (by simp)))
  case pop l =>
    repeat' split at hs
    all_goals simp only [Option.some.injEq, reduceCtorEq] at hs
    all_goals
      subst hs
      exact h.mono rfl rfl (fun _ _ => id)
  case startTimer l id =>
    split at hs <;> simp only [Option.some.injEq, reduceCtorEq] at hs
    rename_i hc
    subst hs
    simp only [Bool.and_eq_true, Bool.not_eq_true', decide_eq_false_iff_not] at hc
    have hnt := hc.2
    have hnw : (l, id) ∉ σ.waits := fun hw => hnt (h3 _ hw)
    have app : ∀ {L : List (Nat × Nat)}, L.Nodup → (l, id) ∉ L → (L ++ [(l, id)]).Nodup := by
      intro L hL hn
      rw [List.nodup_append]
      refine ⟨hL, by simp, ?_⟩
      intro a ha b hb hab
      simp only [List.mem_singleton] at hb
      exact hn (hb ▸ hab ▸ ha)
    refine ⟨app h1 hnt, app h2 hnw, ?_, ?_⟩
    · intro p hp
      simp only [started, List.mem_append, List.mem_singleton] at hp ⊢
      exact hp.imp (h3 p) (fun e => e)
    · intro l' id' hm
      simp only [started, List.mem_append, List.mem_singleton] at hm
      rcases hm with hm | hm
      · rcases h4 l' id' hm with h | h
        · exact .inl (List.mem_append_left _ h)
        · exact .inr h
      · exact .inl (List.mem_append_right _ (by simp [hm]))
  case cancelTimer l id =>
    split at hs <;> simp only [Option.some.injEq, reduceCtorEq] at hs
    subst hs
    exact eraseTimer_cancelWait h
  case expire n =>
    split at hs <;> simp only [Option.some.injEq, reduceCtorEq] at hs
    rename_i l id hx
    have hn : n < σ.waits.length := by
      rcases Nat.lt_or_ge n σ.waits.length with h | h
      · exact h
      · simp [List.getElem?_eq_none h] at hx
    subst hs
    refine ⟨h1, h2.sublist (List.eraseIdx_sublist ..), fun p hp => h3 p (List.mem_of_mem_eraseIdx hp), ?_⟩
    intro l' id' hm
    rcases h4 l' id' hm with h | h | h
    · obtain ⟨k, hk, hkk⟩ := List.mem_iff_getElem.1 h
      by_cases hkn : k = n
      · subst hkn
        rw [List.getElem?_eq_getElem hn] at hx
        simp only [Option.some.injEq] at hx
        rw [hx] at hkk
        simp only [Prod.mk.injEq] at hkk
        refine .inr (.inl (List.mem_append_right _ ?_))
        simp [hkk.1, hkk.2]
      · exact .inl (List.mem_eraseIdx_iff_getElem.2 ⟨k, hk, hkn, hkk⟩)
    · exact .inr (.inl (List.mem_append_left _ h))
    · exact .inr (.inr (List.mem_append_left _ h))
  case finish s =>
    split at hs <;> simp only [Option.some.injEq, reduceCtorEq] at hs
    subst hs
    have := resetGuard_fields s { σ with over := s :: σ.over }
    exact h.mono this.1 this.2.1 (fun _ _ => by rw [this.2.2]; exact id)
  case destroy s =>
    split at hs <;> simp only [Option.some.injEq, reduceCtorEq] at hs
    subst hs
    have := resetGuard_fields s { σ with over := s :: σ.over }
    exact h.mono this.1 this.2.1 (fun _ _ => by rw [this.2.2]; exact id)
  case ended l =>
    split at hs <;> simp only [Option.some.injEq, reduceCtorEq] at hs
    subst hs
    exact h.mono rfl rfl (fun _ _ => id)

theorem Reachable.tinv {σ : State} (h : Reachable σ) : TInv σ := by
  obtain ⟨ls, hr⟩ := h
  have h0 := tinv_init
  generalize State.init = τ at hr h0
  induction ls generalizing τ with
  | nil => simp only [run, Option.some.injEq] at hr; subst hr; exact h0
  | cons l ls ih =>
    simp only [run] at hr
    split at hr
    · simp at hr
    · rename_i σ1 h1
      exact ih σ1 hr (step_tinv h0 h1)

/-- A timer keeps the loop running exactly as long as it is in the map: what waits is in the map, so that a cancelled timer does not wait; and what is
in the map waits or is about to be called. -/
theorem C76_timers {σ : State} (hr : Reachable σ) (l id : Nat) :
    ((l, id) ∈ σ.waits → (l, id) ∈ σ.timers) ∧
      ((l, id) ∈ σ.timers → (l, id) ∈ σ.waits ∨ Handler.waited l id true ∈ σ.pending ∨ Handler.timer l id ∈ σ.pending) :=
  ⟨hr.tinv.mapped (l, id), hr.tinv.alive l id⟩

/-- No timer is left when the loop stops: each has been called or cancelled. -/
theorem C76_no_timer_forgotten {σ σ' : State} {l : Label} (hr : Reachable σ) (hs : step σ l = some σ') (h0 : σ.stopped = false)
    (h1 : σ'.stopped = true) : σ'.timers = [] := by
  have hi := (C76_nothing_left hr hs h0 h1).2
  have ht := step_tinv hr.tinv hs
  cases hc : σ'.timers with
  | nil => rfl
  | cons p ps =>
    obtain ⟨l, id⟩ := p
    rcases ht.alive l id (by rw [hc]; exact List.mem_cons_self) with h | h | h
    · simp [hi.2.1] at h
    · simp [hi.1] at h
    · simp [hi.1] at h

/-- a timer that has been started, and the closure that started it has returned -/
example : ∃ σ, Reachable σ ∧ (0, 1) ∈ σ.timers ∧ (0, 1) ∈ σ.waits ∧ σ.running = [] :=
  ⟨(run .init caseLabels).get (by decide), ⟨caseLabels, by simp⟩, by decide, by decide, by decide⟩

/-- the last step of a loop with a timer -/
example : ∃ σ σ', Reachable σ ∧ step σ (.ended 0) = some σ' ∧ σ.stopped = false ∧ σ'.stopped = true :=
  ⟨(run .init (caseLabels ++ [.expire 0, .begin 0, .begin 0, .pop 0])).get (by decide),
    (run .init (caseLabels ++ [.expire 0, .begin 0, .begin 0, .pop 0, .ended 0])).get (by decide),
    ⟨caseLabels ++ [.expire 0, .begin 0, .begin 0, .pop 0], by simp⟩, by rfl, by decide, by decide⟩

end Verif.AsioGuard
