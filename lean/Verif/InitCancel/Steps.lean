import Verif.InitCancel.Lemmas
/-!
# Taking back the request for initialization: every step keeps the books
-/

namespace Verif.InitCancel
open Verif

theorem find_cons (n m : Nat) (w : What) (l : AMap Nat What) :
    AMap.find ((n, w) :: l) m = if n = m then some w else AMap.find l m := rfl

theorem ask_inv {c : Cfg} {σ} (i : Inv c σ) (s : Nat) (w : What) (hs : c.isSup s = true) (ht : w ≠ .timer)
    (hi : ∀ x, w = .init x → s = c.mgr x) (hu : ∀ a, w = .user a → s = c.home a) : Inv c (ask c s w σ) := by
  have fr := i.fresh s
  have fr' := @Inv.fresh' c σ i s
  have hn : AMap.find (σ.timers s) (draw c s σ) = none := by
    cases hh : AMap.find (σ.timers s) (draw c s σ) with
    | none => rfl
    | some v => exact absurd (i.tim _ _ _ hh) (fr v)
  constructor
  · intro s' n w' h'; simp only [ask, upd] at h' ⊢
    rcases List.mem_cons.mp h' with h' | h'
    · cases h'; simp
    · have := i.le _ _ _ h'; split
      · rename_i hl; rw [hl] at this; simp only [draw]; omega
      · exact this
  · intro s1 n w1 s2 w2 h1 h2 hl; simp only [ask] at h1 h2
    rcases List.mem_cons.mp h1 with h1 | h1 <;> rcases List.mem_cons.mp h2 with h2 | h2
    · cases h1; cases h2; exact ⟨rfl, rfl⟩
    · cases h1; exact absurd h2 (fr' hl.symm _)
    · cases h2; exact absurd h1 (fr' hl _)
    · exact i.uniq _ _ _ _ _ h1 h2 hl
  · intro s' n w' h'; simp only [ask, upd] at h' ⊢
    split at h'
    · subst_vars; rw [find_cons] at h'; split at h'
      · subst_vars; cases h'; exact List.mem_cons_self
      · exact List.mem_cons_of_mem _ (i.tim _ _ _ h')
    · exact List.mem_cons_of_mem _ (i.tim _ _ _ h')
  · intro s' n w'; simp only [ask, upd]
    split
    · subst_vars; rw [find_cons, find_cons]; split
      · constructor
        · intro h; cases h; exact ⟨rfl, ht⟩
        · exact fun h => h.1
      · exact i.req _ _ _
    · exact i.req _ _ _
  · intro x n h; exact List.mem_cons_of_mem _ (i.net x n h)
  · intro x n h; exact List.mem_cons_of_mem _ (i.held x n h)
  · intro s' n x h'; simp only [ask] at h'
    rcases List.mem_cons.mp h' with h' | h'
    · cases h'; exact ⟨hi _ rfl, hs⟩
    · exact i.mgr _ _ _ h'
  · intro s' n x h'; simp only [ask] at h'
    rcases List.mem_cons.mp h' with h' | h'
    · cases h'; exact hu _ rfl
    · exact i.home _ _ _ h'
  · intro b n h'; simp only [ask, upd] at h' ⊢
    split at h'
    · rename_i hb
      rcases List.mem_cons.mp h' with h' | h'
      · have hh : c.home b = s := by
          cases w with
          | init x => simp only [source] at hb; subst hb; exact home_of_sup hs
          | user a => simp only [source] at hb; subst hb; exact (hu _ rfl).symm
          | timer => exact absurd rfl ht
        exact ⟨w, by rw [hh, h']; exact List.mem_cons_self, by rw [hh]; exact hb.symm⟩
      · rw [← hb] at h'
        obtain ⟨w', h1, h2⟩ := i.act b n h'; exact ⟨w', List.mem_cons_of_mem _ h1, h2⟩
    · obtain ⟨w', h1, h2⟩ := i.act b n h'; exact ⟨w', List.mem_cons_of_mem _ h1, h2⟩
  · intro s' n w' h'; simp only [ask, upd] at h' ⊢
    have keep : ∀ b, n ∈ σ.active b → n ∈ (if b = source s w then draw c s σ :: σ.active (source s w) else σ.active b) := by
      intro b hb; split
      · rename_i hb'; exact List.mem_cons_of_mem _ (hb' ▸ hb)
      · exact hb
    split at h'
    · subst_vars; rw [find_cons] at h'; split at h'
      · subst_vars; cases h'; rw [if_pos rfl]; exact List.mem_cons_self
      · exact keep _ (i.act2 _ _ _ h')
    · exact keep _ (i.act2 _ _ _ h')
  · intro s' n w' h'
    have hf : AMap.find ((ask c s w σ).timers s') n = if s' = s ∧ draw c s σ = n then some w else AMap.find (σ.timers s') n := by
      simp only [ask, upd]; split <;> grind [find_cons]
    change ends s' n (.made s _ _ :: σ.log) = _
    rw [ends_made]; simp only [hf]
    rcases List.mem_cons.mp h' with h' | h'
    · cases h'; simpa using i.none _ _ fr
    · have hne : ¬ (s' = s ∧ draw c s σ = n) := by
        rintro ⟨hs', hn'⟩; rw [hs', ← hn'] at h'; exact fr w' h'
      rw [i.books _ _ _ h']; simp only [if_neg hne]
  · intro s' n h'; simp only [ask] at h' ⊢
    rw [ends_made]; exact i.none _ _ (fun w' hh => h' w' (List.mem_cons_of_mem _ hh))
  · intro s' n w' h h'; simp only [ask] at h' ⊢
    rcases List.mem_cons.mp h' with h' | h'
    · cases h'
    · exact ⟨List.mem_cons_of_mem _ (i.why _ _ _ _ h').1, (i.why _ _ _ _ h').2⟩

theorem start_inv {c : Cfg} {σ} (i : Inv c σ) (s : Nat) : Inv c (startTimer c s σ) := by
  have fr := i.fresh s
  have fr' := @Inv.fresh' c σ i s
  have hn : AMap.find (σ.timers s) (draw c s σ) = none := by
    cases hh : AMap.find (σ.timers s) (draw c s σ) with
    | none => rfl
    | some v => exact absurd (i.tim _ _ _ hh) (fr v)
  constructor
  · intro s' n w' h'; simp only [startTimer, upd] at h' ⊢
    rcases List.mem_cons.mp h' with h' | h'
    · cases h'; simp
    · have := i.le _ _ _ h'; split
      · rename_i hl; rw [hl] at this; simp only [draw]; omega
      · exact this
  · intro s1 n w1 s2 w2 h1 h2 hl; simp only [startTimer] at h1 h2
    rcases List.mem_cons.mp h1 with h1 | h1 <;> rcases List.mem_cons.mp h2 with h2 | h2
    · cases h1; cases h2; exact ⟨rfl, rfl⟩
    · cases h1; exact absurd h2 (fr' hl.symm _)
    · cases h2; exact absurd h1 (fr' hl _)
    · exact i.uniq _ _ _ _ _ h1 h2 hl
  · intro s' n w' h'; simp only [startTimer, upd] at h' ⊢
    split at h'
    · subst_vars; rw [find_cons] at h'; split at h'
      · subst_vars; cases h'; exact List.mem_cons_self
      · exact List.mem_cons_of_mem _ (i.tim _ _ _ h')
    · exact List.mem_cons_of_mem _ (i.tim _ _ _ h')
  · intro s' n w'; simp only [startTimer, upd]
    split
    · subst_vars; rw [find_cons]; split
      · subst_vars
        constructor
        · intro h; have := ((i.req _ _ _).mp h).1; rw [hn] at this; cases this
        · intro h; exact absurd (Option.some.inj h.1).symm h.2
      · exact i.req _ _ _
    · exact i.req _ _ _
  · intro x n h; exact List.mem_cons_of_mem _ (i.net x n h)
  · intro x n h; exact List.mem_cons_of_mem _ (i.held x n h)
  · intro s' n x h'; simp only [startTimer] at h'
    rcases List.mem_cons.mp h' with h' | h'
    · cases h'
    · exact i.mgr _ _ _ h'
  · intro s' n x h'; simp only [startTimer] at h'
    rcases List.mem_cons.mp h' with h' | h'
    · cases h'
    · exact i.home _ _ _ h'
  · intro b n h'
    obtain ⟨w', h1, h2⟩ := i.act b n h'; exact ⟨w', List.mem_cons_of_mem _ h1, h2⟩
  · exact i.act2
  · intro s' n w' h'
    have hf : AMap.find ((startTimer c s σ).timers s') n = if s' = s ∧ draw c s σ = n then some .timer else AMap.find (σ.timers s') n := by
      simp only [startTimer, upd]; split <;> grind [find_cons]
    change ends s' n (.made s _ _ :: σ.log) = _
    rw [ends_made]; simp only [hf]
    rcases List.mem_cons.mp h' with h' | h'
    · cases h'; simpa using i.none _ _ fr
    · have hne : ¬ (s' = s ∧ draw c s σ = n) := by
        rintro ⟨hs', hn'⟩; rw [hs', ← hn'] at h'; exact fr w' h'
      rw [i.books _ _ _ h']; simp only [if_neg hne]
  · intro s' n h'; simp only [startTimer] at h' ⊢
    rw [ends_made]; exact i.none _ _ (fun w' hh => h' w' (List.mem_cons_of_mem _ hh))
  · intro s' n w' h h'; simp only [startTimer] at h' ⊢
    rcases List.mem_cons.mp h' with h' | h'
    · cases h'
    · exact ⟨List.mem_cons_of_mem _ (i.why _ _ _ _ h').1, (i.why _ _ _ _ h').2⟩

/-- the numbers of a list end one after the other -/
theorem fold_inv {c : Cfg} {s h} (l : List Nat) {σ} (i : Inv c σ)
    (hl : ∀ n ∈ l, ∃ w, Ev.made s n w ∈ σ.log ∧ Fits c s w h) :
    Inv c (l.foldl (fun τ n => onTimerTrigger s n h τ) σ) := by
  induction l generalizing σ with
  | nil => exact i
  | cons n r ih =>
    rw [List.foldl_cons]
    cases hw : AMap.find (σ.timers s) n with
    | none => rw [trigger_none hw]; exact ih i (fun m hm => hl m (List.mem_cons_of_mem _ hm))
    | some w =>
      have e := trigger_ends (h := h) i hw
      obtain ⟨w', h1, h2⟩ := hl n List.mem_cons_self
      have hww := (i.uniq _ _ _ _ _ (i.tim _ _ _ hw) h1 rfl).2
      refine ih (e.inv i hw (hww ▸ h2)) ?_
      intro m hm
      obtain ⟨w', h1, h2⟩ := hl m (List.mem_cons_of_mem _ hm)
      exact ⟨w', by rw [e.log]; exact List.mem_cons_of_mem _ h1, h2⟩

/-- events stay -/
theorem fold_log {c : Cfg} {s h} (l : List Nat) {σ} (i : Inv c σ)
    (hl : ∀ n ∈ l, ∃ w, Ev.made s n w ∈ σ.log ∧ Fits c s w h) :
    ∀ e ∈ σ.log, e ∈ (l.foldl (fun τ n => onTimerTrigger s n h τ) σ).log := by
  induction l generalizing σ with
  | nil => exact fun e he => he
  | cons n r ih =>
    simp only [List.foldl_cons]
    cases hw : AMap.find (σ.timers s) n with
    | none => rw [trigger_none hw]; exact ih i (fun m hm => hl m (List.mem_cons_of_mem _ hm))
    | some w =>
      have e := trigger_ends (h := h) i hw
      obtain ⟨w', h1, h2⟩ := hl n List.mem_cons_self
      have hww := (i.uniq _ _ _ _ _ (i.tim _ _ _ hw) h1 rfl).2
      intro ev hev
      refine ih (e.inv i hw (hww ▸ h2)) ?_ ev (by rw [e.log]; exact List.mem_cons_of_mem _ hev)
      intro m hm
      obtain ⟨w', h1, h2⟩ := hl m (List.mem_cons_of_mem _ hm)
      exact ⟨w', by rw [e.log]; exact List.mem_cons_of_mem _ h1, h2⟩

/-- all of them are gone then -/
theorem fold_none {c : Cfg} {s h} (l : List Nat) {σ} (i : Inv c σ)
    (hl : ∀ n ∈ l, ∃ w, Ev.made s n w ∈ σ.log ∧ Fits c s w h) :
    (∀ n ∈ l, AMap.find ((l.foldl (fun τ n => onTimerTrigger s n h τ) σ).timers s) n = none) ∧
    (∀ s' n, AMap.find (σ.timers s') n = none → AMap.find ((l.foldl (fun τ n => onTimerTrigger s n h τ) σ).timers s') n = none) := by
  induction l generalizing σ with
  | nil => exact ⟨by simp, fun _ _ h => h⟩
  | cons n r ih =>
    simp only [List.foldl_cons]
    cases hw : AMap.find (σ.timers s) n with
    | none =>
      rw [trigger_none hw]
      obtain ⟨h1, h2⟩ := ih i (fun m hm => hl m (List.mem_cons_of_mem _ hm))
      refine ⟨?_, h2⟩
      intro m hm
      rcases List.mem_cons.mp hm with rfl | hm
      · exact h2 _ _ hw
      · exact h1 m hm
    | some w =>
      have e := trigger_ends (h := h) i hw
      obtain ⟨w', h1, h2⟩ := hl n List.mem_cons_self
      have hww := (i.uniq _ _ _ _ _ (i.tim _ _ _ hw) h1 rfl).2
      obtain ⟨g1, g2⟩ := ih (e.inv i hw (hww ▸ h2)) (by
        intro m hm
        obtain ⟨w', h1, h2⟩ := hl m (List.mem_cons_of_mem _ hm)
        exact ⟨w', by rw [e.log]; exact List.mem_cons_of_mem _ h1, h2⟩)
      refine ⟨?_, ?_⟩
      · intro m hm
        rcases List.mem_cons.mp hm with rfl | hm
        · exact g2 _ _ (by rw [e.timers]; simp)
        · exact g1 m hm
      · intro s' m hm
        refine g2 _ _ ?_
        rw [e.timers]; split
        · rfl
        · exact hm

theorem keys_find {l : AMap Nat What} {n : Nat} (h : n ∈ AMap.keys l) : ∃ w, AMap.find l n = some w := by
  cases hh : AMap.find l n with
  | none => exact absurd h ((AMap.find_eq_none_iff l n).mp hh)
  | some w => exact ⟨w, rfl⟩

theorem stop_inv {c : Cfg} {σ} (i : Inv c σ) (a : Nat) : Inv c (stop c a σ) := by
  unfold stop
  have second : ∀ τ, Inv c τ → Inv c ((τ.active a).foldl (fun τ n => onTimerTrigger (c.home a) n (.stopped a) τ) τ) := by
    intro τ it
    refine fold_inv _ it ?_
    intro n hn
    obtain ⟨w, h1, h2⟩ := it.act a n hn
    exact ⟨w, h1, Or.inl h2⟩
  by_cases hs : c.isSup a = true
  · simp only [hs, if_true]
    refine second _ (fold_inv _ i ?_)
    intro n hn
    obtain ⟨w, hw⟩ := keys_find hn
    exact ⟨w, i.tim _ _ _ hw, Or.inr rfl⟩
  · simp only [hs]
    exact second _ i

/-- nothing is waited for after the end of the actor that made the request -/
theorem stop_none {c : Cfg} {σ} (i : Inv c σ) (a : Nat) :
    (∀ s n w, AMap.find ((stop c a σ).reqs s) n = some w → source s w ≠ a) ∧
    (c.isSup a = true → ∀ n, AMap.find ((stop c a σ).timers a) n = none) := by
  have ist := stop_inv i a
  have second : ∀ τ, Inv c τ →
      (∀ n ∈ τ.active a, AMap.find (((τ.active a).foldl (fun τ n => onTimerTrigger (c.home a) n (.stopped a) τ) τ).timers (c.home a)) n = none) ∧
      (∀ s' n, AMap.find (τ.timers s') n = none →
        AMap.find (((τ.active a).foldl (fun τ n => onTimerTrigger (c.home a) n (.stopped a) τ) τ).timers s') n = none) := by
    intro τ it
    refine fold_none _ it ?_
    intro n hn
    obtain ⟨w, h1, h2⟩ := it.act a n hn
    exact ⟨w, h1, Or.inl h2⟩
  have main : ∀ τ, Inv c τ → Inv c ((τ.active a).foldl (fun τ n => onTimerTrigger (c.home a) n (.stopped a) τ) τ) →
      ∀ s n w, AMap.find (((τ.active a).foldl (fun τ n => onTimerTrigger (c.home a) n (.stopped a) τ) τ).reqs s) n = some w →
        source s w ≠ a := by
    intro τ it it' s n w hf hs
    obtain ⟨g1, g2⟩ := second τ it
    obtain ⟨k1, k2⟩ := (it'.req _ _ _).mp hf
    have hh : s = c.home a := by
      have := it'.src (it'.tim _ _ _ k1) k2
      rw [hs] at this; exact this
    cases h0 : AMap.find (τ.timers s) n with
    | none => rw [g2 _ _ h0] at k1; cases k1
    | some w0 =>
      by_cases ht : w0 = .timer
      · -- the number of a timer stays the number of a timer
        have m1 := it.tim _ _ _ h0
        have m2 := it'.tim _ _ _ k1
        have m3 : Ev.made s n w0 ∈ ((τ.active a).foldl (fun τ n => onTimerTrigger (c.home a) n (.stopped a) τ) τ).log :=
          fold_log _ it (by
            intro n hn
            obtain ⟨w, h1, h2⟩ := it.act a n hn
            exact ⟨w, h1, Or.inl h2⟩) _ m1
        have := (it'.uniq _ _ _ _ _ m2 m3 rfl).2
        rw [ht] at this; exact k2 this
      · have hr := (it.req _ _ _).mpr ⟨h0, ht⟩
        have m3 : Ev.made s n w0 ∈ ((τ.active a).foldl (fun τ n => onTimerTrigger (c.home a) n (.stopped a) τ) τ).log :=
          fold_log _ it (by
            intro n hn
            obtain ⟨w, h1, h2⟩ := it.act a n hn
            exact ⟨w, h1, Or.inl h2⟩) _ (it.tim _ _ _ h0)
        have hww := (it'.uniq _ _ _ _ _ (it'.tim _ _ _ k1) m3 rfl).2
        have hin := it.act2 _ _ _ hr
        rw [← hww, hs] at hin
        have := g1 n hin
        rw [hh, this] at k1; cases k1
  unfold stop at ist ⊢
  by_cases hs : c.isSup a = true
  · simp only [hs, if_true] at ist ⊢
    have first : ∀ n ∈ AMap.keys (σ.timers a), ∃ w, Ev.made a n w ∈ σ.log ∧ Fits c a w (.stopped a) := by
      intro n hn
      obtain ⟨w, hw⟩ := keys_find hn
      exact ⟨w, i.tim _ _ _ hw, Or.inr rfl⟩
    have i1 := fold_inv _ i first
    obtain ⟨f1, f2⟩ := fold_none _ i first
    refine ⟨main _ i1 ist, fun _ n => (second _ i1).2 _ _ ?_⟩
    by_cases hk : n ∈ AMap.keys (σ.timers a)
    · exact f1 n hk
    · exact f2 _ _ ((AMap.find_eq_none_iff _ _).mpr hk)
  · simp only [hs] at ist ⊢
    exact ⟨main _ i ist, fun h => absurd h (by simp)⟩

/-- `cancel_init` ends the request it was called for, or does nothing, or it is a supervisor in another locality than its parent -/
theorem cancel_cases {c : Cfg} {s x σ} (i : Inv c σ) (hx : x = s ∨ c.parent x = some s) (hs : c.isSup s = true) :
    (cancelInit s x σ = .ok σ ∧ ∀ n, σ.held x = some n → AMap.find (σ.timers s) n = none) ∨
    (∃ n w σ', σ.held x = some n ∧ AMap.find (σ.timers s) n = some w ∧ cancelInit s x σ = .ok σ' ∧
      Ends s n w (.givenUp x) σ σ' ∧ Fits c s w (.givenUp x)) ∨
    (∃ n, x = s ∧ Apart c s ∧ σ.held x = some n ∧ AMap.find (σ.timers s) n = some .timer ∧
      cancelInit s x σ = .error .assertion) := by
  cases hh : σ.held x with
  | none => left; exact ⟨by simp [cancelInit, hh], by simp⟩
  | some n =>
    cases hw : AMap.find (σ.timers s) n with
    | none => left; exact ⟨by simp [cancelInit, hh, hw], by rintro m hm; cases hm; exact hw⟩
    | some w =>
      right
      have hc : cancelInit s x σ = discardRequest s n (.givenUp x) σ := by simp [cancelInit, hh, hw]
      have key : w = .init x ∨ (x = s ∧ Apart c s) := by
        rcases mgr_of_child hx with hm | ⟨hxs, p, hp, hm⟩
        · exact Or.inl (held_find i hh hw (by rw [← hm])).2
        · by_cases hl : c.loc p = c.loc s
          · exact Or.inl (held_find i hh hw (by rw [hm, hl])).2
          · exact Or.inr ⟨hxs, p, hp, hl⟩
      by_cases ht : w = .timer
      · right
        rcases key with key | key
        · rw [key] at ht; cases ht
        · exact ⟨n, key.1, key.2, rfl, by rw [hw, ht], by rw [hc]; exact discard_timer i (by rw [hw, ht])⟩
      · left
        obtain ⟨σ', h1, h2⟩ := discard_ends (h := .givenUp x) i hw ht
        exact ⟨n, w, σ', rfl, hw, by rw [hc]; exact h1, h2, ht, hs, key⟩

theorem step_inv {c : Cfg} {σ op σ'} (i : Inv c σ) (h : step c σ op = .ok σ') : Inv c σ' := by
  cases op with
  | create x =>
    simp only [step] at h
    split at h
    · rename_i hc
      cases h
      have j := ask_inv i (c.mgr x) (.init x) hc.2 (by simp) (by simp) (by simp)
      exact { j with
        net := by
          intro y n hn
          rcases List.mem_cons.mp hn with hn | hn
          · cases hn; exact List.mem_cons_self
          · exact List.mem_cons_of_mem _ (i.net y n hn) }
    · cases h
  | arrive x n =>
    simp only [step] at h
    split at h
    · rename_i hc
      cases h
      exact { i with
        net := fun y m hm => i.net y m (List.mem_of_mem_erase hm)
        held := by
          intro y m hm; simp only [upd] at hm
          split at hm
          · cases hm; rename_i hy; rw [hy]; exact i.net x n hc
          · exact i.held y m hm }
    · cases h
  | reply x =>
    cases h
    exact { i with
      held := by
        intro y m hm; simp only [upd] at hm
        split at hm
        · cases hm
        · exact i.held y m hm }
  | request a =>
    simp only [step] at h
    split at h
    · cases h; rename_i hs; exact ask_inv i _ _ hs (by simp) (by simp) (by simp)
    · cases h
  | start s =>
    simp only [step] at h
    split at h
    · cases h; exact start_inv i s
    · cases h
  | cancel s n =>
    simp only [step] at h
    split at h
    · rename_i hw
      simp only [cancelTimer, hw, Option.isSome_some, if_true] at h
      cases h
      exact Ends.inv (h := .cancelled) i hw rfl (trigger_ends i hw)
    · cases h
  | number s =>
    cases h
    exact { i with
      le := by
        intro s' n w h; have := i.le s' n w h; simp only [upd]; split
        · rename_i hl; rw [hl] at this; simp only [draw]; omega
        · exact this }
  | response s n =>
    simp only [step, onResponse] at h
    split at h
    · rename_i hr
      obtain ⟨w, hr⟩ := Option.isSome_iff_exists.mp hr
      obtain ⟨hw, ht⟩ := (i.req s n w).mp hr
      obtain ⟨τ, h1, h2⟩ := discard_ends (h := .answered) i hw ht
      rw [h1] at h; cases h
      exact Ends.inv (h := .answered) i hw ht h2
    · cases h
      exact { i with
        le := fun s n w h => i.le s n w (by simpa using h)
        uniq := fun s n w s' w' h h' => i.uniq s n w s' w' (by simpa using h) (by simpa using h')
        tim := fun s n w h => by simpa using i.tim s n w h
        net := fun x n h => by simpa using i.net x n h
        held := fun x n h => by simpa using i.held x n h
        mgr := fun s n x h => i.mgr s n x (by simpa using h)
        home := fun s n x h => i.home s n x (by simpa using h)
        act := fun b n h => by simpa using i.act b n h
        books := fun s n w h => by rw [ends_dropped]; exact i.books s n w (by simpa using h)
        none := fun s n h => by rw [ends_dropped]; exact i.none s n (fun w hh => h w (by simpa using hh))
        why := fun s n w h hh => by simpa using i.why s n w h (by simpa using hh) }
  | expire s n =>
    cases h
    cases hw : AMap.find (σ.timers s) n with
    | none => rw [trigger_none hw]; exact i
    | some w => exact Ends.inv (h := .expired) i hw trivial (trigger_ends i hw)
  | giveUp s x =>
    simp only [step] at h
    split at h
    · rename_i hx
      rcases cancel_cases i hx.1 hx.2 with ⟨h1, _⟩ | ⟨n, w, τ, h1, h2, h3, h4, h5⟩ | ⟨n, _, _, _, _, h1⟩
      · rw [h1] at h; cases h; exact i
      · rw [h3] at h; cases h; exact h4.inv i h2 h5
      · rw [h1] at h; cases h
    · cases h
  | stop a =>
    simp only [step] at h
    split at h
    · cases h; exact stop_inv i a
    · cases h

theorem run_inv {c : Cfg} {ops σ σ'} (i : Inv c σ) (h : run c σ ops = .ok σ') : Inv c σ' := by
  induction ops generalizing σ with
  | nil => cases h; exact i
  | cons op r ih =>
    simp only [run] at h
    split at h
    · cases h
    · rename_i h1; exact ih (step_inv i h1) h

end Verif.InitCancel
