import Verif.InitCancel.Steps
/-!
# C80: taking back a request for initialization takes back this request and no other
-/

namespace Verif.InitCancel
open Verif

/-- **C80.** In every execution: a request that was taken back when the initialization of `x` was given up is the request that `x`
initializes itself, unless a supervisor gave up itself whose parent is in another locality (see
`C80_apart_counterexample`). -/
theorem C80_only_this {c : Cfg} {ops σ} (h : run c State.init ops = .ok σ) {s n w x}
    (he : Ev.ended s n w (.givenUp x) ∈ σ.log) : (w = .init x ∧ s = c.mgr x) ∨ (x = s ∧ Apart c s) := by
  have i := run_inv (Inv.init c) h
  obtain ⟨h1, h2⟩ := i.why _ _ _ _ he
  rcases h2.2.2 with h3 | h3
  · left; subst h3; exact ⟨rfl, (i.mgr _ _ _ h1).1⟩
  · exact Or.inr h3

/-- **C80.** If every supervisor shares the locality of its parent, nothing but requests for initialization is ever taken back in this
way. -/
theorem C80_together {c : Cfg} (hc : ∀ s p, c.parent s = some p → c.isSup s = true → c.loc p = c.loc s) {ops σ}
    (h : run c State.init ops = .ok σ) {s n w x} (he : Ev.ended s n w (.givenUp x) ∈ σ.log) : w = .init x := by
  have i := run_inv (Inv.init c) h
  obtain ⟨h1, h2⟩ := i.why _ _ _ _ he
  rcases h2.2.2 with h3 | ⟨rfl, p, hp, hl⟩
  · exact h3
  · exact absurd (hc x p hp h2.2.1) hl

/-- **C80.** Giving up the initialization of a child, or of a root supervisor, or of a supervisor in the locality of its parent, leaves all
other requests and timers of all supervisors as they are, and the messages under way and held too. -/
theorem C80_others_stay {c : Cfg} {ops σ σ' s x} (h : run c State.init ops = .ok σ) (hg : step c σ (.giveUp s x) = .ok σ')
    (hn : ¬ (x = s ∧ Apart c s)) :
    (∀ s' n w, w ≠ .init x → (Waits s' n w σ' ↔ Waits s' n w σ)) ∧
    (∀ s' n w, w ≠ .init x → (AMap.find (σ'.reqs s') n = some w ↔ AMap.find (σ.reqs s') n = some w)) ∧
    σ'.net = σ.net ∧ σ'.held = σ.held ∧ σ'.last = σ.last := by
  have i := run_inv (Inv.init c) h
  simp only [step] at hg
  split at hg
  · rename_i hx
    rcases cancel_cases i hx.1 hx.2 with ⟨h1, _⟩ | ⟨n, w, τ, h1, h2, h3, h4, h5⟩ | ⟨n, hh1, hh2, _⟩
    · rw [h1] at hg; cases hg; simp
    · rw [h3] at hg; cases hg
      have hw : w = .init x := h5.2.2.resolve_right hn
      have hr := (i.req s n w).mpr ⟨h2, h5.1⟩
      refine ⟨?_, ?_, h4.net, h4.held, h4.last⟩
      · intro s' n' w' hne; simp only [Waits, h4.timers]; split
        · rename_i he; rw [he.1, he.2, h2, hw]; simp; exact fun h => hne h.symm
        · rfl
      · intro s' n' w' hne; simp only [h4.reqs]; split
        · rename_i he; rw [he.1, he.2, hr, hw]; simp; exact fun h => hne h.symm
        · rfl
    · exact absurd ⟨hh1, hh2⟩ hn
  · cases hg

/-- **C80.** What is given up is given up: a child that holds its request is not waited for any more, and the response that it sends
later is dropped. -/
theorem C80_taken_back {c : Cfg} {ops σ σ' s x n} (h : run c State.init ops = .ok σ) (hg : step c σ (.giveUp s x) = .ok σ')
    (hx : σ.held x = some n) :
    (∀ w, ¬ Waits s n w σ') ∧ (∀ w, AMap.find (σ'.reqs s) n ≠ some w) ∧
    step c σ' (.response s n) = .ok { σ' with log := .dropped s n :: σ'.log } := by
  have i := run_inv (Inv.init c) h
  have i' := step_inv i hg
  have key : AMap.find (σ'.timers s) n = none := by
    simp only [step] at hg
    split at hg
    · rename_i hx'
      rcases cancel_cases i hx'.1 hx'.2 with ⟨h1, h2⟩ | ⟨m, w, τ, h1, h2, h3, h4, h5⟩ | ⟨m, _, _, _, _, h1⟩
      · rw [h1] at hg; cases hg; exact h2 n hx
      · rw [h3] at hg; cases hg
        rw [hx] at h1; cases h1
        simp [h4.timers]
      · rw [h1] at hg; cases hg
    · cases hg
  have kr : AMap.find (σ'.reqs s) n = none := by
    cases hh : AMap.find (σ'.reqs s) n with
    | none => rfl
    | some v => have := ((i'.req s n v).mp hh).1; rw [key] at this; cases this
  exact ⟨by simp [Waits, key], by simp [kr], by simp [step, onResponse, kr]⟩

/-- **C80.** A supervisor in the locality of its parent that gives up itself changes nothing; its parent takes the request
back. -/
theorem C80_self_noop {c : Cfg} {ops σ s p} (h : run c State.init ops = .ok σ) (hs : c.isSup s = true) (hp : c.parent s = some p)
    (hps : p ≠ s) (hl : c.loc p = c.loc s) : step c σ (.giveUp s s) = .ok σ := by
  have i := run_inv (Inv.init c) h
  have hm : c.mgr s = p := by simp [Cfg.mgr, hp]
  have : cancelInit s s σ = .ok σ := by
    rcases cancel_cases (c := c) (s := s) (x := s) i (Or.inl rfl) hs with ⟨h1, _⟩ | ⟨n, w, τ, h1, h2, h3, h4, h5⟩ | ⟨n, _, ⟨q, hq, hq'⟩, _⟩
    · exact h1
    · have := (held_find i h1 h2 (by rw [hm, hl])).1
      rw [hm] at this; exact absurd this.symm hps
    · rw [hp] at hq; cases hq; exact absurd hl hq'
  simp [step, hs, this]

/-- **C80.** Also a supervisor whose parent is in another locality changes nothing when it gives up itself, as long as its locality has
drawn fewer numbers than the number of the request of its parent. -/
theorem C80_apart_early {c : Cfg} {ops σ s n} (h : run c State.init ops = .ok σ) (hs : c.isSup s = true) (hh : σ.held s = some n)
    (hl : σ.last (c.loc s) < n) : step c σ (.giveUp s s) = .ok σ := by
  have i := run_inv (Inv.init c) h
  have : AMap.find (σ.timers s) n = none := by
    cases hf : AMap.find (σ.timers s) n with
    | none => rfl
    | some w => have := i.le _ _ _ (i.tim _ _ _ hf); omega
  simp [step, hs, cancelInit, hh, this]

/-- **C80.** No assertion fails, unless a supervisor gives up itself whose parent is in another locality and which has a timer of
the number of the request of its parent (see `C80_assertion_counterexample`). -/
theorem C80_no_fault {c : Cfg} {ops σ op} (h : run c State.init ops = .ok σ) (hf : step c σ op = .error .assertion) :
    ∃ s n, op = .giveUp s s ∧ Apart c s ∧ σ.held s = some n ∧ Waits s n .timer σ := by
  have i := run_inv (Inv.init c) h
  cases op with
  | create x => simp only [step] at hf; split at hf <;> cases hf
  | arrive x n => simp only [step] at hf; split at hf <;> cases hf
  | reply x => cases hf
  | request a => simp only [step] at hf; split at hf <;> cases hf
  | start s => simp only [step] at hf; split at hf <;> cases hf
  | cancel s n =>
    simp only [step] at hf
    split at hf
    · rename_i hw; simp [cancelTimer, hw] at hf
    · cases hf
  | number s => cases hf
  | response s n =>
    simp only [step, onResponse] at hf
    split at hf
    · rename_i hr
      obtain ⟨w, hr⟩ := Option.isSome_iff_exists.mp hr
      obtain ⟨hw, ht⟩ := (i.req s n w).mp hr
      obtain ⟨τ, h1, h2⟩ := discard_ends (h := .answered) i hw ht
      rw [h1] at hf; cases hf
    · cases hf
  | expire s n => cases hf
  | giveUp s x =>
    simp only [step] at hf
    split at hf
    · rename_i hx
      rcases cancel_cases i hx.1 hx.2 with ⟨h1, _⟩ | ⟨n, w, τ, h1, h2, h3, h4, h5⟩ | ⟨n, rfl, h2, h3, h4, h1⟩
      · rw [h1] at hf; cases hf
      · rw [h3] at hf; cases hf
      · exact ⟨_, n, rfl, h2, h3, h4⟩
    · cases hf
  | stop a => simp only [step] at hf; split at hf <;> cases hf

/-- **C80.** Every request and every timer that was made is waited for and has not ended, or has ended once. -/
theorem C80_accounted {c : Cfg} {ops σ} (h : run c State.init ops = .ok σ) {s n w} (hm : Ev.made s n w ∈ σ.log) :
    (Waits s n w σ ∧ ends s n σ.log = 0) ∨ ((∀ w', ¬ Waits s n w' σ) ∧ ends s n σ.log = 1 ∧ ∃ h, Ev.ended s n w h ∈ σ.log) := by
  have i := run_inv (Inv.init c) h
  have hb := i.books _ _ _ hm
  cases hh : AMap.find (σ.timers s) n with
  | some v =>
    have := (i.uniq _ _ _ _ _ (i.tim _ _ _ hh) hm rfl).2
    left; rw [hh] at hb; exact ⟨by rw [Waits, hh, this], by simpa using hb⟩
  | none =>
    right
    rw [hh] at hb
    have hb : ends s n σ.log = 1 := by simpa using hb
    refine ⟨by simp [Waits, hh], hb, ?_⟩
    have hp : 0 < ends s n σ.log := by omega
    obtain ⟨e, he, he'⟩ := List.countP_pos_iff.mp hp
    cases e with
    | ended s' n' w' h' =>
      simp at he'; obtain ⟨rfl, rfl⟩ := he'
      have := (i.uniq _ _ _ _ _ (i.why _ _ _ _ he).1 hm rfl).2
      exact ⟨h', this ▸ he⟩
    | made => simp at he'
    | dropped => simp at he'

/-- **C80.** A request of an actor that is not waited for any more was answered (the error of the timeout is an answer), or the actor or
its supervisor has ended, unless a supervisor gave up itself whose parent is in another locality. -/
theorem C80_request_answered {c : Cfg} {ops σ} (h : run c State.init ops = .ok σ) {s n a}
    (hm : Ev.made s n (.user a) ∈ σ.log) (hw : ¬ Waits s n (.user a) σ) :
    s = c.home a ∧
    (Ev.ended s n (.user a) .answered ∈ σ.log ∨ Ev.ended s n (.user a) .expired ∈ σ.log ∨
     Ev.ended s n (.user a) (.stopped a) ∈ σ.log ∨ Ev.ended s n (.user a) (.stopped s) ∈ σ.log ∨
     (Apart c s ∧ Ev.ended s n (.user a) (.givenUp s) ∈ σ.log)) := by
  have i := run_inv (Inv.init c) h
  refine ⟨i.home _ _ _ hm, ?_⟩
  rcases C80_accounted h hm with h1 | ⟨_, _, hw, he⟩
  · exact absurd h1.1 hw
  · have hf := (i.why _ _ _ _ he).2
    cases hw with
    | answered => exact Or.inl he
    | expired => exact Or.inr (Or.inl he)
    | givenUp x =>
      rcases hf.2.2 with h3 | ⟨rfl, h3⟩
      · cases h3
      · exact Or.inr (Or.inr (Or.inr (Or.inr ⟨h3, he⟩)))
    | stopped b =>
      rcases hf with h3 | h3
      · simp only [source] at h3; subst h3; exact Or.inr (Or.inr (Or.inl he))
      · subst h3; exact Or.inr (Or.inr (Or.inr (Or.inl he)))
    | cancelled => cases hf

/-- **C80.** When an actor has ended, none of its requests is waited for; when a supervisor has ended, nothing is. -/
theorem C80_ended {c : Cfg} {ops σ σ' a} (h : run c State.init ops = .ok σ) (hs : step c σ (.stop a) = .ok σ') :
    (∀ s n, ¬ Waits s n (.user a) σ') ∧ (c.isSup a = true → ∀ n w, ¬ Waits a n w σ') := by
  have i := run_inv (Inv.init c) h
  have i' := step_inv i hs
  simp only [step] at hs
  split at hs
  · cases hs
    obtain ⟨h1, h2⟩ := stop_none i a
    refine ⟨fun s n hw => h1 s n (.user a) ((i'.req _ _ _).mpr ⟨hw, by simp⟩) rfl, fun ha n w hw => ?_⟩
    simp only [Waits, h2 ha n] at hw; cases hw
  · cases hs

end Verif.InitCancel
