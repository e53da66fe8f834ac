import Verif.Starter.Cases

/-! # C57: an actor that was asked to initialize completes -/

namespace Verif.Starter
open Verif

variable {own : Cfg} {σ σ' : State}

theorem subscribe_keeps {p : Nat} (h : subscribe own p σ = .ok σ') :
    σ'.st = σ.st ∧ σ'.inits = σ.inits ∧ σ'.configured = σ.configured ∧ σ'.asked = σ.asked := by
  unfold subscribe at h
  split at h
  · cases h
  · split at h <;> cases h <;> exact ⟨rfl, rfl, rfl, rfl⟩

theorem subscribeAll_keeps (l : List Nat) : ∀ {σ σ' : State}, subscribeAll own l σ = .ok σ' →
    σ'.st = σ.st ∧ σ'.inits = σ.inits ∧ σ'.configured = σ.configured ∧ σ'.asked = σ.asked := by
  induction l with
  | nil => intro σ σ' h; simp only [subscribeAll] at h; cases h; exact ⟨rfl, rfl, rfl, rfl⟩
  | cons p l ih =>
    intro σ σ' h
    simp only [subscribeAll] at h
    cases h1 : subscribe own p σ with
    | error e => rw [h1] at h; cases h
    | ok σ1 =>
      rw [h1] at h
      obtain ⟨a, b, c, d⟩ := subscribe_keeps h1
      obtain ⟨a', b', c', d'⟩ := ih h
      exact ⟨a'.trans a, b'.trans b, c'.trans c, d'.trans d⟩

theorem handleInit_configured {v : Vote} {b : Bool} (h : handleInit own v σ = .ok (σ', b)) : σ'.configured = true := by
  unfold handleInit at h
  split at h
  · rename_i hc; cases h; exact hc
  · cases h1 : subscribeAll own v.cfg { σ with configured := true } with
    | error e => rw [h1] at h; cases h
    | ok σ1 =>
      rw [h1] at h
      have hk := (subscribeAll_keeps _ h1).2.2.1
      cases h
      split <;> exact hk

/-- a pass in which the plugins in front agree calls `configure` -/
theorem initContinue_configured {v : Vote} (hb : v.before = true) (hv : v.behind = []) (hi : σ.inits = true)
    (h : initContinue own v σ = .ok σ') : σ'.configured = true := by
  unfold initContinue at h
  split at h
  · cases h
  cases h1 : subscribeAll own v.front σ with
  | error e => rw [h1] at h; cases h
  | ok σ1 =>
    rw [h1] at h
    simp only [hb, if_true] at h
    unfold fromStarter at h
    have hk := subscribeAll_keeps _ h1
    rw [if_pos (hk.2.1.trans hi)] at h
    cases h2 : handleInit own v σ1 with
    | error e => rw [h2] at h; cases h
    | ok r =>
      obtain ⟨σ2, b⟩ := r
      rw [h2] at h
      have hc := handleInit_configured h2
      cases b with
      | false => cases h; exact hc
      | true =>
        simp only [hv, subscribeAll] at h
        cases h
        split <;> exact hc

theorem agreed_configured (h : Reach own Agreed σ) (hs : σ.st = .initializing) (ha : σ.asked = true) : σ.configured = true := by
  induction h with
  | init => cases ha
  | step h0 h1 h2 ih =>
    rename_i σ σ' op
    obtain ⟨⟨hl, _⟩, hb⟩ := h1
    have hi := (quiet_waits (h0.mono fun _ _ h => h.1)).1
    cases op with
    | init v =>
      simp only [Starter.step] at h2
      split at h2
      · cases h2
      split at h2
      · rename_i hs0
        exact initContinue_configured (σ := { σ with req := true, asked := true }) (hb v rfl) (hl v rfl).1 (hi.inits hs0) h2
      · rename_i hs0
        cases h2
        exact absurd hs hs0
    | poll v =>
      simp only [Starter.step] at h2
      split at h2
      · rename_i hs0
        exact initContinue_configured (hb v rfl) (hl v rfl).1 (hi.inits hs0.1) h2
      · cases h2
    | confirm p v =>
      simp only [Starter.step] at h2
      split at h2
      · unfold onConfirm at h2
        split at h2
        · simp only at h2
          split at h2
          · rename_i hcc
            split at h2
            · cases h2
            · rename_i σ2 h3
              have hx : σ2.configured = true := by
                refine initContinue_configured (hb v rfl) (hl v rfl).1 ?_ h3
                exact hi.inits hcc.2.2
              cases h2
              exact hx
          · cases h2; exact ih hs ha
        · cases h2; exact ih hs ha
      · cases h2
    | attach q => simp only [Starter.step] at h2; split at h2 <;> cases h2; exact ih hs ha
    | subscribe q =>
      simp only [Starter.step] at h2
      obtain ⟨a, _, c, d⟩ := subscribe_keeps h2
      rw [c]
      exact ih (a ▸ hs) (d ▸ ha)
    | drop q => simp only [Starter.step] at h2; split at h2 <;> cases h2; exact ih hs ha
    | fail => simp only [Starter.step] at h2; split at h2 <;> cases h2; exact ih hs ha
    | shut => simp only [Starter.step] at h2; split at h2 <;> cases h2; cases hs
    | deactivate =>
      simp only [Starter.step] at h2
      split at h2
      · rename_i h3; cases h2; rw [h3] at hs; cases hs
      · cases h2
    | start =>
      simp only [Starter.step] at h2
      split at h2
      · rename_i h3
        cases h2
        simp only at hs
        rw [h3] at hs
        cases hb : σ.starts <;> simp [hb] at hs
      · cases h2; exact ih hs ha

/-- **C57: an actor that was asked to initialize waits for confirmations and nothing else** (partial: the
other plugins agree, and no handler is subscribed between the last confirmation and the end of the
initialization): it is still INITIALIZING only while a subscription or its confirmation is under way.
This says in terms of the request what `C57_complete_partial` says in terms of `configured`. -/
theorem C57_asked_partial (h : Reach own Agreed σ) (hs : σ.st = .initializing) (ha : σ.asked = true) :
    σ.conf ≠ [] ∨ σ.ext ≠ [] := C57_complete_partial h hs (agreed_configured h hs ha)

/-- an actor that subscribes one handler, before and after the confirmation -/
example : ∃ σ, Reach low Agreed σ ∧ σ.st = .initializing ∧ σ.asked = true ∧ σ.conf = [1] ∧
    ∃ σ', step low σ (.confirm 1 (yes [])) = .ok σ' ∧ σ'.st = .initialized := by
  refine ⟨_, Reach.init.step (op := .init (yes [1])) ⟨⟨?_, .inl rfl⟩, ?_⟩ rfl, by decide, by decide, by decide, _, rfl, by decide⟩
  · intro v hv; simp [Op.vote] at hv; subst hv; exact ⟨rfl, rfl⟩
  · intro v hv; simp [Op.vote] at hv; subst hv; rfl

end Verif.Starter
