import Verif.Starter.Props
/-!
# C57: when the initialization completes, and when nothing fails
-/

namespace Verif.Starter
open Verif

variable {own : Cfg} {σ σ' : State}

/-- no handler is subscribed between the last confirmation (when the reaction SUBSCRIPTION is switched off, `actor_base.cpp:218`) and the end of the
initialization -/
def Quiet (σ : State) (op : Op) : Prop :=
  Last op ∧
  match op with
  | .subscribe _ => σ.subs = true ∨ σ.st ≠ .initializing
  | .init v | .poll v => v.front = [] ∨ σ.subs = true
  | .confirm _ v => v.front = []
  | _ => True

/-- .. and the other plugins always agree -/
def Agreed (σ : State) (op : Op) : Prop := Quiet σ op ∧ ∀ v, op.vote = some v → v.before = true

/-- while it initializes, the plugin waits for what is under way and nothing else -/
structure Waits (σ : State) : Prop where
  eq : σ.subs = true → ∀ p, σ.tracked.count p = σ.conf.count p + σ.ext.count p
  none : σ.subs = false → σ.tracked = []
  busy : σ.subs = true → σ.configured = true → σ.tracked ≠ []
  conf : σ.configured = false → σ.subs = true

theorem subscribe_eq {p : Nat} (hw : ∀ p, σ.tracked.count p = σ.conf.count p + σ.ext.count p) (h : subscribe own p σ = .ok σ') :
    (∀ p, σ'.tracked.count p = σ'.conf.count p + σ'.ext.count p) ∧ σ'.tracked ≠ [] := by
  unfold subscribe at h
  split at h
  · cases h
  · split at h
    · cases h
      refine ⟨?_, by simp⟩
      intro q; have := hw q; simp only [List.count_append]; omega
    · cases h
      refine ⟨?_, by simp⟩
      intro q; have := hw q; simp only [List.count_append]; omega

theorem subscribeAll_eq (l : List Nat) : ∀ {σ σ' : State}, (∀ p, σ.tracked.count p = σ.conf.count p + σ.ext.count p) → subscribeAll own l σ = .ok σ' →
    (∀ p, σ'.tracked.count p = σ'.conf.count p + σ'.ext.count p) ∧ (σ.tracked ≠ [] → σ'.tracked ≠ []) := by
  induction l with
  | nil => intro σ σ' hw h; simp only [subscribeAll] at h; cases h; exact ⟨hw, id⟩
  | cons p l ih =>
    intro σ σ' hw h
    simp only [subscribeAll] at h
    cases h1 : subscribe own p σ with
    | error e => rw [h1] at h; cases h
    | ok σ1 =>
      rw [h1] at h
      obtain ⟨a, b⟩ := subscribe_eq hw h1
      obtain ⟨c, d⟩ := ih a h
      exact ⟨c, fun _ => d b⟩

/-- if a pass does not complete the initialization -/
theorem initContinue_waits {v : Vote} (hl : v.behind = [] ∧ v.after = true) (hi : Inv σ) (hw : Waits σ) (hq : v.front = [] ∨ σ.subs = true)
    (h : initContinue own v σ = .ok σ') (hs' : σ'.st = .initializing) :
    Waits σ' ∧ (v.before = true → σ'.configured = true ∧ σ'.subs = true) ∧ (v.before = false → σ'.configured = σ.configured ∧ σ'.subs = σ.subs) := by
  unfold initContinue at h
  split at h
  · cases h
  rename_i hst
  have hs : σ.st = .initializing := by grind
  cases h1 : subscribeAll own v.front σ with
  | error e => rw [h1] at h; cases h
  | ok σ1 =>
    rw [h1] at h
    obtain ⟨g1, s1⟩ := subscribeAll_good _ hi.good h1
    have hs1 : σ1.st = .initializing := by rw [s1.st, hs]
    have hw1 : Waits σ1 := by
      rcases hq with hq | hq
      · rw [hq] at h1; simp only [subscribeAll] at h1; cases h1; exact hw
      · obtain ⟨a, b⟩ := subscribeAll_eq v.front (hw.eq hq) h1
        refine ⟨fun _ => a, ?_, ?_, ?_⟩
        · rw [s1.subs, hq]; intro h; cases h
        · rw [s1.configured]; intro _ hc; exact b (hw.busy hq hc)
        · rw [s1.subs, hq]; intro _; rfl
    simp only at h
    cases hb : v.before with
    | false =>
      rw [hb, if_neg (by simp)] at h
      cases h
      exact ⟨hw1, (fun h => by cases h), fun _ => ⟨s1.configured, s1.subs⟩⟩
    | true =>
      rw [hb] at h
      simp only [if_true] at h
      have hin : σ1.inits = true := by rw [s1.inits]; exact hi.inits hs
      unfold fromStarter at h
      rw [if_pos hin] at h
      unfold handleInit at h
      cases hc : σ1.configured with
      | true =>
        rw [if_pos hc] at h
        cases ht : σ1.tracked.isEmpty with
        | true =>
          simp only [ht, hl.1, hl.2, subscribeAll, if_true] at h
          cases h
          cases hs'
        | false =>
          simp only [ht] at h
          cases h
          refine ⟨hw1, fun _ => ⟨hc, ?_⟩, (fun h => by cases h)⟩
          cases hsb : σ'.subs with
          | true => rfl
          | false => rw [hw1.none hsb] at ht; cases ht
      | false =>
        rw [if_neg (by simp [hc])] at h
        cases h2 : subscribeAll own v.cfg { σ1 with configured := true } with
        | error e => rw [h2] at h; cases h
        | ok σ2 =>
          rw [h2] at h
          obtain ⟨g2, s2⟩ := subscribeAll_good _ (g1.flags true σ1.inits σ1.subs σ1.req) h2
          have hsb : σ1.subs = true := hw1.conf hc
          obtain ⟨a, b⟩ := subscribeAll_eq v.cfg (σ := { σ1 with configured := true }) (hw1.eq hsb) h2
          cases ht : σ2.tracked.isEmpty with
          | true =>
            simp only [ht, hl.1, hl.2, subscribeAll, if_true] at h
            cases h
            cases hs'
          | false =>
            simp [ht] at h
            cases h
            have hsb2 : σ'.subs = true := by rw [s2.subs]; exact hsb
            have hc2 : σ'.configured = true := by rw [s2.configured]
            refine ⟨⟨fun _ => a, ?_, ?_, ?_⟩, fun _ => ⟨hc2, hsb2⟩, (fun h => by cases h)⟩
            · rw [hsb2]; intro h; cases h
            · intro _ _; simpa using ht
            · intro _; exact hsb2

theorem initContinue_state {v : Vote} (h : initContinue own v σ = .ok σ') : σ.st = .initializing := by
  unfold initContinue at h
  split at h
  · cases h
  · grind

theorem Waits.step {op : Op} (hi : Inv σ) (hw : σ.st = .initializing → Waits σ) (hq : Quiet σ op) (h : step own σ op = .ok σ')
    (hs' : σ'.st = .initializing) : Waits σ' := by
  obtain ⟨hl, hq⟩ := hq
  cases op with
  | init v =>
    simp only [Starter.step] at h
    split at h
    · cases h
    split at h
    · rename_i hs
      have hw := hw hs
      exact (initContinue_waits (σ := { σ with req := true, asked := true }) (hl v rfl) (hi.asks σ.configured σ.subs true true) ⟨hw.1, hw.2, hw.3, hw.4⟩ hq h hs').1
    · rename_i hs
      cases h
      exact absurd hs' hs
  | attach p =>
    simp only [Starter.step] at h
    split at h
    · rename_i hp
      cases h
      obtain ⟨h1, h2, h3, h4⟩ := hw hs'
      refine ⟨?_, h2, h3, h4⟩
      intro h q
      have := h1 h q
      have hc : (σ.ext.erase p).count q + (if p = q then 1 else 0) = σ.ext.count q := by
        rw [List.count_erase]
        by_cases h : p = q
        · subst h; have := List.count_pos_iff.2 hp; simp; omega
        · simp [h]
      show σ.tracked.count q = (σ.conf ++ [p]).count q + (σ.ext.erase p).count q
      by_cases h : p = q
      · subst h; simp at *; omega
      · simp [h] at *; omega
    · cases h
  | confirm p v =>
    simp only [Starter.step] at h
    split at h
    · rename_i hp
      obtain ⟨g1, g2⟩ := good_confirm hi.good hp
      unfold onConfirm at h
      split at h
      · rename_i hsb
        have i1 : Inv { σ with conf := σ.conf.erase p, log := .confirmed p :: σ.log, tracked := σ.tracked.erase p } :=
          hi.of g1 rfl rfl rfl ⟨[.confirmed p], by simp⟩
        simp only at h
        split at h
        · rename_i hc
          split at h
          · cases h
          · rename_i σ2 h2
            cases h
            -- the last one: the pass either completes or subscribes nothing
            have hs2 : σ2.st = .initializing := hs'
            have hq : v.front = [] := hq
            unfold initContinue at h2
            split at h2
            · cases h2
            rw [hq] at h2
            simp only [subscribeAll] at h2
            split at h2
            · unfold fromStarter at h2
              rw [if_pos (hi.inits hc.2.2)] at h2
              unfold handleInit at h2
              rw [if_pos hc.1] at h2
              have ht : σ.tracked.erase p = [] := hc.2.1
              simp [ht, (hl v rfl).1, (hl v rfl).2, subscribeAll] at h2
              rw [← h2] at hs2; cases hs2
            · cases h2
              refine ⟨(fun h => by cases h), fun _ => hc.2.1, (fun h => by cases h), ?_⟩
              intro h; rw [show σ.configured = false from h] at hc; exact absurd hc.1 (by simp)
        · rename_i hc
          cases h
          have hsb : σ.subs = true := hsb
          obtain ⟨h1, h2, h3, h4⟩ := hw hs'
          refine ⟨?_, ?_, ?_, h4⟩
          · intro _ q
            have e1 := h1 hsb q
            have e2 := h1 hsb p
            have := List.count_pos_iff.2 hp
            show (σ.tracked.erase p).count q = (σ.conf.erase p).count q + σ.ext.count q
            rw [List.count_erase, List.count_erase]
            by_cases h : p = q
            · subst h; simp; omega
            · simp [h]; omega
          · intro h; rw [show σ.subs = false from h] at hsb; cases hsb
          · intro _ hcc ht; exact hc ⟨hcc, ht, hs'⟩
      · rename_i hsb
        cases h
        obtain ⟨h1, h2, h3, h4⟩ := hw hs'
        have hsb : σ.subs = false := by simpa using hsb
        refine ⟨?_, h2, h3, h4⟩
        intro h; rw [show σ.subs = true from h] at hsb; cases hsb
    · cases h
  | poll v =>
    simp only [Starter.step] at h
    split at h
    · rename_i hs
      exact (initContinue_waits (hl v rfl) hi (hw hs.1) hq h hs').1
    · cases h
  | subscribe p =>
    simp only [Starter.step] at h
    obtain ⟨g1, s1⟩ := subscribe_good hi.good h
    have hs : σ.st = .initializing := by rw [← s1.st, hs']
    have hsb : σ.subs = true := by
      rcases hq with hq | hq
      · exact hq
      · exact absurd hs hq
    obtain ⟨a, b⟩ := subscribe_eq ((hw hs).eq hsb) h
    refine ⟨fun _ => a, ?_, fun _ _ => b, ?_⟩
    · rw [s1.subs, hsb]; intro h; cases h
    · rw [s1.subs, hsb]; intro _; rfl
  | drop p =>
    simp only [Starter.step] at h
    split at h
    · cases h
      have hw := hw hs'
      exact ⟨hw.1, hw.2, hw.3, hw.4⟩
    · cases h
  | fail =>
    simp only [Starter.step] at h
    split at h
    · cases h
      have hw := hw hs'
      exact ⟨hw.1, hw.2, hw.3, hw.4⟩
    · cases h
  | shut =>
    simp only [Starter.step] at h
    split at h
    · cases h; cases hs'
    · cases h
  | deactivate =>
    simp only [Starter.step] at h
    split at h
    · rename_i hs; cases h; rw [show σ.st = _ from hs'] at hs; cases hs
    · cases h
  | start =>
    simp only [Starter.step] at h
    split at h
    · rename_i hs
      cases h
      simp only at hs'
      rw [hs] at hs'
      cases hb : σ.starts <;> simp [hb] at hs'
    · cases h; exact hw hs'

theorem Reach.mono {G G' : State → Op → Prop} (hg : ∀ σ op, G σ op → G' σ op) (h : Reach own G σ) : Reach own G' σ := by
  induction h with
  | init => exact .init
  | step _ h1 h2 ih => exact .step ih (hg _ _ h1) h2

theorem quiet_waits (h : Reach own Quiet σ) : Inv σ ∧ (σ.st = .initializing → Waits σ) := by
  induction h with
  | init =>
    refine ⟨inv_init, fun _ => ⟨?_, ?_, ?_, ?_⟩⟩ <;> simp [State.init]
  | step _ h1 h2 ih => exact ⟨ih.1.step h1.1 h2, fun hs => Waits.step ih.1 ih.2 h1 h2 hs⟩

/-- **C57: the plugin waits for confirmations only.** When all the subscriptions of an initializing actor are confirmed and no handler was subscribed
after the last confirmation, the next pass in which the other plugins agree and `configure` subscribes nothing (more) completes the
initialization. -/
theorem C57_progress_partial (h : Reach own Quiet σ) (hs : σ.st = .initializing) (hr : σ.req = true) (h1 : σ.conf = []) (h2 : σ.ext = [])
    {v : Vote} (hv : v.front = [] ∧ v.before = true ∧ v.behind = [] ∧ v.after = true) (hc : σ.configured = true ∨ v.cfg = []) :
    ∃ σ', step own σ (.poll v) = .ok σ' ∧ σ'.st = .initialized ∧ σ'.log = .replied :: σ.log := by
  obtain ⟨hi, hw⟩ := quiet_waits h
  have hw := hw hs
  have ht : σ.tracked = [] := by
    cases hb : σ.subs with
    | false => exact hw.none hb
    | true => exact empty_of_count _ fun p => by have := hw.eq hb p; simpa [h1, h2] using this
  have hin := hi.inits hs
  rcases hc with hc | hc
  · simp [step, hs, hr, initContinue, hv, subscribeAll, fromStarter, hin, handleInit, hc, ht]
  · cases hcc : σ.configured
    · simp [step, hs, hr, initContinue, hv, subscribeAll, fromStarter, hin, handleInit, hcc, ht, hc]
    · simp [step, hs, hr, initContinue, hv, subscribeAll, fromStarter, hin, handleInit, hcc, ht]

/-- **C57: .. and if the other plugins agree, the last confirmation completes it.** An initializing actor that has been polled waits for a confirmation. -/
theorem C57_complete_partial (h : Reach own Agreed σ) (hs : σ.st = .initializing) (hc : σ.configured = true) : σ.conf ≠ [] ∨ σ.ext ≠ [] := by
  have key : ∀ {σ : State}, Reach own Agreed σ → σ.st = .initializing → σ.configured = true → σ.subs = true := by
    intro σ h
    induction h with
    | init => intro _ h; cases h
    | step h0 h1 h2 ih =>
      rename_i σ σ' op
      obtain ⟨hi, hw⟩ := quiet_waits (h0.mono fun _ _ h => h.1)
      intro hs' hc'
      obtain ⟨⟨hl, hq⟩, hb⟩ := h1
      cases op with
      | init v =>
        simp only [Starter.step] at h2
        split at h2
        · cases h2
        split at h2
        · rename_i hs
          have hw := hw hs
          exact ((initContinue_waits (σ := { σ with req := true, asked := true }) (hl v rfl) (hi.asks σ.configured σ.subs true true) ⟨hw.1, hw.2, hw.3, hw.4⟩ hq h2 hs').2.1 (hb v rfl)).2
        · rename_i hs
          cases h2
          exact absurd hs' hs
      | poll v =>
        simp only [Starter.step] at h2
        split at h2
        · rename_i hs
          exact ((initContinue_waits (hl v rfl) hi (hw hs.1) hq h2 hs').2.1 (hb v rfl)).2
        · cases h2
      | confirm p v =>
        simp only [Starter.step] at h2
        split at h2
        · rename_i hp
          obtain ⟨g1, g2⟩ := good_confirm hi.good hp
          unfold onConfirm at h2
          split at h2
          · rename_i hsb
            simp only at h2
            split at h2
            · rename_i hcc
              split at h2
              · cases h2
              · rename_i σ2 h3
                cases h2
                have hs2 : σ2.st = .initializing := hs'
                have hq : v.front = [] := hq
                unfold initContinue at h3
                split at h3
                · cases h3
                rw [hq] at h3
                simp only [subscribeAll] at h3
                rw [if_pos (hb v rfl)] at h3
                unfold fromStarter at h3
                rw [if_pos (hi.inits hcc.2.2)] at h3
                unfold handleInit at h3
                rw [if_pos hcc.1] at h3
                have ht : σ.tracked.erase p = [] := hcc.2.1
                simp [ht, (hl v rfl).1, (hl v rfl).2, subscribeAll] at h3
                rw [← h3] at hs2; cases hs2
            · cases h2; exact hsb
          · rename_i hsb
            cases h2
            exact ih hs' hc'
        · cases h2
      | attach q => simp only [Starter.step] at h2; split at h2 <;> cases h2; exact ih hs' hc'
      | subscribe q =>
        simp only [Starter.step] at h2
        obtain ⟨_, s1⟩ := subscribe_good hi.good h2
        rw [s1.subs]
        exact ih (by rw [← s1.st, hs']) (by rw [← s1.configured, hc'])
      | drop q => simp only [Starter.step] at h2; split at h2 <;> cases h2; exact ih hs' hc'
      | fail => simp only [Starter.step] at h2; split at h2 <;> cases h2; exact ih hs' hc'
      | shut => simp only [Starter.step] at h2; split at h2 <;> cases h2; cases hs'
      | deactivate => simp only [Starter.step] at h2; split at h2 <;> cases h2; exact ih hs' hc'
      | start =>
        simp only [Starter.step] at h2
        split at h2
        · rename_i hs
          cases h2
          simp only at hs'
          rw [hs] at hs'
          cases hb : σ.starts <;> simp [hb] at hs'
        · cases h2; exact ih hs' hc'
  have hw := (quiet_waits (h.mono fun _ _ h => h.1)).2 hs
  have hsb := key h hs hc
  by_cases h1 : σ.conf = []
  · by_cases h2 : σ.ext = []
    · exact absurd (empty_of_count _ fun p => by have := hw.eq hsb p; simpa [h1, h2] using this) (hw.busy hsb hc)
    · exact .inr h2
  · exact .inl h1

/-- a list of handlers that may be subscribed -/
def Ok (σ : State) (l : List Nat) : Prop := l.Nodup ∧ ∀ p ∈ l, p ∉ σ.tracked

/-- nothing is subscribed while the same subscription awaits its confirmation (or was made too late, see `C57_again_counterexample`), and the init request
is not answered with an error while confirmations are awaited -/
def Careful (σ : State) (op : Op) : Prop :=
  Last op ∧
  match op with
  | .subscribe p => p ∉ σ.tracked
  | .init v | .poll v | .confirm _ v => Ok σ (v.front ++ v.cfg)
  | .fail => σ.st = .initializing → σ.configured = true → σ.subs = false
  | _ => True

theorem subscribe_ok {p : Nat} (h : p ∉ σ.tracked) : ∃ σ', subscribe own p σ = .ok σ' ∧ σ'.tracked = σ.tracked ++ [p] := by
  unfold subscribe
  rw [if_neg h]
  split <;> exact ⟨_, rfl, rfl⟩

theorem subscribeAll_ok (l : List Nat) : ∀ {σ : State}, Ok σ l → ∃ σ', subscribeAll own l σ = .ok σ' ∧ σ'.tracked = σ.tracked ++ l := by
  induction l with
  | nil => intro σ _; exact ⟨σ, rfl, by simp⟩
  | cons p l ih =>
    intro σ h
    obtain ⟨σ1, e1, e2⟩ := subscribe_ok (own := own) (h.2 p (by simp))
    have hn := List.nodup_cons.1 h.1
    obtain ⟨σ2, e3, e4⟩ := ih (σ := σ1) ⟨hn.2, fun q hq => by rw [e2]; simp only [List.mem_append, List.mem_singleton, not_or]; exact ⟨h.2 q (by simp [hq]), fun e => hn.1 (e ▸ hq)⟩⟩
    exact ⟨σ2, by simp only [subscribeAll, e1]; exact e3, by rw [e4, e2]; simp⟩

theorem initContinue_ok {v : Vote} (hl : v.behind = [] ∧ v.after = true) (hs : σ.st = .initializing) (hr : σ.req = true) (ho : Ok σ (v.front ++ v.cfg)) :
    ∃ σ', initContinue own v σ = .ok σ' := by
  unfold initContinue
  rw [if_neg (by simp [hs, hr])]
  obtain ⟨σ1, e1, e2⟩ := subscribeAll_ok (own := own) v.front (σ := σ) ⟨(List.nodup_append.1 ho.1).1, fun p hp => ho.2 p (by simp [hp])⟩
  rw [e1]
  simp only
  split
  · unfold fromStarter
    have e3 : ∃ r, handleInit own v σ1 = .ok r := by
      unfold handleInit
      split
      · exact ⟨_, rfl⟩
      · obtain ⟨σ2, e3, -⟩ := subscribeAll_ok (own := own) v.cfg (σ := { σ1 with configured := true }) ⟨(List.nodup_append.1 ho.1).2.1, fun p hp => by
          show p ∉ σ1.tracked
          rw [e2]
          simp only [List.mem_append, not_or]
          exact ⟨ho.2 p (by simp [hp]), fun h => (List.nodup_append.1 ho.1).2.2 p h p hp rfl⟩⟩
        rw [e3]; exact ⟨_, rfl⟩
    obtain ⟨⟨σ2, b⟩, e3⟩ := e3
    rw [e3]
    simp only [hl.1, subscribeAll]
    split
    · cases b <;> exact ⟨_, rfl⟩
    · exact ⟨_, rfl⟩
  · exact ⟨_, rfl⟩

/-- **C57: nothing fails** as long as the code keeps to `Careful`. -/
theorem C57_safe_partial {op : Op} {e : Err} (h : Reach own Careful σ) (ho : Careful σ op) (he : step own σ op = .error e) : e = .illegal := by
  have key : ∀ {σ : State}, Reach own Careful σ → σ.st = .initializing → σ.configured = true → σ.subs = true → σ.req = true := by
    intro σ h
    induction h with
    | init => intro _ h; cases h
    | step h0 h1 h2 ih =>
      rename_i σ σ' op
      have hi := reach_inv (h0.mono fun _ _ h => h.1)
      intro hs' hc' hb'
      obtain ⟨hl, hq⟩ := h1
      have cont : ∀ {σ0 σ1 : State}, σ0.req = true → σ1.st = .initializing → Cont own σ0 σ1 → σ1.req = true := by
        intro σ0 σ1 a b c
        rcases c.goes with g | g
        · rw [g.2.1]; exact a
        · rw [g.1] at b; cases b
      cases op with
      | init v =>
        simp only [Starter.step] at h2
        split at h2
        · cases h2
        split at h2
        · rename_i hs
          have h0 : Inv { σ with req := true, asked := true } := hi.asks σ.configured σ.subs true true
          exact cont (σ0 := { σ with req := true, asked := true }) rfl hs' (initContinue_cont (hl v rfl) (h0.inits hs) h0.good h2)
        · cases h2; rfl
      | poll v =>
        simp only [Starter.step] at h2
        split at h2
        · rename_i hs
          exact cont hs.2 hs' (initContinue_cont (hl v rfl) (hi.inits hs.1) hi.good h2)
        · cases h2
      | confirm p v =>
        simp only [Starter.step] at h2
        split at h2
        · unfold onConfirm at h2
          split at h2
          · simp only at h2
            split at h2
            · split at h2
              · cases h2
              · cases h2; cases hb'
            · cases h2; exact ih hs' hc' hb'
          · cases h2; exact ih hs' hc' hb'
        · cases h2
      | attach q => simp only [Starter.step] at h2; split at h2 <;> cases h2; exact ih hs' hc' hb'
      | subscribe q =>
        simp only [Starter.step] at h2
        obtain ⟨_, s1⟩ := subscribe_good hi.good h2
        rw [s1.req]
        exact ih (by rw [← s1.st, hs']) (by rw [← s1.configured, hc']) (by rw [← s1.subs, hb'])
      | drop q => simp only [Starter.step] at h2; split at h2 <;> cases h2; exact ih hs' hc' hb'
      | fail =>
        simp only [Starter.step] at h2; split at h2 <;> cases h2
        have := hq hs' hc'
        rw [show σ.subs = true from hb'] at this; cases this
      | shut => simp only [Starter.step] at h2; split at h2 <;> cases h2; cases hs'
      | deactivate => simp only [Starter.step] at h2; split at h2 <;> cases h2; exact ih hs' hc' hb'
      | start =>
        simp only [Starter.step] at h2
        split at h2
        · rename_i hs
          cases h2
          simp only at hs'
          rw [hs] at hs'
          cases hb : σ.starts <;> simp [hb] at hs'
        · cases h2; exact ih hs' hc' hb'
  obtain ⟨hl, hq⟩ := ho
  cases op with
  | init v =>
    simp only [Starter.step] at he
    split at he
    · cases he; rfl
    split at he
    · rename_i hs
      obtain ⟨σ', e1⟩ := initContinue_ok (own := own) (σ := { σ with req := true, asked := true }) (hl v rfl) hs rfl hq
      rw [e1] at he; cases he
    · cases he
  | poll v =>
    simp only [Starter.step] at he
    split at he
    · rename_i hs
      obtain ⟨σ', e1⟩ := initContinue_ok (own := own) (hl v rfl) hs.1 hs.2 hq
      rw [e1] at he; cases he
    · cases he; rfl
  | confirm p v =>
    simp only [Starter.step] at he
    split at he
    · unfold onConfirm at he
      split at he
      · rename_i hb
        simp only at he
        split at he
        · rename_i hc
          obtain ⟨σ', e1⟩ := initContinue_ok (own := own) (σ := { σ with conf := σ.conf.erase p, log := .confirmed p :: σ.log, tracked := σ.tracked.erase p })
            (hl v rfl) hc.2.2 (key (σ := σ) h hc.2.2 hc.1 hb) ⟨hq.1, fun q hm => by
              intro hh; exact hq.2 q hm (List.mem_of_mem_erase hh)⟩
          rw [e1] at he; cases he
        · cases he
      · cases he
    · cases he; rfl
  | attach q => simp only [Starter.step] at he; split at he <;> cases he; rfl
  | subscribe q =>
    simp only [Starter.step] at he
    obtain ⟨σ', e1, -⟩ := subscribe_ok (own := own) hq
    rw [e1] at he; cases he
  | drop q => simp only [Starter.step] at he; split at he <;> cases he; rfl
  | fail => simp only [Starter.step] at he; split at he <;> cases he; rfl
  | shut => simp only [Starter.step] at he; split at he <;> cases he; rfl
  | deactivate => simp only [Starter.step] at he; split at he <;> cases he; rfl
  | start => simp only [Starter.step] at he; split at he <;> cases he

end Verif.Starter
