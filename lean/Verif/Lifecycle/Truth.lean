import Verif.Lifecycle.Props

/-! # C31: an actor does not report a success it did not have -/

namespace Verif.Lifecycle

def Honest (s : State) : Prop := ∀ r, Ev.replyInit r true ∈ s.log → Ev.became .initialized ∈ s.log

theorem honest_log {s s' : State} (k : List Ev) (h : Honest s) (hl : s'.log = k ++ s.log)
    (hk : ∀ e ∈ k, ∀ r, e ≠ .replyInit r true) : Honest s' := by
  intro r hr
  rw [hl] at hr ⊢
  rcases List.mem_append.1 hr with hr | hr
  · exact absurd rfl (hk _ hr r)
  · exact List.mem_append_right _ (h r hr)

theorem initContinue_honest {c : Cfg} {env : Env} {s s' : State} (hi : Inv c s) (h : Honest s)
    (he : initContinue c env s = .ok s') : Honest s' := by
  obtain ⟨q, hs, _, ⟨rfl, _⟩ | ⟨r, _, rfl⟩⟩ := initContinue_shape hi he <;> obtain ⟨k, hk, hall⟩ := hs.log
  · refine honest_log k h hk (fun e hm r => ?_)
    obtain ⟨ph, i, h | ⟨b, h⟩ | h | h⟩ := hall e hm <;> subst h <;> simp
  · intro r _; simp [become]

theorem step_honest {c : Cfg} {env : Env} {s s' : State} {op : Op} (hi : Inv c s) (h : Honest s)
    (he : step c env s op = .ok s') : Honest s' := by
  cases op with
  | activate =>
    simp only [step] at he
    split at he
    · cases he
    · injection he with he; subst he
      exact honest_log [.became .initializing] h rfl (by simp)
  | initRequest r =>
    simp only [step] at he
    split at he
    · rename_i hl
      have h1 : Honest { s with initReq := some r, log := .gotInit r :: s.log } :=
        honest_log [.gotInit r] h rfl (by simp)
      have h0 := inv_initReq (inv_neutral hi (e := .gotInit r) trivial hl.1 trivial) hl.1 (some r)
      split at he
      · split at he
        · cases he
        exact initContinue_honest h0 h1 he
      · injection he with he; subst he; exact h1
    · injection he with he; subst he; exact h
  | start =>
    simp only [step] at he
    split at he
    · injection he with he; subst he
      exact honest_log [.became .operational] h rfl (by simp)
    · injection he with he; subst he; exact h
  | shutRequest r reason =>
    simp only [step] at he
    split at he
    · rename_i hl
      obtain ⟨k, hk, _, hall⟩ := shutRequest_log hi hl.1 hl.2 he
      refine honest_log k h hk (fun e hm => ?_)
      rcases hall e hm with h | ⟨r, h⟩ | ⟨t, x, h⟩ | h | h | ⟨ph, i, h | ⟨b, h⟩ | h | h⟩ <;> subst h <;> simp
    · injection he with he; subst he; exact h
  | progress ph =>
    cases ph with
    | init => exact initContinue_honest hi h he
    | shut =>
      obtain ⟨k, hk, _, hall⟩ := shutdownContinue_log hi he
      refine honest_log k h hk (fun e hm => ?_)
      rcases hall e hm with h | ⟨r, h⟩ | ⟨ph, i, h | ⟨b, h⟩ | h | h⟩ <;> subst h <;> simp
  | linkRefused =>
    simp only [step] at he
    split at he
    · split at he
      · rename_i r _
        injection he with he; subst he
        exact honest_log [.replyInit r false] h rfl (by simp)
      · injection he with he; subst he; exact h
    · injection he with he; subst he; exact h
  | registryFailed =>
    simp only [step] at he
    split at he
    · split at he
      · rename_i r _
        injection he with he; subst he
        exact honest_log [.replyInit r false] h rfl (by simp)
      · cases he
    · injection he with he; subst he; exact h
  | unlinkFailed =>
    simp only [step] at he
    split at he
    · split at he
      · rename_i r _
        injection he with he; subst he
        exact honest_log [.replyShut r false] h rfl (by simp)
      · injection he with he; subst he; exact h
    · injection he with he; subst he; exact h
  | effect e =>
    simp only [step] at he
    split at he
    · rename_i hl
      injection he with he; subst he
      obtain ⟨k, hk, hall⟩ := (applyEffs_inv [e] hi hl.1).2.log
      refine honest_log k h hk (fun e hm r => ?_)
      obtain ⟨ph, i, h | ⟨b, h⟩ | h | h⟩ := hall e hm <;> subst h <;> simp
    · injection he with he; subst he; exact h

/-- **C31, truthful.** In every execution, also when registrations fail and requests are answered more
than once: an init request is answered with success only if the actor has become INITIALIZED, and an
actor that has become INITIALIZED has answered one with success. -/
theorem C31_truthful (c : Cfg) (env : Env) (ops : List Op) (s : State) (h : run c env .init ops = .ok s) :
    (∃ r, Ev.replyInit r true ∈ s.log) ↔ Ev.became .initialized ∈ s.log := by
  have hi := run_inv ops (inv_init c) h
  have hc : Honest s := run_ind (env := env) (ok := fun _ => True) (P := Honest)
    (fun s s' op hi _ hc he => step_honest hi hc he) ops (inv_init c) (by intro r; simp [State.init]) (fun _ _ => trivial) h
  constructor
  · rintro ⟨r, hr⟩; exact hc r hr
  · intro hm
    obtain ⟨a, b, hab⟩ := List.append_of_mem hm
    obtain ⟨⟨_, r, l', hl⟩, _⟩ := every_iff.1 hi.rules a _ b hab
    exact ⟨r, by rw [hab, hl]; simp⟩

/-- a failed registration is reported as such, the success later on (the case of
`C31_init_twice_counterexample`) -/
example : ∃ s, run exCfg exEnv .init [.activate, .initRequest 1, .registryFailed] = .ok s ∧
    Ev.replyInit 1 false ∈ s.log ∧ Ev.replyInit 1 true ∉ s.log ∧ Ev.became .initialized ∉ s.log ∧
    ∃ t, run exCfg exEnv s [.progress .init] = .ok t ∧ Ev.replyInit 1 true ∈ t.log ∧ Ev.became .initialized ∈ t.log :=
  ⟨_, rfl, by decide, by decide, by decide, _, rfl, by decide, by decide⟩

end Verif.Lifecycle
