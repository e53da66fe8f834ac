import Verif.Configure.Props
/-!
# What one round of asking the plugins does (C71)
-/

namespace Verif.Configure
open Verif

/-- user code never makes plugin `p` take part again -/
def Leaves (env : Env) (p : Nat) : Prop := ∀ log, p ∉ env.acts log

/-- the events of a round that asked the plugins from `lo` on: `s` before, `t` after, `v` whether all have agreed -/
structure Asked (env : Env) (lo n : Nat) (s t : State) (v : Bool) (new : List Ev) : Prop where
  log : t.log = new ++ s.log
  kept : t.st = s.st ∧ t.req = s.req ∧ t.live = s.live ∧ t.activating = s.activating ∧ t.phase = s.phase
  kinds : ∀ e, e ∈ new → (∃ p ph, e = .conf p ph ∧ lo ≤ p ∧ p < n) ∨ (∃ p, e = .agree p ∧ lo ≤ p ∧ p < n) ∨ (∃ p, e = .disagree p ∧ lo ≤ p ∧ p < n)
  verdict : v = true ↔ ∀ p, .disagree p ∉ new
  last : ∀ p, .disagree p ∈ new → new.head? = some (.disagree p)
  all : v = true → ∀ p, lo ≤ p → p < n → s.react p = true → .agree p ∈ new
  once : ∀ p, new.count (.agree p) + new.count (.disagree p) ≤ 1
  only : ∀ p, Leaves env p → (.agree p ∈ new ∨ .disagree p ∈ new) → s.react p = true
  done : ∀ p, Leaves env p → .agree p ∈ new → t.react p = false
  rest : ∀ p, Leaves env p → .agree p ∉ new → t.react p = s.react p

theorem handleInit_spec (c : Cfg) (env : Env) (p : Nat) (s : State) :
    ∃ new, (handleInit c env p s).1.log = new ++ s.log ∧ (∀ e, e ∈ new → ∃ ph, e = .conf p ph) ∧
      ((handleInit c env p s).1.st = s.st ∧ (handleInit c env p s).1.req = s.req ∧ (handleInit c env p s).1.live = s.live ∧
        (handleInit c env p s).1.activating = s.activating ∧ (handleInit c env p s).1.phase = s.phase) ∧
      (∀ q, s.react q = true → (handleInit c env p s).1.react q = true) ∧
      (∀ q, Leaves env q → (handleInit c env p s).1.react q = s.react q) := by
  unfold handleInit
  dsimp only
  split
  · refine ⟨[.conf p (s.phase p)], rfl, (by simp), ⟨rfl, rfl, rfl, rfl, rfl⟩, (fun q hq => by simp [configure, hq]), fun q hq => ?_⟩
    have := hq (.conf p (s.phase p) :: s.log)
    simp [configure, this]
  · exact ⟨[], rfl, (by simp), ⟨rfl, rfl, rfl, rfl, rfl⟩, (fun q hq => hq), fun q _ => rfl⟩

theorem poll_asked (c : Cfg) (env : Env) : ∀ (k p : Nat) (s : State), ∃ new, Asked env p (p + k) s (poll c env k p s).1 (poll c env k p s).2 new
  | 0, p, s => ⟨[], by
      constructor <;> simp [poll]
      omega⟩
  | k + 1, p, s => by
    unfold poll
    split
    · rename_i hr
      obtain ⟨nw, h1, h2, h3, h4, h5⟩ := handleInit_spec c env p s
      generalize hh : handleInit c env p s = r at h1 h3 h4 h5
      obtain ⟨s1, v⟩ := r
      dsimp only at h1 h3 h4 h5 ⊢
      have na : ∀ q, Ev.agree q ∉ nw := fun q hq => by obtain ⟨ph, e⟩ := h2 _ hq; cases e
      have nd : ∀ q, Ev.disagree q ∉ nw := fun q hq => by obtain ⟨ph, e⟩ := h2 _ hq; cases e
      have ca : ∀ q, nw.count (Ev.agree q) = 0 := fun q => List.count_eq_zero.2 (na q)
      have cd : ∀ q, nw.count (Ev.disagree q) = 0 := fun q => List.count_eq_zero.2 (nd q)
      cases v
      · refine ⟨.disagree p :: nw, ?_⟩
        simp only [Bool.false_eq_true, if_false]
        constructor
        · simp [h1]
        · exact h3
        · intro e he
          rcases List.mem_cons.1 he with he | he
          · exact .inr (.inr ⟨p, he, by omega, by omega⟩)
          · obtain ⟨ph, e'⟩ := h2 _ he; exact .inl ⟨p, ph, e', by omega, by omega⟩
        · simp
          exact ⟨p, fun h => absurd rfl h⟩
        · intro q hq
          rcases List.mem_cons.1 hq with hq | hq
          · simp [hq]
          · exact absurd hq (nd q)
        · simp
        · intro q; simp [List.count_cons, ca, cd]; split <;> simp
        · intro q _ hq
          rcases hq with hq | hq
          · simp at hq; exact absurd hq (na q)
          · simp at hq
            rcases hq with hq | hq
            · rw [hq]; exact hr
            · exact absurd hq (nd q)
        · intro q _ hq; simp at hq; exact absurd hq (na q)
        · intro q hq _; exact h5 q hq
      · simp only [if_true]
        obtain ⟨nw2, i⟩ := poll_asked c env k (p + 1) { s1 with react := upd s1.react p false, log := .agree p :: s1.log }
        generalize hpoll : poll c env k (p + 1) { s1 with react := upd s1.react p false, log := .agree p :: s1.log } = r at i
        obtain ⟨t, v⟩ := r
        dsimp only at i ⊢
        have lo2 : ∀ q, (.agree q ∈ nw2 ∨ .disagree q ∈ nw2) → p < q := fun q hq => by
          rcases hq with hq | hq
          · rcases i.kinds _ hq with ⟨_, _, e, _, _⟩ | ⟨_, e, _, _⟩ | ⟨_, e, _, _⟩ <;> cases e; omega
          · rcases i.kinds _ hq with ⟨_, _, e, _, _⟩ | ⟨_, e, _, _⟩ | ⟨_, e, _, _⟩ <;> cases e; omega
        refine ⟨nw2 ++ .agree p :: nw, ?_⟩
        constructor
        · rw [i.log, h1]; simp
        · obtain ⟨a, b, d, e, f⟩ := i.kept
          obtain ⟨a', b', d', e', f'⟩ := h3
          exact ⟨a.trans a', b.trans b', d.trans d', e.trans e', f.trans f'⟩
        · intro e he
          rcases List.mem_append.1 he with he | he
          · rcases i.kinds _ he with ⟨q, ph, e, _, _⟩ | ⟨q, e, _, _⟩ | ⟨q, e, _, _⟩
            · exact .inl ⟨q, ph, e, by omega, by omega⟩
            · exact .inr (.inl ⟨q, e, by omega, by omega⟩)
            · exact .inr (.inr ⟨q, e, by omega, by omega⟩)
          · rcases List.mem_cons.1 he with he | he
            · exact .inr (.inl ⟨p, he, by omega, by omega⟩)
            · obtain ⟨ph, e'⟩ := h2 _ he; exact .inl ⟨p, ph, e', by omega, by omega⟩
        · rw [i.verdict]
          constructor
          · intro h q hq
            simp at hq
            rcases hq with hq | hq
            · exact h q hq
            · exact nd q hq
          · intro h q hq; exact h q (by simp [hq])
        · intro q hq
          simp at hq
          rcases hq with hq | hq
          · have := i.last q hq
            cases nw2 with
            | nil => simp at hq
            | cons a l => simpa using this
          · exact absurd hq (nd q)
        · intro hv q hlo hhi hq
          by_cases e : q = p
          · simp [e]
          · have := i.all hv q (by omega) (by omega) (by simp [upd, e]; exact h4 q hq)
            simp [this]
        · intro q
          have o := i.once q
          by_cases e : q = p
          · have z1 : nw2.count (Ev.agree q) = 0 := List.count_eq_zero.2 (fun hq => by have := lo2 q (.inl hq); omega)
            have z2 : nw2.count (Ev.disagree q) = 0 := List.count_eq_zero.2 (fun hq => by have := lo2 q (.inr hq); omega)
            simp [List.count_append, List.count_cons, ca, cd, z1, z2]; split <;> simp
          · have e' : ¬ p = q := fun h => e h.symm
            simp [List.count_append, ca, cd, e']; exact o
        · intro q hL hq
          by_cases e : q = p
          · rw [e]; exact hr
          · have : s1.react q = true := by
              have := i.only q hL (by
                rcases hq with hq | hq
                · simp [na, e] at hq; exact .inl hq
                · simp [nd] at hq; exact .inr hq)
              simpa [upd, e] using this
            rw [← h5 q hL]; exact this
        · intro q hL hq
          by_cases hq2 : Ev.agree q ∈ nw2
          · exact i.done q hL hq2
          · rw [i.rest q hL hq2]
            simp [na, hq2] at hq
            simp [upd, hq]
        · intro q hL hq
          simp at hq
          rw [i.rest q hL hq.1]
          simp [upd, hq.2.1]
          exact h5 q hL
    · rename_i hr
      obtain ⟨nw2, i⟩ := poll_asked c env k (p + 1) s
      generalize poll c env k (p + 1) s = r at i
      refine ⟨nw2, i.log, i.kept, ?_, i.verdict, i.last, ?_, i.once, i.only, i.done, i.rest⟩
      · intro e he
        rcases i.kinds _ he with ⟨q, ph, e, _, _⟩ | ⟨q, e, _, _⟩ | ⟨q, e, _, _⟩
        · exact .inl ⟨q, ph, e, by omega, by omega⟩
        · exact .inr (.inl ⟨q, e, by omega, by omega⟩)
        · exact .inr (.inr ⟨q, e, by omega, by omega⟩)
      · intro hv q hlo hhi hq
        have : q ≠ p := fun e => by rw [e] at hq; exact hr hq
        exact i.all hv q (by omega) (by omega) hq

/-- **C71** One round of asking (`init_continue` called by a plugin): the actor is still initializing if and only if some plugin has disagreed, and
then it is the plugin asked last; otherwise the actor is initialized, the request is answered, and everybody who takes part has agreed. Nobody
is asked twice in a round, only those are asked who take part, who agrees does not take part any more, and nothing changes for the others. -/
theorem C71_polled (c : Cfg) (env : Env) (s t : State) (h : step c env s .cont = .ok t) :
    ∃ new, t.log = (if t.st = .initialized then [.became .initialized] else []) ++ new ++ s.log ∧
      (∀ e, e ∈ new → (∃ p ph, e = .conf p ph) ∨ (∃ p, e = .agree p) ∨ ∃ p, e = .disagree p) ∧
      (t.st = .initialized ∨ t.st = .initializing) ∧ (t.st = .initialized ↔ ∀ p, .disagree p ∉ new) ∧ (t.req = true ↔ t.st = .initializing) ∧
      (∀ p, .disagree p ∈ new → new.head? = some (.disagree p)) ∧
      (t.st = .initialized → ∀ p, p < c.n → s.react p = true → .agree p ∈ new) ∧
      (∀ p, new.count (.agree p) + new.count (.disagree p) ≤ 1) ∧
      (∀ p, Leaves env p → (.agree p ∈ new ∨ .disagree p ∈ new → s.react p = true) ∧
        t.react p = if .agree p ∈ new then false else s.react p) := by
  simp only [step] at h
  split at h
  · rename_i hl
    simp only [initContinue, if_pos hl.2] at h
    obtain ⟨new, i⟩ := poll_asked c env c.n 0 s
    generalize poll c env c.n 0 s = r at i h
    obtain ⟨u, v⟩ := r
    dsimp only at i h
    injection h with h
    have er : ∀ p, Leaves env p → u.react p = if .agree p ∈ new then false else s.react p := fun p hp => by
      split
      · rename_i ha; exact i.done p hp ha
      · rename_i ha; exact i.rest p hp ha
    have ek : ∀ e, e ∈ new → (∃ p ph, e = .conf p ph) ∨ (∃ p, e = .agree p) ∨ ∃ p, e = .disagree p := fun e he => by
      rcases i.kinds e he with ⟨p, ph, e, _⟩ | ⟨p, e, _⟩ | ⟨p, e, _⟩
      · exact .inl ⟨p, ph, e⟩
      · exact .inr (.inl ⟨p, e⟩)
      · exact .inr (.inr ⟨p, e⟩)
    refine ⟨new, ?_⟩
    cases v
    · simp only [Bool.false_eq_true, if_false] at h
      subst h
      have hst : u.st = .initializing := i.kept.1.trans hl.2.1
      have hreq : u.req = true := i.kept.2.1.trans hl.2.2
      refine ⟨(by simp [hst, i.log]), ek, .inr hst, ?_, (by simp [hst, hreq]), i.last, (by simp [hst]), i.once, fun p hp => ⟨i.only p hp, er p hp⟩⟩
      rw [hst]
      have := i.verdict
      simp at this ⊢
      exact this
    · simp only [if_true] at h
      subst h
      refine ⟨(by simp [i.log]), ek, .inl rfl, ?_, (by simp), i.last, (fun _ p hp hr => i.all rfl p (by omega) (by omega) hr), i.once, fun p hp => ⟨i.only p hp, er p hp⟩⟩
      exact ⟨fun _ => i.verdict.1 rfl, fun _ => rfl⟩
  · cases h

/-- **C71** A request that arrives when the actor is not initializing (any more) asks nobody, configures nothing and changes no state: it is only
noted. -/
theorem C71_late_request (c : Cfg) (env : Env) (s : State) (hl : s.live = true) (hs : s.st ≠ .initializing) (hr : receiver c ≠ none) :
    ∃ t, step c env s .initRequest = .ok t ∧ t.log = s.log ∧ t.st = s.st ∧ t.react = s.react ∧ t.configured = s.configured ∧ t.phase = s.phase ∧
      t.activating = s.activating := by
  simp only [step, hl, if_true, onInit]
  cases h : receiver c with
  | none => exact absurd h hr
  | some p => exact ⟨{ s with req := true }, (by simp [hs, hl]), rfl, rfl, rfl, rfl, rfl, rfl⟩

/-- **C71** The request itself: the plugin that waits for it becomes active, then one round of asking takes place, with the same outcome as
`init_continue` called by a plugin. -/
theorem C71_first_request (c : Cfg) (env : Env) (p : Nat) (hp : receiver c = some p) (s : State) (hl : s.live = true) (hs : s.st = .initializing)
    (ha : p ∈ s.activating) :
    step c env s .initRequest =
      step c env { s with req := true, log := .request :: s.log, activating := s.activating.erase p, phase := upd s.phase p .initializing } .cont := by
  simp [step, hl, onInit, hp, hs, baseActivate, ha]

/-- the plugins of an actor after activation: everybody who takes part agrees -/
example : ∃ s, run (ofList actorPlugins) calm (State.init (ofList actorPlugins)) [.activate] = .ok s ∧ s.live = true ∧ s.st = .initializing ∧
    receiver (ofList actorPlugins) = some 2 ∧ 2 ∈ s.activating ∧
    ∃ t, step (ofList actorPlugins) calm s .initRequest = .ok t ∧ t.st = .initialized ∧ .agree 4 ∈ t.log := by
  refine ⟨_, rfl, rfl, rfl, rfl, by decide +kernel, _, rfl, rfl, by decide +kernel⟩

end Verif.Configure
