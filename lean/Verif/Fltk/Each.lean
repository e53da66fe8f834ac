import Verif.Fltk.Props

/-!
# C19: the messages are counted, and nobody gets stuck

`src/rotor/fltk/system_context_fltk.cpp:27-58`, for any number of contexts.
-/

namespace Verif.Fltk

theorem set_ne (s : State) {k j : Nat} (c : Ctx) (h : j ≠ k) : (s.set k c).ctx j = s.ctx j := by simp [State.set, h]

/-- **C19** In every interleaving, whatever happens in other contexts: each message pushed is handed over once or still waits, and each thread that has
pushed is finished or about to count its message. -/
theorem C19_counted (ls : List Label) (s : State) (h : run State.init ls = some s) (k : Nat) :
    (s.ctx k).delivered + (s.ctx k).inbound = ls.count (.push k) ∧ (s.ctx k).pushing + ls.count (.add k) = ls.count (.push k) := by
  have key : ∀ (ls : List Label) (s s' : State), run s ls = some s' →
      (s'.ctx k).delivered + (s'.ctx k).inbound = (s.ctx k).delivered + (s.ctx k).inbound + ls.count (.push k) ∧
      (s'.ctx k).pushing + ls.count (.add k) = (s.ctx k).pushing + ls.count (.push k) := by
    intro ls
    induction ls with
    | nil => intro s s' e; simp only [run, Option.some.injEq] at e; subst e; simp
    | cons l ls ih =>
      intro s s' e
      simp only [run] at e
      cases hs : step s l with
      | none => simp [hs] at e
      | some s₁ =>
        rw [hs] at e
        obtain ⟨i1, i2⟩ := ih s₁ s' e
        rw [i1]
        simp only [List.count_cons]
        cases l with
        | push j =>
          simp only [step, Option.some.injEq] at hs; subst hs
          by_cases hj : j = k
          · subst hj; simp [set_same, push] at i2 ⊢; omega
          · simp [set_ne s _ (Ne.symm hj), hj] at i2 ⊢; omega
        | add j =>
          simp only [step] at hs
          split at hs
          · cases hs
          rename_i hp
          simp only [Option.some.injEq] at hs; subst hs
          by_cases hj : j = k
          · subst hj; simp [set_same, add] at i2 ⊢; omega
          · simp [set_ne s _ (Ne.symm hj), hj] at i2 ⊢; omega
        | start j =>
          simp only [step] at hs
          split at hs
          · cases hs
          simp only [Option.some.injEq] at hs; subst hs
          by_cases hj : j = k
          · subst hj; simp [set_same] at i2 ⊢; omega
          · simp [set_ne s _ (Ne.symm hj)] at i2 ⊢; omega
        | drain j =>
          simp only [step] at hs
          split at hs
          · cases hs
          rename_i n c hd
          simp only [Option.some.injEq] at hs; subst hs
          by_cases hj : j = k
          · subst hj
            simp [set_same] at i2 ⊢
            simp only [drainStep] at hd
            (repeat' split at hd) <;> simp only [Option.some.injEq, Prod.mk.injEq, reduceCtorEq] at hd <;> obtain ⟨-, rfl⟩ := hd <;> simp at i2 ⊢ <;> omega
          · simp [set_ne s _ (Ne.symm hj)] at i2 ⊢; omega
  simpa [State.init, Ctx.init] using key ls _ _ h

/-- **C19** Nobody gets stuck: threads can push, those that have pushed can finish, a wake-up starts the callback when it is not running, and the running
callback goes on. -/
theorem C19_goes_on (ls : List Label) (s : State) (h : run State.init ls = some s) (k : Nat) :
    (step s (.push k)).isSome ∧ (ls.count (.add k) < ls.count (.push k) → (step s (.add k)).isSome) ∧
    ((s.ctx k).drain = .idle → 0 < (s.ctx k).pending → ∃ s', step s (.start k) = some s' ∧ (s'.ctx k).drain = .fetching 0 ∧
      (s'.ctx k).pending + 1 = (s.ctx k).pending) ∧
    ((s.ctx k).drain ≠ .idle → (step s (.drain k)).isSome) := by
  obtain ⟨-, h2⟩ := C19_counted ls s h k
  refine ⟨rfl, fun hc => ?_, fun hd hp => ?_, fun hd => ?_⟩
  · have : ¬ (s.ctx k).pushing = 0 := by omega
    simp [step, this]
  · have : ¬ (s.ctx k).pending = 0 := by omega
    simp [step, this, hd, set_same]; omega
  · cases hc : (s.ctx k).drain with
    | idle => exact absurd hc hd
    | fetching n => by_cases hi : (s.ctx k).inbound = 0 <;> by_cases hn : n = 0 <;> simp [step, drainStep, hc, hi, hn]
    | processed n => simp [step, drainStep, hc]

/-- two contexts, a callback that has fetched one message, a thread that has pushed another -/
example : (run State.init [.push 0, .add 0, .push 1, .start 0, .drain 0, .push 0]).map (fun s => ((s.ctx 0).delivered, (s.ctx 0).inbound, (s.ctx 0).pushing,
    (s.ctx 1).inbound, (s.ctx 0).drain)) = some (1, 1, 1, 1, .fetching 1) := by decide

end Verif.Fltk
