import Verif.RegTree.Props

/-!
# C60: what creating a supervisor and finishing its initialization does
-/

namespace Verif.RegTree

/-- the result `r` of an operation in `σ`. A configuration with both a registry and `create_registry` is refused; a parent has to exist; a new
supervisor is recorded as it was ordered; the initialization that ends is that of the supervisor created last among those that are being
initialized. Nobody else changes. -/
def Recorded (σ : State) (r : Option State) : Op → Prop
  | .start p c =>
    (c.given.isSome = true ∧ c.create = true → r = some σ) ∧
    (¬ (c.given.isSome = true ∧ c.create = true) →
      (∀ q, p = some q → σ.sups q = none → r = none) ∧
      ((∀ q, p = some q → σ.sups q ≠ none) → ∃ σ' s x, r = some σ' ∧ σ.sups s = none ∧ σ'.sups s = some x ∧ x.parent = p ∧ x.cfg = c ∧
        x.done = false ∧ (x.early = true ↔ ∃ q y, p = some q ∧ σ.sups q = some y ∧ y.done = false) ∧ ∀ j, j ≠ s → σ'.sups j = σ.sups j))
  | .finish =>
    (r = none ↔ ∀ s x, σ.sups s = some x → x.done = true) ∧
    ∀ σ', r = some σ' → ∃ s x a, σ.sups s = some x ∧ x.done = false ∧ (∀ s' x', σ.sups s' = some x' → x'.done = false → s' ≤ s) ∧
      σ'.sups s = some { x with reg := a, done := true } ∧ ∀ j, j ≠ s → σ'.sups j = σ.sups j

/-- **C60**, in every state -/
theorem C60_recorded {ops : List Op} {σ : State} (hr : run .init ops = some σ) (op : Op) : Recorded σ (step σ op) op := by
  have hi := Inv.init.run hr
  have new : σ.sups σ.n = none := by
    cases e : σ.sups σ.n with
    | none => rfl
    | some x => exact absurd ((hi.dom σ.n).2 ⟨x, e⟩) (Nat.lt_irrefl _)
  cases op with
  | start p c =>
    simp only [Recorded, step]
    refine ⟨?_, ?_⟩
    · intro h
      rw [if_neg]
      simp [Cfg.valid, h.1, h.2]
    · intro h
      have hv : c.valid = true := by
        simp only [Cfg.valid]
        cases h1 : c.given.isSome <;> cases h2 : c.create <;> simp_all
      rw [if_pos hv]
      refine ⟨?_, ?_⟩
      · intro q hq hn
        rw [if_neg]
        intro h'
        obtain ⟨x, hx⟩ := (hi.dom q).1 (h' q hq)
        rw [hn] at hx; cases hx
      · intro h'
        have hp : ∀ q, p = some q → q < σ.n := by
          intro q hq
          refine (hi.dom q).2 ?_
          cases e : σ.sups q with
          | none => exact absurd e (h' q hq)
          | some x => exact ⟨x, rfl⟩
        rw [if_pos hp]
        refine ⟨_, σ.n, ⟨p, c, c.given, false, running σ p⟩, rfl, new, by simp [upd], rfl, rfl, rfl, ?_, ?_⟩
        · cases p with
          | none => simp [running]
          | some q =>
            simp only [running, decide_eq_true_eq, Option.some.injEq]
            obtain ⟨y, hy⟩ := (hi.dom q).1 (hp q rfl)
            rw [hi.stk q y hy]
            constructor
            · intro hd; exact ⟨q, y, rfl, hy, hd⟩
            · rintro ⟨q', y', rfl, hy', hd⟩
              rw [hy] at hy'; cases hy'; exact hd
        · intro j hj; simp [upd, hj]
  | finish =>
    simp only [Recorded, step]
    cases hs : σ.stack with
    | nil =>
      simp only [true_iff]
      refine ⟨?_, by intro σ' h; cases h⟩
      intro s x hx
      cases hd : x.done with
      | true => rfl
      | false => have := (hi.stk s x hx).2 hd; rw [hs] at this; cases this
    | cons s t =>
      obtain ⟨x, hx⟩ := (hi.dom s).1 (hi.stn s (by rw [hs]; simp))
      have hd : x.done = false := (hi.stk s x hx).1 (by rw [hs]; simp)
      simp only [hx]
      refine ⟨?_, ?_⟩
      · constructor
        · intro h; cases h
        · intro h; rw [h s x hx] at hd; cases hd
      · intro σ' h
        simp only [Option.some.injEq] at h
        subst h
        refine ⟨s, x, resolve σ s x, hx, hd, ?_, by simp [upd], ?_⟩
        · intro s' x' hx' hd'
          have := (hi.stk s' x' hx').2 hd'
          rw [hs] at this
          rcases List.mem_cons.1 this with rfl | h
          · exact Nat.le_refl _
          · have h2 := hi.sorted
            rw [hs] at h2
            exact Nat.le_of_lt ((List.pairwise_cons.1 h2).1 s' h)
        · intro j hj; simp [upd, hj]

/-- a case: a child is created while its parent is being initialized; the initialization of the child ends first -/
example : (run .init [.start none creates, .start (some 0) plain, .finish]).map (fun σ => ((σ.sups 0).map (·.done), (σ.sups 1).map (·.done))) =
    some (some false, some true) := by decide

/-- a case: such a configuration is refused -/
example : (run .init [.start none ⟨some (.user 1), true⟩]).map (·.n) = some 0 := by decide

end Verif.RegTree
