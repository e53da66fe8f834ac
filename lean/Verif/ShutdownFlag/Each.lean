import Verif.ShutdownFlag.Props

/-!
# C50: the supervisor looks at the flag when, and only when, its timer expires
-/

namespace Verif.ShutdownFlag

/-- the state of the supervisor according to its history, newest event last -/
def phase (es : List Ev) : AState :=
  es.foldl (fun st e => match e with | .start _ => .operational | .shuttingDown => .shuttingDown | .shutDown => .shutDown | _ => st) .initialized

/-- the time the next look is due, if any, according to the history -/
def due (c : Cfg) (es : List Ev) : Option Int :=
  es.foldl (fun d e => match e with
    | .start t => if c.hasFlag = true then some (t + c.period) else d
    | .expired t flag => if flag = true then none else some (t + c.period)
    | .cancelled => none
    | _ => d) none

/-- the looks, oldest first -/
def looks (es : List Ev) : List (Int × Bool) := es.filterMap fun e => match e with | .expired t flag => some (t, flag) | _ => none

theorem run_snoc (c : Cfg) (es : List Ev) (e : Ev) (s : State) : run c s (es ++ [e]) = (run c s es).bind fun s' => step c s' e := by
  induction es generalizing s with
  | nil =>
    simp only [List.nil_append, run, Option.bind_some]
    cases step c s e <;> rfl
  | cons x es ih =>
    simp only [List.cons_append, run]
    cases h : step c s x with
    | none => rfl
    | some s1 => exact ih s1

/-- **C50.** The supervisor has looked at the flag exactly when its timer expired; it is in the state its history says, and its timer is armed for
the time its history says: a period after the start, then a period after every look that found the flag unset. -/
theorem C50_polled (c : Cfg) (es : List Ev) : ∀ s, run c .init es = some s →
    s.polls.reverse = looks es ∧ s.st = phase es ∧ s.timer = due c es := by
  suffices h : ∀ rs : List Ev, ∀ s, run c .init rs.reverse = some s →
      s.polls.reverse = looks rs.reverse ∧ s.st = phase rs.reverse ∧ s.timer = due c rs.reverse by
    have := h es.reverse; rwa [List.reverse_reverse] at this
  intro rs
  induction rs with
  | nil => intro s h; simp only [List.reverse_nil, run, Option.some.injEq] at h; subst h; exact ⟨rfl, rfl, rfl⟩
  | cons e rs ih =>
    intro s h
    rw [List.reverse_cons] at h ⊢
    rw [run_snoc] at h
    cases h1 : run c .init rs.reverse with
    | none => rw [h1] at h; cases h
    | some s1 =>
      rw [h1] at h
      simp only [Option.bind_some] at h
      obtain ⟨g1, g2, g3⟩ := ih s1 h1
      simp only [looks, phase, due, List.filterMap_append, List.foldl_append, List.foldl_cons, List.foldl_nil, List.filterMap_cons, List.filterMap_nil] at g1 g2 g3 ⊢
      rw [← g1, ← g2, ← g3]
      cases e with
      | start t =>
        simp only [step] at h
        split at h
        · simp only [Option.some.injEq] at h; subst h
          simp only [onStart]
          split <;> simp
        · cases h
      | expired t flag =>
        simp only [step] at h
        split at h
        · cases h
        · split at h
          · simp only [Option.some.injEq] at h; subst h
            cases flag <;> simp [onTimer, doShutdown]
            split <;> simp
          · cases h
      | cancelled =>
        simp only [step] at h
        split at h
        · cases h
        · simp only [Option.some.injEq] at h; subst h; simp [onTimer]
      | shuttingDown =>
        simp only [step] at h
        split at h
        · simp only [Option.some.injEq] at h; subst h; simp
        · cases h
      | shutDown =>
        simp only [step] at h
        split at h
        · simp only [Option.some.injEq] at h; subst h; simp
        · cases h

/-- what may happen after a history -/
def Possible (c : Cfg) (es : List Ev) : Ev → Prop
  | .start _ => phase es = .initialized
  | .expired t _ => ∃ d, due c es = some d ∧ d ≤ t
  | .cancelled => due c es ≠ none
  | .shuttingDown => phase es ≠ .shuttingDown ∧ phase es ≠ .shutDown
  | .shutDown => phase es = .shuttingDown

/-- **C50.** Everything that may happen according to the history is handled; in particular the look that is due always takes place. -/
theorem C50_goes_on (c : Cfg) (es : List Ev) (s : State) (h : run c .init es = some s) (e : Ev) :
    (∃ s', step c s e = some s') ↔ Possible c es e := by
  obtain ⟨-, g2, g3⟩ := C50_polled c es s h
  cases e with
  | start t => simp only [step, Possible, ← g2]; split <;> rename_i hst <;> simp only [hst] <;> simp
  | expired t flag =>
    simp only [step, Possible, ← g3]
    cases s.timer with
    | none => simp
    | some d => simp only; split <;> simp [*]
  | cancelled =>
    simp only [step, Possible, ← g3]
    cases s.timer <;> simp
  | shuttingDown =>
    simp only [step, Possible, ← g2]
    cases s.st <;> simp [AState.rank]
  | shutDown => simp only [step, Possible, ← g2]; split <;> rename_i hst <;> simp only [hst] <;> simp

/-- what is sent because of the flag, oldest first: one trigger at each look that finds it set while the supervisor, in state `st` at first, is
neither shutting down nor down -/
def triggered (st : AState) : List Ev → List Int
  | [] => []
  | .expired t true :: es => (if st.rank < AState.shuttingDown.rank then [t] else []) ++ triggered st es
  | .start _ :: es => triggered .operational es
  | .shuttingDown :: es => triggered .shuttingDown es
  | .shutDown :: es => triggered .shutDown es
  | _ :: es => triggered st es

/-- **C50.** The supervisor asks for its shutdown because of the flag exactly at the looks that find it set, unless it is shutting down anyway. -/
theorem C50_triggered (c : Cfg) (es : List Ev) (s : State) (h : run c .init es = some s) : s.triggers.reverse = triggered .initialized es := by
  suffices key : ∀ (es : List Ev) (s s' : State), run c s es = some s' → s'.triggers.reverse = s.triggers.reverse ++ triggered s.st es by
    simpa [State.init] using key es .init s h
  clear h s es
  intro es
  induction es with
  | nil => intro s s' h; simp only [run, Option.some.injEq] at h; subst h; simp [triggered]
  | cons e es ih =>
    intro s s' h
    simp only [run] at h
    cases h1 : step c s e with
    | none => rw [h1] at h; cases h
    | some s1 =>
      rw [h1] at h
      have g := ih s1 s' h
      rw [g]
      cases e with
      | start t =>
        simp only [step] at h1
        split at h1
        · simp only [Option.some.injEq] at h1; subst h1
          simp only [onStart, triggered]
          split <;> simp
        · cases h1
      | expired t flag =>
        simp only [step] at h1
        split at h1
        · cases h1
        · split at h1
          · simp only [Option.some.injEq] at h1; subst h1
            cases flag <;> simp [onTimer, doShutdown, triggered]
            split <;> simp
          · cases h1
      | cancelled =>
        simp only [step] at h1
        split at h1
        · cases h1
        · simp only [Option.some.injEq] at h1; subst h1; simp [onTimer, triggered]
      | shuttingDown =>
        simp only [step] at h1
        split at h1
        · simp only [Option.some.injEq] at h1; subst h1; simp [triggered]
        · cases h1
      | shutDown =>
        simp only [step] at h1
        split at h1
        · simp only [Option.some.injEq] at h1; subst h1; simp [triggered]
        · cases h1

/-- a case: the flag is found set at the second look, which takes place three units after the first -/
example : (run ⟨true, 3⟩ .init [.start 10, .expired 13 false, .expired 16 true]).map (fun s => (s.polls, s.timer, s.triggers)) =
    some ([(16, true), (13, false)], none, [16]) := by decide

example : Possible ⟨true, 3⟩ [.start 10, .expired 13 false] (.expired 17 true) := ⟨16, by decide, by decide⟩

/-- a case: the supervisor is shutting down when the flag is found set -/
example : (run ⟨true, 3⟩ .init [.start 10, .shuttingDown, .expired 13 true]).map (fun s => (s.polls, s.triggers)) = some ([(13, true)], []) := by
  decide

end Verif.ShutdownFlag
