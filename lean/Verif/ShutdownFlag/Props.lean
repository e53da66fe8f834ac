import Verif.ShutdownFlag.Model

/-!
# Property C50: the external shutdown flag
-/

namespace Verif.ShutdownFlag

/-- consecutive polls are at least `d` apart (newest first) -/
def SpacedDown (d : Int) : List Int → Prop
  | [] => True
  | [_] => True
  | a :: b :: r => b + d ≤ a ∧ SpacedDown d (b :: r)

/-- invariant -/
structure Inv (c : Cfg) (s : State) : Prop where
  /-- the flag was never seen true while polling goes on -/
  armed : s.timer.isSome = true → (∀ p ∈ s.polls, p.2 = false) ∧ s.triggers = []
  /-- before the start nothing happened -/
  fresh : s.st.rank ≤ AState.initialized.rank → s.timer = none ∧ s.polls = [] ∧ s.triggers = []
  /-- only the last poll may have seen it true -/
  tail : ∀ p ∈ s.polls.tail, p.2 = false
  due : ∀ d, s.timer = some d → ∀ p r, s.polls = p :: r → p.1 + c.period = d
  spaced : SpacedDown c.period (s.polls.map (·.1))
  one : s.triggers.length ≤ 1
  reason : ∀ t ∈ s.triggers, ∃ r, s.polls = (t, true) :: r
  flagless : c.hasFlag = false → s.timer = none ∧ s.polls = []

theorem inv_step (c : Cfg) (s s' : State) (e : Ev) (hi : Inv c s) (h : step c s e = some s') : Inv c s' := by
  cases e with
  | start t =>
    simp only [step] at h
    split at h
    case isFalse => simp at h
    rename_i hst
    simp only [Option.some.injEq] at h
    obtain ⟨f1, f2, f3⟩ := hi.fresh (by rw [hst]; exact Nat.le_refl _)
    subst h
    unfold onStart
    split
    · rename_i hf
      refine ⟨?_, ?_, ?_, ?_, ?_, ?_, ?_, ?_⟩ <;> simp [f2, f3, AState.rank, SpacedDown, hf]
    · rename_i hf
      refine ⟨?_, ?_, ?_, ?_, ?_, ?_, ?_, ?_⟩ <;> simp [f1, f2, f3, AState.rank, SpacedDown]
  | expired t flag =>
    simp only [step] at h
    split at h
    case h_1 => simp at h
    rename_i d hd
    split at h
    case isFalse => simp at h
    rename_i hle
    simp only [Option.some.injEq] at h
    obtain ⟨a1, a2⟩ := hi.armed (by simp [hd])
    have hnf : ¬ s.st.rank ≤ AState.initialized.rank := by
      intro hc; have := (hi.fresh hc).1; rw [hd] at this; simp at this
    have hflag : c.hasFlag = true := by
      cases hf : c.hasFlag with
      | true => rfl
      | false => have := (hi.flagless hf).1; rw [hd] at this; simp at this
    have hsp : SpacedDown c.period (((t, flag) :: s.polls).map (·.1)) := by
      cases hp : s.polls with
      | nil => trivial
      | cons p r =>
        have := hi.due d hd p r hp
        have hs := hi.spaced
        rw [hp] at hs
        refine ⟨?_, hs⟩
        simp only; omega
    subst h
    unfold onTimer
    simp only [Bool.false_eq_true, if_false]
    cases flag with
    | true =>
      simp only [if_true, doShutdown]
      split
      · refine ⟨by simp, fun hc => absurd hc hnf, ?_, by simp, hsp, by simp [a2], ?_, ?_⟩
        · intro p hp; exact a1 p hp
        · intro x hx; simp only [a2, List.mem_singleton] at hx; subst hx; exact ⟨_, rfl⟩
        · intro hf; rw [hflag] at hf; simp at hf
      · refine ⟨by simp, fun hc => absurd hc hnf, ?_, by simp, hsp, by simp [a2], by simp [a2], ?_⟩
        · intro p hp; exact a1 p hp
        · intro hf; rw [hflag] at hf; simp at hf
    | false =>
      simp only [Bool.false_eq_true, if_false]
      refine ⟨?_, fun hc => absurd hc hnf, ?_, ?_, hsp, by simp [a2], by simp [a2], ?_⟩
      · intro _
        refine ⟨?_, a2⟩
        intro p hp
        simp only [List.mem_cons] at hp
        rcases hp with rfl | hp
        · rfl
        · exact a1 p hp
      · intro p hp; exact a1 p hp
      · intro d' hd' p r hp
        simp only [Option.some.injEq, List.cons.injEq] at hd' hp
        rw [← hp.1]; exact hd'
      · intro hf; rw [hflag] at hf; simp at hf
  | cancelled =>
    simp only [step] at h
    split at h
    case h_1 => simp at h
    rename_i d hd
    simp only [Option.some.injEq] at h
    have hnf : ¬ s.st.rank ≤ AState.initialized.rank := by
      intro hc; have := (hi.fresh hc).1; rw [hd] at this; simp at this
    subst h
    unfold onTimer
    simp only [if_true]
    exact ⟨by simp, fun hc => absurd hc hnf, hi.tail, by simp, hi.spaced, hi.one, hi.reason, fun hf => ⟨rfl, (hi.flagless hf).2⟩⟩
  | shuttingDown =>
    simp only [step] at h
    split at h
    case isFalse => simp at h
    simp only [Option.some.injEq] at h
    subst h
    exact ⟨hi.armed, by simp [AState.rank], hi.tail, hi.due, hi.spaced, hi.one, hi.reason, hi.flagless⟩
  | shutDown =>
    simp only [step] at h
    split at h
    case isFalse => simp at h
    simp only [Option.some.injEq] at h
    subst h
    exact ⟨hi.armed, by simp [AState.rank], hi.tail, hi.due, hi.spaced, hi.one, hi.reason, hi.flagless⟩

theorem inv_run (c : Cfg) (es : List Ev) (s s' : State) (hi : Inv c s) (h : run c s es = some s') : Inv c s' := by
  induction es generalizing s with
  | nil => simp only [run, Option.some.injEq] at h; subst h; exact hi
  | cons e es ih =>
    simp only [run] at h
    cases hs : step c s e with
    | none => simp [hs] at h
    | some s1 => rw [hs] at h; exact ih s1 (inv_step c s s1 e hi hs) h

theorem inv_init (c : Cfg) : Inv c State.init := by
  refine ⟨?_, ?_, ?_, ?_, ?_, ?_, ?_, ?_⟩ <;> simp [State.init, SpacedDown]

/-- **C50, at most once and only because of the flag.** In any run the supervisor triggers its
shutdown because of the flag at most once, at a poll that saw the flag set, and never polls again;
polls are at least the configured period apart; without a flag there are none. -/
theorem C50_flag_triggers_once (c : Cfg) (es : List Ev) (s : State) (h : run c State.init es = some s) :
    s.triggers.length ≤ 1 ∧ (∀ t ∈ s.triggers, (t, true) ∈ s.polls) ∧
    (∀ p ∈ s.polls, p.2 = true → s.timer = none) ∧
    (s.polls.filter (fun p => p.2)).length ≤ 1 ∧
    SpacedDown c.period (s.polls.map (·.1)) ∧ (c.hasFlag = false → s.polls = []) := by
  have hi := inv_run c es _ _ (inv_init c) h
  refine ⟨hi.one, ?_, ?_, ?_, hi.spaced, fun hf => (hi.flagless hf).2⟩
  · intro t ht; obtain ⟨r, hr⟩ := hi.reason t ht; simp [hr]
  · intro p hp hb
    cases ht : s.timer with
    | none => rfl
    | some d => have := (hi.armed (by simp [ht])).1 p hp; rw [hb] at this; simp at this
  · have htl := hi.tail
    cases hp : s.polls with
    | nil => simp
    | cons p r =>
      rw [hp] at htl
      simp only [List.tail_cons] at htl
      have : r.filter (fun p => p.2) = [] := by
        apply List.filter_eq_nil_iff.2
        intro q hq; simp [htl q hq]
      rw [List.filter_cons]
      split <;> simp [this]

/-- **C50, the next poll notices.** Whenever the poll timer of a supervisor that is not shutting down
expires, a set flag triggers the shutdown at once (and the timer is not armed again), while a clear
flag arms the timer for exactly one period later and triggers nothing. -/
theorem C50_poll_decides (c : Cfg) (s s' : State) (t : Int) (flag : Bool)
    (hst : s.st.rank < AState.shuttingDown.rank) (h : step c s (.expired t flag) = some s') :
    (flag = true → s'.triggers = t :: s.triggers ∧ s'.timer = none) ∧
    (flag = false → s'.triggers = s.triggers ∧ s'.timer = some (t + c.period)) := by
  simp only [step] at h
  split at h
  case h_1 => simp at h
  split at h
  case isFalse => simp at h
  simp only [Option.some.injEq] at h
  subst h
  unfold onTimer doShutdown
  constructor <;> intro hf <;> subst hf <;> simp [hst]

/-- **C50, somebody is watching.** As long as a supervisor with a flag is operational and the timer is
not cancelled, either the poll timer is armed or the shutdown has been triggered. -/
theorem C50_operational_polls (c : Cfg) (hf : c.hasFlag = true) (es : List Ev) (s : State)
    (hnc : Ev.cancelled ∉ es) (h : run c State.init es = some s) (hop : s.st = .operational) :
    s.timer.isSome = true ∨ ∃ t, s.triggers = [t] := by
  have key : ∀ (es : List Ev) (s s' : State), Inv c s → Ev.cancelled ∉ es → run c s es = some s' →
      (s.st = .operational → s.timer.isSome = true ∨ ∃ t, s.triggers = [t]) →
      (s'.st = .operational → s'.timer.isSome = true ∨ ∃ t, s'.triggers = [t]) := by
    intro es
    induction es with
    | nil => intro s s' _ _ h hx; simp only [run, Option.some.injEq] at h; subst h; exact hx
    | cons e es ih =>
      intro s s' hi hnc h hx
      simp only [run] at h
      cases hs : step c s e with
      | none => simp [hs] at h
      | some s1 =>
        rw [hs] at h
        refine ih s1 s' (inv_step c s s1 e hi hs) (by simp_all) h ?_
        intro hop1
        cases e with
        | start t =>
          simp only [step] at hs
          split at hs <;> simp only [Option.some.injEq, reduceCtorEq] at hs
          subst hs; unfold onStart; simp [hf]
        | expired t flag =>
          simp only [step] at hs
          split at hs
          case h_1 => simp at hs
          rename_i d hd
          split at hs <;> simp only [Option.some.injEq, reduceCtorEq] at hs
          have htr := (hi.armed (by simp [hd])).2
          subst hs
          unfold onTimer doShutdown at hop1 ⊢
          simp only [Bool.false_eq_true, if_false] at hop1 ⊢
          cases flag with
          | false => simp
          | true =>
            simp only [if_true] at hop1 ⊢
            split
            · right; exact ⟨t, by simp [htr]⟩
            · rename_i hge
              rw [if_neg hge] at hop1
              simp only at hop1
              rw [hop1] at hge; simp [AState.rank] at hge
        | cancelled => simp at hnc
        | shuttingDown =>
          simp only [step] at hs
          split at hs <;> simp only [Option.some.injEq, reduceCtorEq] at hs
          subst hs; simp at hop1
        | shutDown =>
          simp only [step] at hs
          split at hs <;> simp only [Option.some.injEq, reduceCtorEq] at hs
          subst hs; simp at hop1
  exact key es _ _ (inv_init c) hnc h (by simp [State.init]) hop

example : ∃ s, run ⟨true, 100⟩ State.init [.start 0, .expired 100 false, .expired 230 true, .shuttingDown] = some s ∧
    s.triggers = [230] ∧ s.polls = [(230, true), (100, false)] := ⟨_, rfl, rfl, rfl⟩

/-- The flag is only watched from `on_start` on: set while the supervisor is still initializing, it has
no effect until (and unless) the supervisor starts. -/
theorem C50_not_polled_before_start (c : Cfg) (t : Int) (flag : Bool) : step c State.init (.expired t flag) = none := rfl

end Verif.ShutdownFlag
