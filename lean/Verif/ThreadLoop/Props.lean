import Verif.ThreadLoop.Model

/-!
# Properties C17 and C18: the event loop of the thread backend
-/

namespace Verif.ThreadLoop

theorem upd_same {α : Type} (f : Nat → α) (i : Nat) (v : α) : upd f i v i = v := by simp [upd]
theorem upd_ne {α : Type} (f : Nat → α) {i j : Nat} (v : α) (h : j ≠ i) : upd f i v j = f j := by simp [upd, h]

theorem front_le (l : List Int) (t : Int) (h : t ∈ l) : ∃ u, front l = some u ∧ u ≤ t := by
  induction l with
  | nil => simp at h
  | cons x l ih =>
    simp only [List.mem_cons] at h
    simp only [front]
    rcases h with rfl | h
    · cases front l with
      | none => exact ⟨t, rfl, Int.le_refl _⟩
      | some u => refine ⟨_, rfl, ?_⟩; split <;> omega
    · obtain ⟨u, h1, h2⟩ := ih h
      rw [h1]
      refine ⟨_, rfl, ?_⟩; split <;> omega

theorem waitDeadline_le (c : Int) (l : List Int) (t : Int) (h : t ∈ l) : waitDeadline c l ≤ t := by
  obtain ⟨u, h1, h2⟩ := front_le l t h
  simp [waitDeadline, h1, h2]

/-- a thread that still has to notify -/
def Busy (p : Ppc) : Prop := p = .pushed ∨ p = .locked

/-- the loop holds the mutex -/
def Pc.holds : Pc → Bool
  | .check | .wait _ | .recheck _ _ => true
  | _ => false

/-- the deadline of the wait -/
def Pc.wakeAt : Pc → Option Int
  | .wait d | .asleep d _ | .relock d _ | .recheck d _ => some d
  | _ => none

structure Inv (s : State) : Prop where
  /-- mutual exclusion -/
  loopOwns : s.mutex = .loop ↔ s.pc.holds = true
  threadOwns : ∀ i, s.mutex = .thread i ↔ (s.threads i = .locked ∨ s.threads i = .notified)
  /-- no lost wake-up -/
  wake : ∀ d, s.pc = .asleep d false → s.inbound ≠ [] → ∃ i, Busy (s.threads i)
  wake2 : ∀ d, s.pc = .wait d → s.inbound ≠ [] → ∃ i, s.threads i = .pushed
  deadline : ∀ d, s.pc.wakeAt = some d → ∀ t ∈ s.timers, d ≤ t

theorem inv_init (c : Int) : Inv (State.init c) := by
  constructor <;> simp [State.init, Pc.holds, Pc.wakeAt]

theorem inv_step (poll : Int) (s s' : State) (l : Label) (hi : Inv s) (h : step poll s l = some s') : Inv s' := by
  cases l with
  | tick d =>
    simp only [step, Option.some.injEq] at h
    subst h
    exact ⟨hi.loopOwns, hi.threadOwns, hi.wake, hi.wake2, hi.deadline⟩
  | push i m dest =>
    simp only [step, pushStep] at h
    split at h
    case isFalse => simp at h
    rename_i hidle
    have hthr : ∀ j, s.mutex = .thread j ↔ (upd s.threads i Ppc.pushed j = .locked ∨ upd s.threads i Ppc.pushed j = .notified) := by
      intro j
      rw [hi.threadOwns j]
      by_cases hj : j = i
      · subst hj; simp [upd_same, hidle]
      · rw [upd_ne _ _ hj]
    cases dest with
    | none =>
      simp only [Option.some.injEq] at h
      subst h
      exact ⟨hi.loopOwns, hthr, fun d _ _ => ⟨i, by simp [upd_same, Busy]⟩, fun d _ _ => ⟨i, by simp [upd_same]⟩, hi.deadline⟩
    | some k =>
      simp only [Option.some.injEq] at h
      subst h
      exact ⟨hi.loopOwns, hthr, fun d _ _ => ⟨i, by simp [upd_same, Busy]⟩, fun d _ _ => ⟨i, by simp [upd_same]⟩, hi.deadline⟩
  | thread i =>
    simp only [step, threadStep] at h
    split at h
    · simp at h
    · -- lock
      rename_i hp
      split at h
      case isFalse => simp at h
      rename_i hmu
      simp only [Option.some.injEq] at h
      subst h
      have hlo : s.pc.holds = false := by
        have := hi.loopOwns; rw [hmu] at this; simpa using this
      refine ⟨?_, ?_, ?_, ?_, hi.deadline⟩
      · simp [hlo]
      · intro j
        have := hi.threadOwns j
        rw [hmu] at this
        simp only [reduceCtorEq, false_iff] at this
        by_cases hj : j = i
        · subst hj; simp [upd_same]
        · simp only [upd_ne _ _ hj, Owner.thread.injEq]
          constructor
          · intro he; exact absurd he.symm hj
          · intro he; exact absurd he this
      · intro d _ _; exact ⟨i, by simp [upd_same, Busy]⟩
      · intro d hw; simp only at hw; rw [hw] at hlo; cases hlo
    · -- notify
      rename_i hp
      simp only [Option.some.injEq] at h
      have hown := (hi.threadOwns i).2 (.inl hp)
      have hth : ∀ j, s.mutex = .thread j ↔ (upd s.threads i Ppc.notified j = .locked ∨ upd s.threads i Ppc.notified j = .notified) := by
        intro j
        rw [hi.threadOwns j]
        by_cases hj : j = i
        · subst hj; simp [upd_same, hp]
        · rw [upd_ne _ _ hj]
      have hlo : s.pc.holds = false := by
        have := hi.loopOwns; rw [hown] at this; simpa using this
      have hdl := hi.deadline
      subst h
      cases hpc : s.pc <;> simp only [hpc, Pc.holds, Pc.wakeAt] at hlo hdl ⊢ <;>
        first
          | (cases hlo; done)
          | exact ⟨by simp [hown, Pc.holds], hth, by simp, by simp, by simpa [Pc.wakeAt] using hdl⟩
    · -- unlock
      rename_i hp
      simp only [Option.some.injEq] at h
      have hown := (hi.threadOwns i).2 (.inr hp)
      have hlo : s.pc.holds = false := by
        have := hi.loopOwns; rw [hown] at this; simpa using this
      subst h
      refine ⟨?_, ?_, ?_, ?_, hi.deadline⟩
      · simp [hlo]
      · intro j
        have := hi.threadOwns j
        rw [hown] at this
        by_cases hj : j = i
        · subst hj; simp [upd_same]
        · simp only [upd_ne _ _ hj, reduceCtorEq, false_iff]
          intro he
          have := this.2 he
          simp only [Owner.thread.injEq] at this
          exact hj this.symm
      · intro d h1 h2
        obtain ⟨j, hj⟩ := hi.wake d h1 h2
        refine ⟨j, ?_⟩
        have : j ≠ i := by intro he; subst he; rw [hp] at hj; simp [Busy] at hj
        simp only [upd_ne _ _ this]; exact hj
      · intro d hw; simp only at hw; rw [hw] at hlo; cases hlo
  | loop ms ts sp st =>
    simp only [step, loopStep] at h
    have hlo := hi.loopOwns
    have hth := hi.threadOwns
    have hdl := hi.deadline
    cases hpc : s.pc <;> simp only [hpc, Pc.holds, Pc.wakeAt] at h hlo hdl
    case process =>
      simp only [Option.some.injEq] at h; subst h
      cases hd : (s.down || st) <;> exact ⟨by simpa [Pc.holds] using hlo, hth, by simp, by simp, by simp [Pc.wakeAt]⟩
    case update =>
      simp only [Option.some.injEq] at h; subst h
      cases hd : (s.down || st) <;> exact ⟨by simpa [Pc.holds] using hlo, hth, by simp, by simp, by simp [Pc.wakeAt]⟩
    case decide =>
      simp only [Option.some.injEq] at h; subst h
      by_cases hq : s.queue = [] <;> simp only [hq, if_true, if_false] <;>
        exact ⟨by simpa [Pc.holds] using hlo, hth, by simp, by simp, by simp [Pc.wakeAt]⟩
    case last =>
      simp only [Option.some.injEq] at h; subst h
      exact ⟨by simpa [Pc.holds] using hlo, hth, by simp, by simp, by simp [Pc.wakeAt]⟩
    case returned => cases h
    case pop =>
      split at h
      · simp only [Option.some.injEq] at h; subst h
        exact ⟨by simpa [Pc.holds, hpc] using hlo, hth, by simp [hpc], by simp [hpc], by simp [Pc.wakeAt, hpc]⟩
      · split at h <;> (simp only [Option.some.injEq] at h; subst h) <;>
          exact ⟨by simpa [Pc.holds] using hlo, hth, by simp, by simp, by simp [Pc.wakeAt]⟩
    case spin u =>
      split at h
      · split at h <;> (simp only [Option.some.injEq] at h; subst h)
        · exact ⟨by simpa [Pc.holds] using hlo, hth, by simp, by simp, by simp [Pc.wakeAt]⟩
        · exact ⟨by simpa [Pc.holds, hpc] using hlo, hth, by simp [hpc], by simp [hpc], by simp [Pc.wakeAt, hpc]⟩
      · split at h <;> (simp only [Option.some.injEq] at h; subst h)
        · exact hi
        · exact ⟨by simpa [Pc.holds] using hlo, hth, by simp, by simp, by simp [Pc.wakeAt]⟩
    case lock =>
      split at h
      · rename_i hmu
        simp only [Option.some.injEq] at h; subst h
        rw [hmu] at hth
        exact ⟨by simp [Pc.holds], by simpa using hth, by simp, by simp, by simp [Pc.wakeAt]⟩
      · cases h
    case check =>
      have hmu : s.mutex = .loop := hlo.2 trivial
      rw [hmu] at hth
      split at h <;> (simp only [Option.some.injEq] at h; subst h)
      · exact ⟨by simp [Pc.holds], by simpa using hth, by simp, by simp, by simp [Pc.wakeAt]⟩
      · rename_i hin
        refine ⟨by simp [Pc.holds, hmu], by simpa [hmu] using hth, by simp, fun d _ hne => absurd hne hin, ?_⟩
        intro d he t ht
        simp only [Pc.wakeAt, Option.some.injEq] at he
        rw [← he]; exact waitDeadline_le _ _ _ ht
    case wait d =>
      have hmu : s.mutex = .loop := hlo.2 trivial
      rw [hmu] at hth
      simp only [Option.some.injEq] at h; subst h
      refine ⟨by simp [Pc.holds], by simpa using hth, fun d' he hne => ?_, by simp, by simpa [Pc.wakeAt] using hdl⟩
      obtain ⟨i, hw⟩ := hi.wake2 d hpc hne
      exact ⟨i, .inl hw⟩
    case asleep d n =>
      (repeat' split at h) <;> simp only [Option.some.injEq, reduceCtorEq] at h <;>
        (subst h; exact ⟨by simpa [Pc.holds] using hlo, hth, by simp, by simp, by simpa [Pc.wakeAt] using hdl⟩)
    case relock d n =>
      split at h
      · rename_i hmu
        simp only [Option.some.injEq] at h; subst h
        rw [hmu] at hth
        exact ⟨by simp [Pc.holds], by simpa using hth, by simp, by simp, by simpa [Pc.wakeAt] using hdl⟩
      · cases h
    case recheck d n =>
      have hmu : s.mutex = .loop := hlo.2 trivial
      rw [hmu] at hth
      split at h <;> (simp only [Option.some.injEq] at h; subst h)
      · exact ⟨by simp [Pc.holds], by simpa using hth, by simp, by simp, by simp [Pc.wakeAt]⟩
      · rename_i hin
        simp only [not_or, ne_eq, Decidable.not_not] at hin
        exact ⟨by simp [Pc.holds, hmu], by simpa [hmu] using hth, by simp, fun d _ hne => absurd hin.1 hne, by simpa [Pc.wakeAt] using hdl⟩

theorem inv_run (poll : Int) (ls : List Label) (s s' : State) (hi : Inv s) (h : run poll s ls = some s') : Inv s' := by
  induction ls generalizing s with
  | nil => simp only [run, Option.some.injEq] at h; subst h; exact hi
  | cons e es ih =>
    simp only [run] at h
    cases hs : step poll s e with
    | none => simp [hs] at h
    | some s1 => rw [hs] at h; exact ih s1 (inv_step poll s s1 e hi hs) h

/-- **C17, no lost wake-up.** In every interleaving of any number of sending threads with the loop:
when the loop sleeps without having been notified and a message is waiting, then some thread is still
on its way to notify it.  In particular when all threads have returned from `enqueue`, the loop does
not sleep (un-notified) on a waiting message. -/
theorem C17_no_lost_wakeup (poll : Int) (c : Int) (ls : List Label) (s : State)
    (h : run poll (State.init c) ls = some s) (d : Int) (hs : s.pc = .asleep d false) (hin : s.inbound ≠ []) :
    ∃ i, s.threads i = .pushed ∨ s.threads i = .locked :=
  (inv_run poll ls _ _ (inv_init c) h).wake d hs hin

/-- **C17, no oversleeping.** While the loop sleeps, its wake-up time is not later than the deadline of
any pending timer; when that time has come the loop can go on without anybody's help, unless the mutex
is held, which happens only for a thread in the middle of `enqueue`. -/
theorem C17_no_oversleep (poll : Int) (c : Int) (ls : List Label) (s : State)
    (h : run poll (State.init c) ls = some s) (d : Int) (n : Bool) (hs : s.pc = .asleep d n) :
    (∀ t ∈ s.timers, d ≤ t) ∧
    (d ≤ s.clock → ∃ s' b, loopStep poll s [] [] false false = some s' ∧ s'.pc = .relock d b ∧
      ((∀ i, s.threads i = .idle) → ∃ s₁ s₂, loopStep poll s' [] [] false false = some s₁ ∧
        loopStep poll s₁ [] [] false false = some s₂ ∧ (n = false → s₂.pc = .update))) := by
  have hi := inv_run poll ls _ _ (inv_init c) h
  refine ⟨hi.deadline d (by simp [hs, Pc.wakeAt]), fun hd => ?_⟩
  have hfree : (∀ i, s.threads i = .idle) → s.mutex = .nobody := by
    intro hidle
    cases hm : s.mutex with
    | nobody => rfl
    | loop => have := hi.loopOwns.1 hm; rw [hs] at this; cases this
    | thread j => have := (hi.threadOwns j).1 hm; rw [hidle j] at this; simp at this
  cases n with
  | true =>
    refine ⟨{ s with pc := .relock d false }, false, by simp [loopStep, hs], rfl, ?_⟩
    intro hidle
    refine ⟨{ s with pc := .recheck d false, mutex := .loop }, ?_⟩
    simp only [loopStep, hfree hidle, if_true, true_and]
    split
    · exact ⟨_, rfl, by simp⟩
    · exact ⟨_, rfl, by simp⟩
  | false =>
    refine ⟨{ s with pc := .relock d true }, true, by simp [loopStep, hs, hd], rfl, ?_⟩
    intro hidle
    refine ⟨{ s with pc := .recheck d true, mutex := .loop }, ?_⟩
    simp only [loopStep, hfree hidle, if_true, or_true, true_and]
    exact ⟨_, rfl, fun _ => rfl⟩

/-- steps of the loop until it polls the inbound queue -/
def rank : Pc → Nat
  | .pop => 0 | .spin _ => 6 | .process => 1 | .update => 2 | .check => 3 | .recheck _ _ => 3 | .relock _ _ => 4
  | .lock => 4 | .asleep _ _ => 5 | .wait _ => 6 | .decide => 5 | .last => 0 | .returned => 0

/-- steps of the loop alone; what handlers and callbacks leave behind is arbitrary, but they do not shut down the root supervisor -/
def loopRun (poll : Int) (s : State) : List (List Nat × List Int × Bool) → Option State
  | [] => some s
  | (ms, ts, sp) :: ls => match loopStep poll s ms ts sp false with
    | none => none
    | some s' => loopRun poll s' ls

/-- the loop ends when the root supervisor is shut down -/
def Down (s : State) : Prop := s.down = true ↔ s.pc = .last ∨ s.pc = .returned

theorem down_init (c : Int) : Down (State.init c) := by simp [Down, State.init]

theorem down_step (poll : Int) (s s' : State) (l : Label) (hi : Down s) (h : step poll s l = some s') : Down s' := by
  unfold Down at hi ⊢
  cases l with
  | tick d => simp only [step, Option.some.injEq] at h; subst h; exact hi
  | push i m dest =>
    simp only [step, pushStep] at h
    split at h
    · cases dest <;> (simp only [Option.some.injEq] at h; subst h; exact hi)
    · simp at h
  | thread i =>
    simp only [step, threadStep] at h
    (repeat' split at h) <;> simp only [Option.some.injEq, reduceCtorEq] at h <;> (subst h; simp_all)
  | loop ms ts sp st =>
    simp only [step, loopStep] at h
    cases hpc : s.pc <;> simp only [hpc] at h hi
    case process => simp only [Option.some.injEq] at h; subst h; simp only; split <;> simp_all
    case update => simp only [Option.some.injEq] at h; subst h; simp only; split <;> simp_all
    case decide => simp only [Option.some.injEq] at h; subst h; simp only; split <;> simp_all
    all_goals
      (repeat' split at h) <;> simp only [Option.some.injEq, reduceCtorEq] at h <;> (subst h; simp_all)

theorem down_run (poll : Int) (ls : List Label) (s s' : State) (hi : Down s) (h : run poll s ls = some s') : Down s' := by
  induction ls generalizing s with
  | nil => simp only [run, Option.some.injEq] at h; subst h; exact hi
  | cons e es ih =>
    simp only [run] at h
    cases hs : step poll s e with
    | none => simp [hs] at h
    | some s1 => rw [hs] at h; exact ih s1 (down_step poll s s1 e hi hs) h

/-- **C17/C18, a message for the root supervisor is taken.** From any reachable state in which all
senders have returned from `enqueue` and the root supervisor is not shut down, the loop alone moves all the waiting messages of the root
supervisor into its own queue: it is never stuck, and after at most `inbound + 6` of its steps (its choices being arbitrary) (if it
is not interrupted by new messages) the inbound queue is empty. -/
theorem C17_message_is_taken (poll : Int) (c : Int) (ls : List Label) (s : State)
    (h : run poll (State.init c) ls = some s) (hidle : ∀ i, s.threads i = .idle) (hup : s.down = false) (hin : s.inbound ≠ [])
    (ch : List (List Nat × List Int × Bool)) (hlen : s.inbound.length + rank s.pc ≤ ch.length) :
    ∃ k s', loopRun poll s (ch.take k) = some s' ∧ s'.inbound = [] ∧ s.inbound.map .outside ⊆ s'.queue := by
  have hi := inv_run poll ls _ _ (inv_init c) h
  -- generalize: what is already in the queue
  have key : ∀ (n : Nat) (s : State) (ch : List (List Nat × List Int × Bool)) (got : List Msg), Inv s →
      (∀ i, s.threads i = .idle) → s.down = false → Down s → s.inbound ≠ [] → s.inbound.length + rank s.pc ≤ n → n ≤ ch.length →
      (got ⊆ s.queue ∧ (got ≠ [] → s.pc = .pop ∨ ∃ u, s.pc = .spin u)) →
      ∃ k s', loopRun poll s (ch.take k) = some s' ∧ s'.inbound = [] ∧ s.inbound.map .outside ⊆ s'.queue ∧ got ⊆ s'.queue := by
    intro n
    induction n with
    | zero =>
      intro s ch got hi hidle hup hdn hin hn _ _
      have : s.inbound.length = 0 := by omega
      exact absurd (List.length_eq_zero_iff.1 this) hin
    | succ n ih =>
      intro s ch got hi hidle hup hdn hin hn hch hgot
      cases ch with
      | nil => simp at hch
      | cons c0 ch =>
        obtain ⟨ms, ts, sp⟩ := c0
        simp only [List.length_cons] at hch
        have hmu : ¬ s.pc.holds = true → s.mutex = .nobody := by
          intro hne
          cases hm : s.mutex with
          | nobody => rfl
          | loop => exact absurd (hi.loopOwns.1 hm) hne
          | thread j => have := (hi.threadOwns j).1 hm; rw [hidle j] at this; simp at this
        -- one step that does not touch the inbound queue
        have go : ∀ s1, loopStep poll s ms ts sp false = some s1 → s1.inbound = s.inbound → s1.threads = s.threads → s1.down = false →
            rank s1.pc < rank s.pc → got = [] →
            ∃ k s', loopRun poll s (((ms, ts, sp) :: ch).take k) = some s' ∧ s'.inbound = [] ∧
              s.inbound.map .outside ⊆ s'.queue ∧ got ⊆ s'.queue := by
          intro s1 h1 h2 h3 hd1 h4 h5
          have hi1 : Inv s1 := inv_step poll s s1 (.loop ms ts sp false) hi h1
          obtain ⟨k, s', a1, a2, a3, a4⟩ := ih s1 ch [] hi1 (by rw [h3]; exact hidle) hd1 (down_step poll s s1 (.loop ms ts sp false) hdn h1) (by rw [h2]; exact hin)
            (by rw [h2]; omega) (by omega) (by simp)
          refine ⟨k + 1, s', ?_, a2, by rw [← h2]; exact a3, by rw [h5]; simp⟩
          simp only [List.take_succ_cons, loopRun, h1]; exact a1
        -- a step that takes a message
        have take : ∀ m r, s.inbound = m :: r → loopStep poll s ms ts sp false = some { s with inbound := r, queue := s.queue ++ [.outside m] } →
            (s.pc = .pop ∨ ∃ u, s.pc = .spin u) →
            ∃ k s', loopRun poll s (((ms, ts, sp) :: ch).take k) = some s' ∧ s'.inbound = [] ∧
              s.inbound.map .outside ⊆ s'.queue ∧ got ⊆ s'.queue := by
          intro m r hmr h1 hpc
          by_cases hr : r = []
          · refine ⟨1, { s with inbound := r, queue := s.queue ++ [.outside m] }, ?_, hr, ?_, ?_⟩
            · simp only [List.take_succ_cons, List.take_zero, loopRun, h1]
            · rw [hmr, hr]; intro x hx; simp at hx; simp [hx]
            · intro x hx; simp [hgot.1 hx]
          · have hi1 := inv_step poll s _ (.loop ms ts sp false) hi h1
            obtain ⟨k, s', a1, a2, a3, a4⟩ := ih { s with inbound := r, queue := s.queue ++ [.outside m] } ch (.outside m :: got) hi1 hidle hup (down_step poll s _ (.loop ms ts sp false) hdn h1) hr
              (by
                rw [hmr] at hn
                simp only [List.length_cons] at hn
                simp only
                omega) (by omega)
              ⟨by intro x hx
                  simp only [List.mem_cons] at hx
                  rcases hx with rfl | hx
                  · simp
                  · simp [hgot.1 hx], fun _ => hpc⟩
            refine ⟨k + 1, s', ?_, a2, ?_, ?_⟩
            · simp only [List.take_succ_cons, loopRun, h1]; exact a1
            · rw [hmr]
              intro x hx
              simp only [List.map_cons, List.mem_cons] at hx
              rcases hx with rfl | hx
              · exact a4 (by simp)
              · exact a3 hx
            · intro x hx; exact a4 (by simp [hx])
        have hg0 : ¬ (s.pc = .pop ∨ ∃ u, s.pc = .spin u) → got = [] := by
          intro hne
          cases got with
          | nil => rfl
          | cons g gs => exact absurd (hgot.2 (by simp)) hne
        cases hpc : s.pc with
        | pop =>
          obtain ⟨m, r, hmr⟩ := List.exists_cons_of_ne_nil hin
          exact take m r hmr (by simp [loopStep, hpc, hmr]) (.inl hpc)
        | spin u =>
          obtain ⟨m, r, hmr⟩ := List.exists_cons_of_ne_nil hin
          by_cases hq : s.queue = [] ∧ ¬ s.clock < u
          · refine go { s with pc := .decide } (by simp only [loopStep, hpc, hmr]; rw [if_pos hq]) rfl rfl hup (by simp [rank, hpc]) ?_
            have := hgot.1
            rw [hq.1] at this
            exact List.subset_nil.1 this
          · exact take m r hmr (by simp only [loopStep, hpc, hmr]; rw [if_neg hq]) (.inr ⟨u, hpc⟩)
        | process =>
          exact go { s with pc := .pop, queue := [], taken := s.taken ++ s.queue, timers := ts } (by simp [loopStep, hpc, hup]) rfl rfl hup (by simp [rank, hpc]) (hg0 (by simp [hpc]))
        | decide =>
          exact go { s with pc := if s.queue = [] then .lock else .update } (by simp only [loopStep, hpc]) rfl rfl hup
            (by simp only [hpc]; split <;> simp [rank]) (hg0 (by simp [hpc]))
        | lock =>
          have := hmu (by simp [hpc, Pc.holds])
          exact go { s with pc := .check, mutex := .loop } (by simp [loopStep, hpc, this]) rfl rfl hup (by simp [rank, hpc]) (hg0 (by simp [hpc]))
        | check =>
          exact go { s with pc := .update, mutex := .nobody } (by simp [loopStep, hpc, hin]) rfl rfl hup (by simp [rank, hpc]) (hg0 (by simp [hpc]))
        | asleep d n =>
          have hnb : n = true := by
            cases n with
            | true => rfl
            | false =>
              obtain ⟨i, hb⟩ := hi.wake d hpc hin
              rw [hidle i] at hb; simp [Busy] at hb
          subst hnb
          exact go { s with pc := .relock d false } (by simp [loopStep, hpc]) rfl rfl hup (by simp [rank, hpc]) (hg0 (by simp [hpc]))
        | relock d t =>
          have := hmu (by simp [hpc, Pc.holds])
          exact go { s with pc := .recheck d t, mutex := .loop } (by simp [loopStep, hpc, this]) rfl rfl hup (by simp [rank, hpc]) (hg0 (by simp [hpc]))
        | recheck d t =>
          exact go { s with pc := .update, mutex := .nobody } (by simp [loopStep, hpc, hin]) rfl rfl hup (by simp [rank, hpc]) (hg0 (by simp [hpc]))
        | wait d =>
          obtain ⟨i, hb⟩ := hi.wake2 d hpc hin
          rw [hidle i] at hb; cases hb
        | update =>
          exact go { s with pc := .process, queue := s.queue ++ ms.map .inside, timers := ts } (by simp [loopStep, hpc, hup]) rfl rfl hup (by simp [rank, hpc]) (hg0 (by simp [hpc]))
        | last => exact absurd (hdn.2 (.inl hpc)) (by simp [hup])
        | returned => exact absurd (hdn.2 (.inr hpc)) (by simp [hup])
  obtain ⟨k, s', a1, a2, a3, _⟩ := key (s.inbound.length + rank s.pc) s ch [] hi hidle hup (down_run poll ls _ _ (down_init c) h) hin (Nat.le_refl _) hlen (by simp)
  exact ⟨k, s', a1, a2, a3⟩

/-- the messages of other threads in a queue -/
def outsiders (q : List Msg) : List Nat := q.filterMap (fun | .outside m => some m | .inside _ => none)

/-- the messages pushed for the root supervisor, in order -/
def pushed (ls : List Label) : List Nat := ls.filterMap (fun | .push _ m none => some m | _ => none)

theorem outsiders_append (a b : List Msg) : outsiders (a ++ b) = outsiders a ++ outsiders b := by simp [outsiders]
theorem outsiders_inside (a : List Nat) : outsiders (a.map .inside) = [] := by
  induction a with
  | nil => rfl
  | cons x a ih => simp [outsiders]
theorem outsiders_one (m : Nat) : outsiders [.outside m] = [m] := rfl

theorem account_step (poll : Int) (s s1 : State) (l : Label) (hs : step poll s l = some s1) :
    outsiders s1.taken ++ outsiders s1.queue ++ s1.inbound =
      (outsiders s.taken ++ outsiders s.queue ++ s.inbound) ++ pushed [l] := by
  cases l with
  | tick d => simp only [step, Option.some.injEq] at hs; subst hs; simp [pushed]
  | push i m dest =>
    simp only [step, pushStep] at hs
    split at hs
    · cases dest <;> (simp only [Option.some.injEq] at hs; subst hs; simp [pushed])
    · simp at hs
  | thread i =>
    simp only [step, threadStep] at hs
    (repeat' split at hs) <;> simp only [Option.some.injEq, reduceCtorEq] at hs <;> (subst hs; simp [pushed])
  | loop ms ts sp st =>
    have hp : pushed [.loop ms ts sp st] = [] := rfl
    rw [hp, List.append_nil]
    simp only [step, loopStep] at hs
    split at hs
    · simp only [Option.some.injEq] at hs; subst hs; simp [outsiders]
    · split at hs
      · rename_i hin
        simp only [Option.some.injEq] at hs; subst hs; rw [hin]; simp [outsiders_append, outsiders_one]
      · split at hs <;> (simp only [Option.some.injEq] at hs; subst hs; rfl)
    · split at hs
      · rename_i hin
        split at hs
        · simp only [Option.some.injEq] at hs; subst hs; rfl
        · simp only [Option.some.injEq] at hs; subst hs; rw [hin]; simp [outsiders_append, outsiders_one]
      · split at hs <;> (simp only [Option.some.injEq] at hs; subst hs; rfl)
    · simp only [Option.some.injEq] at hs; subst hs; rfl
    · split at hs
      · simp only [Option.some.injEq] at hs; subst hs; rfl
      · simp at hs
    · split at hs <;> (simp only [Option.some.injEq] at hs; subst hs; rfl)
    · simp only [Option.some.injEq] at hs; subst hs; rfl
    · (repeat' split at hs) <;> simp only [Option.some.injEq, reduceCtorEq] at hs <;> (subst hs; rfl)
    · (repeat' split at hs) <;> simp only [Option.some.injEq, reduceCtorEq] at hs <;> (subst hs; rfl)
    · (repeat' split at hs) <;> simp only [Option.some.injEq, reduceCtorEq] at hs <;> (subst hs; rfl)
    · simp only [Option.some.injEq] at hs; subst hs; simp [outsiders_append, outsiders_inside]
    · simp only [Option.some.injEq] at hs; subst hs; simp [outsiders]
    · simp at hs

/-- **C18 (partial: root supervisor only; for nested supervisors it fails, see below).** In every
interleaving the messages other threads have sent to the root supervisor are, in the order of the
pushes: those dispatched, then those in the queue of the loop, then those in the inbound queue.  So
nothing is lost, duplicated, invented or overtaken on the way.  Together with `C17_message_is_taken`
every message arrives. -/
theorem C18_root_messages_in_order_partial (poll : Int) (c : Int) (ls : List Label) (s : State)
    (h : run poll (State.init c) ls = some s) :
    outsiders s.taken ++ outsiders s.queue ++ s.inbound = pushed ls := by
  have key : ∀ (ls : List Label) (s s' : State), run poll s ls = some s' →
      outsiders s'.taken ++ outsiders s'.queue ++ s'.inbound =
        (outsiders s.taken ++ outsiders s.queue ++ s.inbound) ++ pushed ls := by
    intro ls
    induction ls with
    | nil => intro s s' h; simp only [run, Option.some.injEq] at h; subst h; simp [pushed]
    | cons l ls ih =>
      intro s s' h
      simp only [run] at h
      cases hs : step poll s l with
      | none => simp [hs] at h
      | some s1 =>
        rw [hs] at h
        rw [ih s1 s' h, account_step poll s s1 l hs, List.append_assoc]
        congr 1
        have : l :: ls = [l] ++ ls := rfl
        rw [this, pushed, pushed, pushed, List.filterMap_append]
  have := key ls _ s h
  simpa [State.init, outsiders] using this

/-- **C18 fails for nested supervisors:** a message for a nested supervisor is never taken, by no step of
the loop, whatever happens later. -/
theorem C18_nested_never_taken_counterexample (poll : Int) (c : Int) (ls : List Label) (s : State)
    (h : run poll (State.init c) ls = some s) (i m k : Nat) (hm : Label.push i m (some k) ∈ ls) : m ∈ s.nested k := by
  have mono : ∀ (ls : List Label) (s s' : State), run poll s ls = some s' → ∀ k x, x ∈ s.nested k → x ∈ s'.nested k := by
    intro ls
    induction ls with
    | nil => intro s s' h k x hx; simp only [run, Option.some.injEq] at h; subst h; exact hx
    | cons l ls ih =>
      intro s s' h k x hx
      simp only [run] at h
      cases hs : step poll s l with
      | none => simp [hs] at h
      | some s1 =>
        rw [hs] at h
        refine ih s1 s' h k x ?_
        cases l with
        | tick d => simp only [step, Option.some.injEq] at hs; subst hs; exact hx
        | push i m dest =>
          simp only [step, pushStep] at hs
          split at hs
          · cases dest with
            | none => simp only [Option.some.injEq] at hs; subst hs; exact hx
            | some j =>
              simp only [Option.some.injEq] at hs; subst hs
              by_cases hj : k = j
              · subst hj; simp [upd_same, hx]
              · simp only [upd_ne _ _ hj]; exact hx
          · simp at hs
        | thread i =>
          simp only [step, threadStep] at hs
          (repeat' split at hs) <;> simp only [Option.some.injEq, reduceCtorEq] at hs <;> (subst hs; exact hx)
        | loop ms ts sp st =>
          simp only [step, loopStep] at hs
          (repeat' split at hs) <;> simp only [Option.some.injEq, reduceCtorEq] at hs <;> (subst hs; exact hx)
  have key : ∀ (ls : List Label) (s s' : State), run poll s ls = some s' → Label.push i m (some k) ∈ ls → m ∈ s'.nested k := by
    intro ls
    induction ls with
    | nil => intro s s' _ hm; simp at hm
    | cons l ls ih =>
      intro s s' h hm
      simp only [run] at h
      cases hs : step poll s l with
      | none => simp [hs] at h
      | some s1 =>
        rw [hs] at h
        simp only [List.mem_cons] at hm
        rcases hm with rfl | hm
        · apply mono ls s1 s' h
          simp only [step, pushStep] at hs
          split at hs
          · simp only [Option.some.injEq] at hs; subst hs; simp [upd_same]
          · simp at hs
        · exact ih s1 s' h hm
  exact key ls _ s h hm

/-- **C70** `run` does not return before the root supervisor has shut down, and not before everything in the queue of the locality has been dispatched. -/
theorem C70_not_early (poll : Int) (c : Int) (ls : List Label) (s : State) (h : run poll (State.init c) ls = some s) (hr : s.pc = .returned) :
    s.down = true ∧ s.queue = [] := by
  refine ⟨(down_run poll ls _ _ (down_init c) h).2 (.inr hr), ?_⟩
  have key : ∀ (ls : List Label) (s s' : State), (s.pc = .returned → s.queue = []) → run poll s ls = some s' → s'.pc = .returned → s'.queue = [] := by
    intro ls
    induction ls with
    | nil => intro s s' hq e; simp only [run, Option.some.injEq] at e; subst e; exact hq
    | cons l ls ih =>
      intro s s' hq e
      simp only [run] at e
      cases hs : step poll s l with
      | none => simp [hs] at e
      | some s1 =>
        rw [hs] at e
        refine ih s1 s' ?_ e
        cases l with
        | tick d => simp only [step, Option.some.injEq] at hs; subst hs; exact hq
        | push i m dest =>
          simp only [step, pushStep] at hs
          split at hs
          · cases dest <;> (simp only [Option.some.injEq] at hs; subst hs; exact hq)
          · simp at hs
        | thread i =>
          simp only [step, threadStep] at hs
          (repeat' split at hs) <;> simp only [Option.some.injEq, reduceCtorEq] at hs <;> (subst hs; simp_all)
        | loop ms ts sp st =>
          simp only [step, loopStep] at hs
          cases hpc : s.pc <;> simp only [hpc] at hs hq
          case process => simp only [Option.some.injEq] at hs; subst hs; intro _; rfl
          case update => simp only [Option.some.injEq] at hs; subst hs; simp only; split <;> simp
          case decide => simp only [Option.some.injEq] at hs; subst hs; simp only; split <;> simp
          all_goals
            (repeat' split at hs) <;> simp only [Option.some.injEq, reduceCtorEq] at hs <;> (subst hs; simp_all)
  exact key ls _ s (by simp [State.init]) h hr

/-- **C70** As soon as the root supervisor has shut down, `run` returns: it does not wait for messages or timers, only the queue of the locality is
processed once more, whatever the other threads do. -/
theorem C70_returns (poll : Int) (c : Int) (ls : List Label) (s : State) (h : run poll (State.init c) ls = some s) (hd : s.down = true)
    (hr : s.pc ≠ .returned) (ms : List Nat) (ts : List Int) (sp st : Bool) :
    ∃ s', step poll s (.loop ms ts sp st) = some s' ∧ s'.pc = .returned ∧ s'.taken = s.taken ++ s.queue := by
  have hp : s.pc = .last := ((down_run poll ls _ _ (down_init c) h).1 hd).resolve_right hr
  exact ⟨{ s with queue := [], taken := s.taken ++ s.queue, timers := ts, pc := .returned }, (by simp only [step, loopStep, hp]), rfl, rfl⟩

/-- **C70** Until then the loop goes on: it is stuck only when it waits for the mutex, which another thread holds while it notifies, or when it
sleeps, with no message, no notification and no timer that has expired. -/
theorem C70_goes_on (poll : Int) (c : Int) (ls : List Label) (s : State) (h : run poll (State.init c) ls = some s) (hr : s.pc ≠ .returned)
    (ms : List Nat) (ts : List Int) (st : Bool) (hn : step poll s (.loop ms ts false st) = none) :
    (∃ i, s.threads i = .locked ∨ s.threads i = .notified) ∨
    (∃ d, s.pc = .asleep d false ∧ s.clock < d ∧ (∀ t ∈ s.timers, s.clock < t) ∧ (s.inbound ≠ [] → ∃ i, s.threads i = .pushed ∨ s.threads i = .locked)) := by
  have hi := inv_run poll ls _ _ (inv_init c) h
  have hmu : ¬ s.pc.holds = true → s.mutex ≠ .nobody → ∃ i, s.threads i = .locked ∨ s.threads i = .notified := by
    intro hne hm
    cases hm' : s.mutex with
    | nobody => exact absurd hm' hm
    | loop => exact absurd (hi.loopOwns.1 hm') hne
    | thread j => exact ⟨j, (hi.threadOwns j).1 hm'⟩
  simp only [step, loopStep] at hn
  cases hpc : s.pc <;> simp only [hpc] at hn
  case lock =>
    split at hn
    · simp at hn
    · rename_i hm; exact .inl (hmu (by simp [hpc, Pc.holds]) hm)
  case relock =>
    split at hn
    · simp at hn
    · rename_i hm; exact .inl (hmu (by simp [hpc, Pc.holds]) hm)
  case asleep d n =>
    split at hn
    · simp at hn
    rename_i hnb
    split at hn
    · simp at hn
    rename_i hc
    have hnf : n = false := by simpa using hnb
    subst hnf
    refine .inr ⟨d, rfl, by omega, fun t ht => ?_, hi.wake d hpc⟩
    have := hi.deadline d (by simp [hpc, Pc.wakeAt]) t ht
    omega
  case returned => exact absurd hpc hr
  all_goals
    (repeat' split at hn) <;> simp at hn

/-- **C70** What other threads have sent is not always dispatched before `run` returns: the root supervisor shuts down in a handler while
another thread sends.  The inbound queue is not looked at any more. -/
theorem C70_late_counterexample : ∃ s, run 0 (State.init 0) [.push 7 1 none, .loop [] [] false true, .thread 7, .loop [] [] false false] = some s ∧
    s.pc = .returned ∧ s.down = true ∧ s.inbound = [1] ∧ s.taken = [] := ⟨_, rfl, rfl, rfl, rfl, rfl⟩

/-- .. in the callback of a timer, which has sent a message: it is dispatched before `run` returns -/
example : ∃ s, run 0 (State.init 0) [.loop [] [5] false false, .push 7 1 none, .loop [] [] false false, .loop [] [] false false, .loop [] [] false false,
    .loop [9] [] false true] = some s ∧ s.pc = .last ∧ s.down = true ∧ s.queue = [.outside 1, .inside 9] := ⟨_, rfl, rfl, rfl, rfl⟩

/-- a message arrives while the loop is about to go to sleep, another while it sleeps -/
example : ∃ s, run 0 (State.init 0) [.loop [] [500] false false, .loop [] [] false false, .loop [] [] false false, .push 7 1 none,
    .loop [] [] false false, .thread 7, .loop [] [] false false] = none ∧
    run 0 (State.init 0) [.loop [] [500] false false, .loop [] [] false false, .loop [] [] false false, .loop [] [] false false,
      .loop [] [] false false, .loop [] [] false false, .push 7 1 none, .thread 7, .thread 7, .thread 7] = some s ∧
    s.pc = .asleep 500 true ∧ s.inbound = [1] ∧ s.threads 7 = .idle := ⟨_, rfl, rfl, rfl, rfl, rfl⟩

/-- a message arrives between the check of the predicate and the wait: the sender cannot notify before the loop sleeps -/
example : ∃ s s', run 0 (State.init 0) [.loop [] [500] false false, .loop [] [] false false, .loop [] [] false false, .loop [] [] false false,
      .loop [] [] false false, .push 7 1 none] = some s ∧ s.pc = .wait 500 ∧ s.inbound = [1] ∧ s.threads 7 = .pushed ∧ threadStep s 7 = none ∧
    run 0 s [.loop [] [] false false, .thread 7, .thread 7, .loop [] [] false false, .thread 7, .loop [] [] false false, .loop [] [] false false] = some s' ∧
    s'.pc = .update := ⟨_, _, rfl, rfl, rfl, rfl, rfl, rfl, rfl⟩

end Verif.ThreadLoop
