import Verif.Requests.Props

/-! What the callbacks of timers are told and that the end of an actor answers no request (C10, C14). -/

namespace Verif.Requests

/-- the log grew by events none of which resolves a request -/
def Quiet (s s' : State) : Prop := ∃ l, s'.log = l ++ s.log ∧ ∀ e ∈ l, ∀ i, isFinal i e = false

theorem Quiet.refl (s : State) : Quiet s s := ⟨[], rfl, by simp⟩

theorem Quiet.of_eq {s s' : State} (h : s'.log = s.log) : Quiet s s' := ⟨[], h, by simp⟩

theorem Quiet.one {s s' : State} (e : Ev) (h : s'.log = e :: s.log) (he : ∀ i, isFinal i e = false) : Quiet s s' :=
  ⟨[e], h, by simpa using he⟩

theorem Quiet.trans {a b d : State} (h : Quiet a b) (g : Quiet b d) : Quiet a d := by
  obtain ⟨l, h1, h2⟩ := h
  obtain ⟨k, g1, g2⟩ := g
  refine ⟨k ++ l, by rw [g1, h1, List.append_assoc], ?_⟩
  intro e he i
  rcases List.mem_append.1 he with hm | hm
  · exact g2 e hm i
  · exact h2 e hm i

theorem Quiet.count {s s' : State} (h : Quiet s s') (i : Nat) : s'.log.countP (isFinal i) = s.log.countP (isFinal i) := by
  obtain ⟨l, h1, h2⟩ := h
  rw [h1, List.countP_append]
  have : l.countP (isFinal i) = 0 := by
    rw [List.countP_eq_zero]
    intro e he
    simp [h2 e he i]
  omega

theorem Quiet.suffix {s s' : State} (h : Quiet s s') : s.log <:+ s'.log := by
  obtain ⟨l, h1, _⟩ := h
  exact ⟨l, h1.symm⟩

theorem startTimer_log (s s' : State) (o i : Nat) (k : TKind) (h : startTimer s o i k = .ok s') : s'.log = s.log := by
  unfold startTimer at h
  split at h
  · simp at h
  · simp only [Except.ok.injEq] at h; subst h; rfl

theorem userTimer_quiet (c : Cfg) (s s' : State) (a : Nat) (h : userTimer c s a = .ok s') : Quiet s s' := by
  unfold userTimer at h
  split at h
  · simp at h
  · rename_i id _
    exact .one (.started a id) (startTimer_log _ _ _ _ _ h) (by simp [isFinal])

theorem request_quiet (c : Cfg) (s s' : State) (a o : Nat) (h : request c s a o = .ok s') : Quiet s s' := by
  unfold request at h
  split at h
  · simp at h
  · rename_i id _
    simp only at h
    split at h
    · simp at h
    · rename_i s2 hs
      simp only [Except.ok.injEq] at h
      subst h
      exact .one (.requested a id o) (startTimer_log _ _ _ _ _ hs) (by simp [isFinal])

theorem trigger_quiet (s s' : State) (o i : Nat) (g : Bool) (h : onRequestTrigger s o i true g = .ok s') : Quiet s s' := by
  unfold onRequestTrigger at h
  split at h
  · simp only [Except.ok.injEq] at h; subst h; exact .refl _
  · cases g
    · simp only [Bool.true_eq_false, if_false, if_true] at h
      split at h
      · simp at h
      · simp only [Except.ok.injEq] at h
        subst h
        exact .one (.abandoned i) rfl (by simp [isFinal])
    · simp only [Bool.true_eq_false, if_false] at h
      split at h
      · simp at h
      · simp only [Except.ok.injEq] at h
        subst h
        exact .of_eq rfl

theorem exec_quiet (c : Cfg) (env : Env) (n : Nat) : ∀ (cmd : Cmd) (s s' : State), Cancels cmd →
    exec c n env cmd s = .ok s' → Quiet s s' := by
  induction n with
  | zero => intro cmd s s' _ h; simp [exec] at h
  | succ n ih =>
    intro cmd s s' hc h
    cases cmd with
    | acts a l =>
      cases l with
      | nil => simp only [exec, Except.ok.injEq] at h; subst h; exact .refl _
      | cons x l =>
        cases x with
        | start =>
          simp only [exec] at h
          split at h
          · simp at h
          · rename_i s1 h1
            exact (userTimer_quiet c s s1 a h1).trans (ih _ _ _ (by trivial) h)
        | request o =>
          simp only [exec] at h
          split at h
          · simp at h
          · rename_i s1 h1
            exact (request_quiet c s s1 a o h1).trans (ih _ _ _ (by trivial) h)
        | cancel id =>
          simp only [exec] at h
          split at h
          · simp at h
          · split at h
            · simp at h
            · rename_i s1 h1
              exact (ih _ _ _ (by exact rfl) h1).trans (ih _ _ _ (by trivial) h)
    | trigger o id cn g =>
      simp only [Cancels] at hc
      subst hc
      simp only [exec] at h
      split at h
      · simp only [Except.ok.injEq] at h; subst h; exact .refl _
      · split at h
        · simp at h
        · rename_i s1 h1
          simp only [Except.ok.injEq] at h
          subst h
          exact (trigger_quiet s s1 o id g h1).trans (.of_eq rfl)
      · split at h
        · simp at h
        · rename_i s2 h2
          split at h
          · simp at h
          · simp only [Except.ok.injEq] at h
            subst h
            exact (Quiet.one (.called o id true) rfl (by simp [isFinal])).trans ((ih _ _ _ (by trivial) h2).trans (.of_eq rfl))
    | drainTimers a =>
      simp only [exec] at h
      split at h
      · simp only [Except.ok.injEq] at h; subst h; exact .refl _
      · split at h
        · simp at h
        · rename_i s1 h1
          exact (ih _ _ _ (by exact rfl) h1).trans (ih _ _ _ (by trivial) h)
    | drainRequests a =>
      simp only [exec] at h
      split at h
      · simp only [Except.ok.injEq] at h; subst h; exact .refl _
      · split at h
        · simp at h
        · split at h
          · simp at h
          · rename_i s1 h1
            exact (ih _ _ _ (by exact rfl) h1).trans (ih _ _ _ (by trivial) h)

/-- **C14 (the callback runs exactly once).**  Whenever control is back in the loop, a timer some actor
started is in the actor's map exactly as long as its callback has not been called; the callback is called
at most once, and only for timers that were started. -/
theorem C14_called_once (c : Cfg) (n : Nat) (env : Env) (ops : List Op) (s : State)
    (h : run c n env State.init ops = .ok s) (a i : Nat) :
    (.started a i ∈ s.log → (s.timers.find (a, i) = some .user ↔ s.log.countP (isCall a i) = 0)) ∧
    s.log.countP (isCall a i) ≤ 1 ∧
    ((∃ cn, .called a i cn ∈ s.log) → .started a i ∈ s.log) := by
  obtain ⟨hi, hs⟩ := reach c n env ops s h
  refine ⟨fun hst => ⟨fun ht => (hi.D.run a i ht).2.2 (by rw [hs]; simp), fun h0 => ?_⟩, hi.D.le a i, ?_⟩
  · rcases (hi.D.gone a i hst).2 with g | g
    · exact g
    · omega
  · rintro ⟨cn, hm⟩
    apply hi.D.called a i
    have : 0 < s.log.countP (isCall a i) := List.countP_pos_iff.2 ⟨_, hm, by simp [isCall]⟩
    omega

/-- **C14 (what the callback is told).**  An actor that cancels a timer finds its callback called at once,
with the flag `cancelled`; a timer that elapses calls it without the flag. -/
theorem C14_told (c : Cfg) (n : Nat) (env : Env) (ops : List Op) (s s' : State)
    (h : run c n env State.init ops = .ok s) (a i : Nat) :
    (∀ l, stepOp c n env s (.act a (.cancel i :: l)) = .ok s' → (.called a i true :: s.log) <:+ s'.log) ∧
    (s.timers.find (a, i) = some .user → stepOp c n env s (.fire a i) = .ok s' → (.called a i false :: s.log) <:+ s'.log) := by
  have hfire : ∀ (m : Nat) (s1 : State) (cn : Bool), s.timers.find (a, i) = some .user →
      exec c m env (.trigger a i cn false) s = .ok s1 → (.called a i cn :: s.log) <:+ s1.log := by
    intro m s1 cn ht he
    cases m with
    | zero => simp [exec] at he
    | succ m =>
      simp only [exec, ht] at he
      split at he
      · simp at he
      · rename_i s2 h2
        split at he
        · simp at he
        · simp only [Except.ok.injEq] at he
          subst he
          exact (exec_quiet c env m _ _ _ (by trivial) h2).suffix
  refine ⟨fun l hst => ?_, fun ht hst => hfire n s' false ht hst⟩
  simp only [stepOp] at hst
  cases n with
  | zero => simp [exec] at hst
  | succ n =>
    simp only [exec] at hst
    split at hst
    · simp at hst
    · rename_i hcond
      split at hst
      · simp at hst
      · rename_i s1 h1
        have ht : s.timers.find (a, i) = some .user := by
          apply Classical.byContradiction
          intro hne; exact hcond (.inl hne)
        exact (hfire n s1 true ht h1).trans (exec_quiet c env n _ _ _ (by trivial) hst).suffix

/-- **C10 (the end of an actor answers nothing).**  `shutdown_finish` gives the pending requests up: it
resolves none of them, neither with an answer nor with a timeout, and user code resolves none either. -/
theorem C10_given_up (c : Cfg) (n : Nat) (env : Env) (s s' : State) (a i : Nat) :
    (stepOp c n env s (.finish a) = .ok s' → s'.log.countP (isFinal i) = s.log.countP (isFinal i)) ∧
    (∀ l, stepOp c n env s (.act a l) = .ok s' → s'.log.countP (isFinal i) = s.log.countP (isFinal i)) := by
  refine ⟨fun h => ?_, fun l h => (exec_quiet c env n _ _ _ (by trivial) h).count i⟩
  simp only [stepOp, finish] at h
  split at h
  · simp at h
  · rename_i s1 h1
    split at h
    · simp at h
    · rename_i s2 h2
      split at h
      · simp at h
      · simp only [Except.ok.injEq] at h
        subst h
        exact Quiet.count (((Quiet.one (.finishing a) rfl (by simp [isFinal])).trans (exec_quiet c env n _ _ _ (by trivial) h1)).trans
          ((exec_quiet c env n _ _ _ (by trivial) h2).trans (Quiet.one (.finished a) rfl (by simp [isFinal])))) i

/-- one timer is cancelled, one elapses, one runs on; a request is given up when the actor ends -/
example : ∃ s s', run ⟨fun _ => 0, 0, 1000⟩ 10 (fun _ => []) State.init
    [.act 5 [.start, .start, .start, .request 50], .act 5 [.cancel 1], .fire 5 2] = .ok s ∧
    s.log.reverse = [.started 5 1, .started 5 2, .started 5 3, .requested 5 4 50, .called 5 1 true, .called 5 2 false] ∧
    s.timers.find (5, 3) = some .user ∧ s.timers.find (5, 2) = none ∧
    stepOp ⟨fun _ => 0, 0, 1000⟩ 10 (fun _ => []) s (.finish 5) = .ok s' ∧
    s'.log.reverse = s.log.reverse ++ [.finishing 5, .called 5 3 true, .abandoned 4, .finished 5] :=
  ⟨_, _, rfl, rfl, rfl, rfl, rfl, rfl⟩

end Verif.Requests
