import Verif.Resources.Lemmas

/-!
# Property C24: resources

The full claim: while an actor holds a resource, its init (shutdown) does not complete; releasing
the last one resumes it; counters are independent per id.  The plugin's part is proved here: its
answers to the polls and what it resumes.  That a negative answer stops the procedure is property
C30 (`Lifecycle`).  It holds for fewer than 2^31 acquisitions in flight; beyond it fails
(`C24_overflow_counterexample`).
-/

namespace Verif.Resources

/-- **C24 (partial: fewer than 2^31 acquisitions).** After any legal history, `has(id)` is the
number of acquisitions of `id` not yet released, for each id independently; and the plugin agrees
to complete init (shutdown) exactly when nothing is held. -/
theorem C24_resources_partial (ops : List Op) (hl : legal ops) (hr : idsInRange ops)
    (hb : acquisitions ops < 2 ^ 31) :
    ∃ s, State.activated.run ops = .ok s ∧
      (∀ id, (s.has id : Int) = balance id ops) ∧
      (s.handleInit.2 = true ↔ ¬ holds ops) ∧ (s.handleShutdown = true ↔ ¬ holds ops) := by
  obtain ⟨s, h1, h2⟩ := run_inv ops hl hr hb
  have := inv_holds h2 hb
  refine ⟨s, h1, h2.has, ?_, ?_⟩
  · simp only [State.handleInit]; rw [← this]; cases hasAny s.counts <;> simp
  · simp only [State.handleShutdown]; rw [← this]; cases hasAny s.counts <;> simp

/-- **C24 (partial: fewer than 2^31 acquisitions), resuming.** A release of something held succeeds
and tells whether anything is still held; if it was the last one, an initializing (shutting down)
actor resumes its procedure, unless it is in the middle of it. -/
theorem C24_release_resumes_partial (ops : List Op) (hl : legal ops) (hr : idsInRange ops)
    (hb : acquisitions ops < 2 ^ 31) (st : AState) (pi ps : Bool) (id : Nat) (hh : 0 < balance id ops) :
    ∃ s s' b c, State.activated.run ops = .ok s ∧ s.release st pi ps id = .ok (s', b, c) ∧
      (b = true ↔ holds (ops ++ [.release st pi ps id])) ∧
      (¬ holds (ops ++ [.release st pi ps id]) → st = .initializing → pi = false → c = .initContinue) ∧
      (¬ holds (ops ++ [.release st pi ps id]) → st = .shuttingDown → ps = false → c = .shutdownContinue) ∧
      (holds (ops ++ [.release st pi ps id]) → c = .none) := by
  obtain ⟨s, h1, h2⟩ := run_inv ops hl hr hb
  obtain ⟨s', b, c, h3, h4, h5, h6⟩ := release_inv s ops st pi ps id h2 hh
  have hiff := inv_holds h4 (by rw [acquisitions_append]; simpa [acquisitions] using hb)
  rw [← h5] at hiff
  refine ⟨s, s', b, c, h1, h3, hiff, ?_, ?_, ?_⟩
  · intro hn hst hpi
    have : b = false := Bool.eq_false_iff.2 (fun h => hn (hiff.1 h))
    simp [h6, hst, this, hpi]
  · intro hn hst hps
    have : b = false := Bool.eq_false_iff.2 (fun h => hn (hiff.1 h))
    simp [h6, hst, this, hps]
  · intro hn
    have := hiff.2 hn
    simp [h6, this]

theorem opsOf_append (a b : List Call) : opsOf (a ++ b) = opsOf a ++ opsOf b := by
  induction a with
  | nil => rfl
  | cons c a ih => cases c <;> simp [opsOf, ih]

theorem release_le (o : Op) (hist : List Op) (st : AState) (pi ps : Bool) (id : Nat) (ho : o = .release st pi ps id)
    (h : holds (hist ++ [o])) : holds hist := by
  obtain ⟨j, hj⟩ := h
  refine ⟨j, ?_⟩
  rw [balance_append, ho] at hj
  simp only [balance] at hj
  split at hj <;> omega

/-- one call or poll: the counters follow the calls; polls do not change them; the reactions -/
theorem stepCall_inv (s : State) (pre : List Call) (c : Call) (hl : legal (opsOf (pre ++ [c])))
    (hr : idsInRange (opsOf [c])) (hb : acquisitions (opsOf (pre ++ [c])) < 2 ^ 31) (hi : Inv s (opsOf pre)) :
    ∃ s', s.stepCall c = .ok s' ∧ Inv s' (opsOf (pre ++ [c])) ∧
      ((∀ o, c = .op o → o.state = .initializing) → (holds (opsOf pre) → s.reactInit = true) →
        (holds (opsOf (pre ++ [c])) → s'.reactInit = true)) ∧
      ((∀ o, c = .op o → AState.operational.rank ≤ o.state.rank) → (holds (opsOf pre) → s.reactShutdown = true) →
        (holds (opsOf (pre ++ [c])) → s'.reactShutdown = true)) ∧
      (c ≠ .pollShutdown → s.reactShutdown = true → s'.reactShutdown = true) := by
  rw [opsOf_append, acquisitions_append] at hb
  rw [opsOf_append] at hl ⊢
  have hhas := inv_holds hi (by omega)
  cases c with
  | op o =>
    simp only [opsOf] at hl hr hb ⊢
    cases o with
    | acquire st id =>
      obtain ⟨s', h1, h2⟩ := acquire_inv s (opsOf pre) st id hi (hr (.acquire st id) (by simp)) (by simpa [acquisitions] using hb)
      have hre : s'.reactInit = (s.reactInit || decide (st = .initializing)) ∧
          s'.reactShutdown = (s.reactShutdown || (decide (st ≠ .initializing) && decide (AState.operational.rank ≤ st.rank))) := by
        unfold State.acquire at h1
        split at h1
        · simp at h1
        · simp only at h1
          split at h1
          · simp at h1
          · split at h1
            · rename_i hst
              simp only [Except.ok.injEq] at h1; subst h1; simp [hst]
            · rename_i hst
              split at h1
              · rename_i hge
                simp only [Except.ok.injEq] at h1; subst h1; simp [hst, hge]
              · rename_i hge
                simp only [Except.ok.injEq] at h1; subst h1
                simp only [hst, ge_iff_le] at hge ⊢
                simp [hge]
      refine ⟨s', h1, h2, ?_, ?_, ?_⟩
      · intro hst _ _
        have := hst _ rfl
        simp only [Op.state] at this
        simp [hre.1, this]
      · intro hst _ _
        have := hst _ rfl
        simp only [Op.state] at this
        have hne : st ≠ .initializing := by intro h; rw [h] at this; simp [AState.rank] at this
        simp [hre.2, this, hne]
      · intro _ h; simp [hre.2, h]
    | release st pi ps id =>
      have hpos : 0 < balance id (opsOf pre) := by
        have := legal_balance hl id
        rw [balance_append] at this
        simp only [balance, if_true] at this; omega
      obtain ⟨s', b, c, h1, h2, _⟩ := release_inv s (opsOf pre) st pi ps id hi hpos
      have hre : s'.reactInit = s.reactInit ∧ s'.reactShutdown = s.reactShutdown := by
        unfold State.release at h1
        split at h1
        · simp at h1
        · split at h1
          · simp at h1
          · simp only [Except.ok.injEq, Prod.mk.injEq] at h1
            rw [← h1.1]; simp
      refine ⟨s', by simp [State.stepCall, State.step, h1], h2, ?_, ?_, ?_⟩
      · intro _ h hh; rw [hre.1]; exact h (release_le _ _ st pi ps id rfl hh)
      · intro _ h hh; rw [hre.2]; exact h (release_le _ _ st pi ps id rfl hh)
      · intro _ h; rw [hre.2]; exact h
  | pollInit =>
    simp only [opsOf, List.append_nil] at hl hr hb ⊢
    have hc : s.pollInit.1.counts = s.counts ∧ s.pollInit.1.reactShutdown = s.reactShutdown ∧
        (hasAny s.counts = true → s.pollInit.1.reactInit = s.reactInit) := by
      unfold State.pollInit State.handleInit
      simp only
      split
      · split <;> simp_all
      · simp
    refine ⟨_, rfl, ⟨fun id => ?_, ?_⟩, ?_, ?_, ?_⟩
    · rw [← hi.has id]; unfold State.has; rw [hc.1]
    · rw [hc.1]; exact hi.sum
    · intro _ h hh; rw [hc.2.2 (hhas.2 hh)]; exact h hh
    · intro _ h hh; rw [hc.2.1]; exact h hh
    · intro _ h; rw [hc.2.1]; exact h
  | pollShutdown =>
    simp only [opsOf, List.append_nil] at hl hr hb ⊢
    have hc : s.pollShutdown.1.counts = s.counts ∧ s.pollShutdown.1.reactInit = s.reactInit ∧
        (hasAny s.counts = true → s.pollShutdown.1.reactShutdown = s.reactShutdown) := by
      unfold State.pollShutdown State.handleShutdown
      split
      · split <;> simp_all
      · simp
    refine ⟨_, rfl, ⟨fun id => ?_, ?_⟩, ?_, ?_, ?_⟩
    · rw [← hi.has id]; unfold State.has; rw [hc.1]
    · rw [hc.1]; exact hi.sum
    · intro _ h hh; rw [hc.2.1]; exact h hh
    · intro _ h hh; rw [hc.2.2 (hhas.2 hh)]; exact h hh
    · intro h; exact absurd rfl h

theorem opsOf_take_legal {a b : List Call} (h : legal (opsOf (a ++ b))) : legal (opsOf a) := by
  rw [opsOf_append] at h; exact legal_prefix h

theorem runCalls_append (s : State) (a b : List Call) :
    s.runCalls (a ++ b) = match s.runCalls a with | .error e => .error e | .ok s' => s'.runCalls b := by
  induction a generalizing s with
  | nil => rfl
  | cons op a ih =>
    simp only [List.cons_append, State.runCalls]
    split
    · rfl
    · exact ih _

theorem runCalls_inv (P : State → List Call → Prop) (Q : Call → Prop)
    (hstep : ∀ s pre c s', Q c → P s pre → s.stepCall c = .ok s' → Inv s (opsOf pre) →
      legal (opsOf (pre ++ [c])) → idsInRange (opsOf [c]) → acquisitions (opsOf (pre ++ [c])) < 2 ^ 31 → P s' (pre ++ [c]))
    (rest pre : List Call) (s : State) (hl : legal (opsOf (pre ++ rest)))
    (hr : idsInRange (opsOf rest)) (hb : acquisitions (opsOf (pre ++ rest)) < 2 ^ 31)
    (hq : ∀ c ∈ rest, Q c) (hi : Inv s (opsOf pre)) (hp : P s pre) :
    ∃ s', s.runCalls rest = .ok s' ∧ Inv s' (opsOf (pre ++ rest)) ∧ P s' (pre ++ rest) := by
  induction rest generalizing pre s with
  | nil => exact ⟨s, rfl, by simpa using hi, by simpa using hp⟩
  | cons c rest ih =>
    have e : pre ++ c :: rest = (pre ++ [c]) ++ rest := by simp
    rw [e] at hl hb ⊢
    have hb0 : acquisitions (opsOf (pre ++ [c])) < 2 ^ 31 := by
      rw [opsOf_append, acquisitions_append] at hb; omega
    have hr1 : idsInRange (opsOf [c]) := by
      intro o ho
      refine hr o ?_
      rw [show c :: rest = [c] ++ rest from rfl, opsOf_append]; simp [ho]
    have hr2 : idsInRange (opsOf rest) := by
      intro o ho
      refine hr o ?_
      rw [show c :: rest = [c] ++ rest from rfl, opsOf_append]; simp [ho]
    obtain ⟨s1, h1, h2, _⟩ := stepCall_inv s pre c (opsOf_take_legal hl) hr1 hb0 hi
    have hp1 := hstep s pre c s1 (hq c (by simp)) hp h1 hi (opsOf_take_legal hl) hr1 hb0
    obtain ⟨s2, h3, h4, h5⟩ := ih (pre ++ [c]) s1 hl hr2 hb (fun c hc => hq c (by simp [hc])) h2 hp1
    exact ⟨s2, by simp only [State.runCalls, h1]; exact h3, h4, h5⟩

/-- **C24 (partial: fewer than 2^31 acquisitions), holding blocks the init.** In any interleaving of
acquisitions, releases and polls of an initializing actor the plugin lets the init go on exactly when
nothing is held - also if it agreed before and something was acquired since. -/
theorem C24_held_blocks_init_partial (cs : List Call) (hl : legal (opsOf cs)) (hr : idsInRange (opsOf cs))
    (hb : acquisitions (opsOf cs) < 2 ^ 31) (hst : ∀ o, Call.op o ∈ cs → o.state = .initializing) :
    ∃ s, State.activated.runCalls cs = .ok s ∧ (s.pollInit.2 = true ↔ ¬ holds (opsOf cs)) := by
  obtain ⟨s, h1, h2, h3⟩ := runCalls_inv (fun s pre => holds (opsOf pre) → s.reactInit = true)
    (fun c => ∀ o, c = .op o → o.state = .initializing)
    (by
      intro s pre c s' hq hp hs hi hl hr hb
      obtain ⟨s'', h1, _, h3, _⟩ := stepCall_inv s pre c hl hr hb hi
      rw [hs] at h1; simp only [Except.ok.injEq] at h1; subst h1
      exact h3 hq hp)
    cs [] State.activated (by simpa using hl) hr (by simpa using hb)
    (by intro c hc o ho; subst ho; exact hst o hc)
    ⟨by intro id; simp [State.has, State.activated, balance, opsOf], by simp [State.activated]⟩
    (by intro _; rfl)
  refine ⟨s, h1, ?_⟩
  simp only [List.nil_append] at h2 h3
  have hiff := inv_holds h2 hb
  unfold State.pollInit State.handleInit
  simp only
  by_cases hh : holds (opsOf cs)
  · simp [h3 hh, hiff.2 hh, hh]
  · have : hasAny s.counts = false := Bool.eq_false_iff.2 (fun h => hh (hiff.1 h))
    simp only [this, hh, not_false_eq_true, iff_true]
    split <;> rfl

/-- **C24 (partial: fewer than 2^31 acquisitions), holding blocks the shutdown.** The same for the
shutdown: whatever was done before it started (`before`), and whatever is acquired or released in
between the polls since the actor became operational. -/
theorem C24_held_blocks_shutdown_partial (before cs : List Call) (hl : legal (opsOf (before ++ cs)))
    (hr : idsInRange (opsOf (before ++ cs))) (hb : acquisitions (opsOf (before ++ cs)) < 2 ^ 31)
    (hbef : Call.pollShutdown ∉ before) (hst : ∀ o, Call.op o ∈ cs → AState.operational.rank ≤ o.state.rank) :
    ∃ s, State.activated.runCalls (before ++ cs) = .ok s ∧
      (s.pollShutdown.2 = true ↔ ¬ holds (opsOf (before ++ cs))) := by
  have hrb : idsInRange (opsOf before) := fun o ho => hr o (by rw [opsOf_append]; simp [ho])
  have hrc : idsInRange (opsOf cs) := fun o ho => hr o (by rw [opsOf_append]; simp [ho])
  have hbb : acquisitions (opsOf before) < 2 ^ 31 := by rw [opsOf_append, acquisitions_append] at hb; omega
  obtain ⟨s0, a1, a2, a3⟩ := runCalls_inv (fun s _ => s.reactShutdown = true)
    (fun c => c ≠ .pollShutdown)
    (by
      intro s pre c s' hq hp hs hi hl hr hb
      obtain ⟨s'', h1, _, _, _, h5⟩ := stepCall_inv s pre c hl hr hb hi
      rw [hs] at h1; simp only [Except.ok.injEq] at h1; subst h1
      exact h5 hq hp)
    before [] State.activated (by simpa using opsOf_take_legal hl) hrb (by simpa using hbb)
    (by intro c hc he; subst he; exact hbef hc)
    ⟨by intro id; simp [State.has, State.activated, balance, opsOf], by simp [State.activated]⟩ rfl
  simp only [List.nil_append] at a2
  obtain ⟨s, h1, h2, h3⟩ := runCalls_inv (fun s pre => holds (opsOf pre) → s.reactShutdown = true)
    (fun c => ∀ o, c = .op o → AState.operational.rank ≤ o.state.rank)
    (by
      intro s pre c s' hq hp hs hi hl hr hb
      obtain ⟨s'', h1, _, _, h4, _⟩ := stepCall_inv s pre c hl hr hb hi
      rw [hs] at h1; simp only [Except.ok.injEq] at h1; subst h1
      exact h4 hq hp)
    cs before s0 hl hrc hb (by intro c hc o ho; subst ho; exact hst o hc) a2 (fun _ => a3)
  refine ⟨s, by rw [runCalls_append, a1]; exact h1, ?_⟩
  have hiff := inv_holds h2 hb
  unfold State.pollShutdown State.handleShutdown
  by_cases hh : holds (opsOf (before ++ cs))
  · simp [h3 hh, hiff.2 hh, hh]
  · have : hasAny s.counts = false := Bool.eq_false_iff.2 (fun h => hh (hiff.1 h))
    simp only [this, hh, not_false_eq_true, iff_true]
    split <;> rfl

example : ∃ s, State.activated.runCalls [.op (.acquire .initializing 1), .pollInit,
    .op (.release .initializing false false 1), .pollInit, .op (.acquire .initializing 0)] = .ok s ∧
    s.pollInit.2 = false := ⟨_, rfl, rfl⟩

example : ∃ s, State.activated.runCalls [.pollInit, .op (.acquire .operational 1), .pollShutdown,
    .op (.release .shuttingDown false false 1), .pollShutdown, .op (.acquire .shuttingDown 0)] = .ok s ∧
    s.pollShutdown.2 = false := ⟨_, rfl, rfl⟩

/-- two resources, one of them twice, one release -/
def exOps : List Op :=
  [.acquire .initializing 2, .acquire .initializing 0, .acquire .initializing 2,
   .release .initializing false false 2]

example : legal exOps ∧ idsInRange exOps ∧ acquisitions exOps < 2 ^ 31 ∧ holds exOps ∧ 0 < balance 2 exOps := by
  refine ⟨?_, ?_, by decide, ⟨0, by decide⟩, by decide⟩
  · intro n id
    match n with
    | 0 => simp [balance]
    | 1 => simp only [exOps, List.take, balance]; split <;> simp
    | 2 => simp only [exOps, List.take, balance]; split <;> split <;> simp
    | 3 => simp only [exOps, List.take, balance]; split <;> split <;> simp
    | n + 4 => simp only [exOps, List.take, balance, List.take_nil]; split <;> split <;> simp
  · intro op h
    simp only [exOps, List.mem_cons, List.not_mem_nil, or_false] at h
    rcases h with rfl | rfl | rfl | rfl <;> simp

/-- The bound on the number of acquisitions is needed: a resource acquired 2^31 times and never
released does not stop the actor from completing its init or shutdown. -/
theorem C24_overflow_counterexample :
    ∃ ops s, State.activated.run ops = .ok s ∧ legal ops ∧ holds ops ∧
      s.handleInit.2 = true ∧ s.handleShutdown = true := by
  refine ⟨List.replicate (2 ^ 31) (.acquire .operational 0), _, run_replicate _ (by decide), ?_, ?_, by decide, by decide⟩
  · intro n id
    rw [List.take_replicate]
    generalize min n (2 ^ 31) = k
    induction k with
    | zero => simp [balance]
    | succ k ih => rw [List.replicate_succ]; simp only [balance]; split <;> omega
  · refine ⟨0, ?_⟩
    have : ∀ k, balance 0 (List.replicate k (.acquire .operational 0)) = k := by
      intro k
      induction k with
      | zero => simp [balance]
      | succ k ih => rw [List.replicate_succ]; simp only [balance, if_true, ih]; omega
    rw [this]; decide

end Verif.Resources
