import Verif.Children.Props
/-!
# Why a child is shut down or started
-/

namespace Verif.Children
open Verif

variable {c : Conf} {φ : Fl} {σ σ' : State}

/-- nobody is asked to shut down, nobody is started -/
structure Calm (σ σ' : State) : Prop where
  nS : σ'.nShut = σ.nShut
  nT : σ'.nStart = σ.nStart

theorem Calm.refl (σ : State) : Calm σ σ := ⟨rfl, rfl⟩
theorem Calm.trans {a b d : State} (h : Calm a b) (g : Calm b d) : Calm a d := ⟨g.nS.trans h.nS, g.nT.trans h.nT⟩

/-- nobody is started; somebody is asked to shut down only if the supervisor is shutting down -/
structure Calm5 (σ σ' : State) : Prop where
  nS : σ'.nShut = σ.nShut ∨ 5 ≤ σ'.st.rank
  nT : σ'.nStart = σ.nStart

theorem Calm.five {a b : State} (h : Calm a b) : Calm5 a b := ⟨.inl h.nS, h.nT⟩
theorem Calm.then5 {a b d : State} (h : Calm a b) (g : Calm5 b d) : Calm5 a d :=
  ⟨g.nS.imp (fun e => e.trans h.nS) id, g.nT.trans h.nT⟩

theorem calm_createN (now : Int) : ∀ (n : Nat) (σ : State), Calm σ (createN now n σ)
  | 0, σ => .refl σ
  | n + 1, σ => by
    have := calm_createN now n (createChild now σ)
    exact ⟨this.nS, this.nT⟩

theorem calm_initFinish (σ : State) : Calm σ (initFinish c σ) := ⟨rfl, rfl⟩
theorem calm_failInit (σ : State) : Calm σ (failInit c σ) := ⟨rfl, rfl⟩

theorem calm_actorInit {o : Ora} (h : actorInitContinue c o σ = .ok σ') : Calm σ σ' := by
  unfold actorInitContinue at h
  split at h
  · split at h
    · injection h with h; subst h; exact .refl _
    · have g := calm_createN o.now o.late { σ with rInit := false }
      split at h <;> (injection h with h; subst h)
      · exact ⟨g.nS, g.nT⟩
      · exact ⟨g.nS, g.nT⟩
  · simp at h

theorem calm_initContinue {o : Ora} (h : initContinue c o σ = .ok σ') : Calm σ σ' := by
  unfold initContinue at h
  split at h
  · have := calm_actorInit h; exact ⟨this.nS, this.nT⟩
  · injection h with h; subst h; exact .refl _

theorem initContinue_st {o : Ora} (h : initContinue c o σ = .ok σ') (h5 : 5 ≤ σ.st.rank) : σ'.st = σ.st := by
  unfold initContinue at h
  rw [if_neg (by rintro ⟨e, _⟩; rw [e] at h5; simp [AState.rank] at h5)] at h
  injection h with h; subst h; rfl

theorem calm_doShutdownSelf (σ : State) : Calm σ (doShutdownSelf c σ) := by unfold doShutdownSelf; split <;> exact ⟨rfl, rfl⟩
theorem calm_doShutdownKid (a : Nat) (σ : State) : Calm σ (doShutdownKid a σ) := by unfold doShutdownKid; split <;> exact ⟨rfl, rfl⟩
theorem calm_cancelInit (a : Nat) (σ : State) : Calm σ (cancelInit a σ) := by unfold cancelInit; split <;> exact ⟨rfl, rfl⟩
theorem calm_removePolicy (r : Rec) (σ : State) : Calm σ (removePolicy c r σ) := by
  unfold removePolicy
  repeat' split
  all_goals first | exact .refl _ | exact calm_failInit _ | exact calm_doShutdownSelf _

theorem calm_removeRec (a : Nat) (r : Rec) (o : Ora) (σ : State) : Calm σ (removeRec a r o σ) := by
  unfold removeRec
  simp only []
  repeat' split
  all_goals exact ⟨rfl, rfl⟩

theorem calm5_shutdownContinue {o : Ora} (h : shutdownContinue o σ = .ok σ') : Calm5 σ σ' := by
  unfold shutdownContinue at h
  split at h
  · rename_i hs
    have h5 : 5 ≤ σ'.st.rank := by
      have : σ'.st = σ.st := by
        repeat' split at h
        all_goals (injection h with h; subst h)
        all_goals first | rfl | (unfold handleShutdown; simp only []; split <;> rfl)
      rw [this, hs]; simp [AState.rank]
    refine ⟨.inr h5, ?_⟩
    repeat' split at h
    all_goals (injection h with h; subst h)
    all_goals first | rfl | (unfold handleShutdown; simp only []; split <;> rfl)
  · simp at h

theorem shutdownContinue_five {o : Ora} (h : shutdownContinue o σ = .ok σ') : 5 ≤ σ'.st.rank := by
  unfold shutdownContinue at h
  split at h
  · rename_i hs
    have : σ'.st = σ.st := by
      repeat' split at h
      all_goals (injection h with h; subst h)
      all_goals first | rfl | (unfold handleShutdown; simp only []; split <;> rfl)
    rw [this, hs]; simp [AState.rank]
  · simp at h

theorem calm5_continueIf {o : Ora} (h : continueIf o σ = .ok σ') : Calm5 σ σ' := by
  unfold continueIf at h
  split at h
  · exact calm5_shutdownContinue h
  · injection h with h; subst h; exact (Calm.refl _).five

theorem continueIf_st {o : Ora} (h : continueIf o σ = .ok σ') (h5 : 5 ≤ σ.st.rank) : 5 ≤ σ'.st.rank := by
  unfold continueIf at h
  split at h
  · exact shutdownContinue_five h
  · injection h with h; subst h; exact h5

theorem calm5_removeChild {a : Nat} {o : Ora} (h : removeChild c a o σ = .ok σ') : Calm5 σ σ' := by
  unfold removeChild at h
  split at h
  · simp at h
  · rename_i r hf
    split at h
    · have g : Calm σ (removeRec a r o (cancelInit a (removePolicy c r σ))) :=
        (calm_removePolicy r σ).trans ((calm_cancelInit a _).trans (calm_removeRec a r o _))
      generalize removeRec a r o (cancelInit a (removePolicy c r σ)) = σ1 at h g
      simp only [] at h
      split at h
      · split at h
        · simp at h
        · rename_i σ2 e
          have g2 := calm5_shutdownContinue e
          have g3 := calm_initContinue h
          have h5 := shutdownContinue_five e
          refine ⟨.inr (by rw [initContinue_st h h5]; exact h5), ?_⟩
          rw [g3.nT, g2.nT, g.nT]
      · exact g.then5 (calm_initContinue h).five
    · simp at h

theorem calm_self {o : Ora} {σ1 : State} (h : onTrigSelf c o σ = .ok σ1) : Calm5 σ σ1 := by
  unfold onTrigSelf at h
  split at h
  · split at h
    · simp only [] at h
      split at h
      · injection h with h; subst h; exact ⟨.inl rfl, rfl⟩
      · split at h
        · simp at h
        · rename_i σ2 e
          injection h with h; subst h
          have g := calm5_shutdownContinue e
          have h5 := shutdownContinue_five e
          exact ⟨.inr h5, g.nT⟩
    · injection h with h; subst h
      have := calm_doShutdownSelf (c := c) σ
      exact ⟨.inl this.nS, this.nT⟩
  · injection h with h; subst h; exact (Calm.refl _).five

theorem calm_onInitReq {o : Ora} (h : onInitReq c o σ = .ok σ') : Calm σ σ' := by
  unfold onInitReq at h
  simp only [] at h
  split at h
  · have := calm_actorInit h; exact ⟨this.nS, this.nT⟩
  · injection h with h; subst h; exact ⟨rfl, rfl⟩

theorem calm_onInitResSelf {ok : Bool} {o : Ora} (h : onInitResSelf c ok o σ = .ok σ') : Calm σ σ' := by
  unfold onInitResSelf at h
  split at h
  · simp only [] at h
    have g : Calm σ (if σ.st.rank ≤ AState.operational.rank then { σ with q := σ.q ++ [.startSelf] } else σ) := by split <;> exact ⟨rfl, rfl⟩
    generalize (if σ.st.rank ≤ AState.operational.rank then { σ with q := σ.q ++ [SMsg.startSelf] } else σ) = σ1 at h g
    split at h
    · injection h with h; subst h; exact g
    · exact g.trans (calm_initContinue h)
  · injection h with h; subst h; exact calm_doShutdownSelf σ

theorem calm_onInitErr {a : Nat} (h : onInitErr c a σ = .ok σ') : Calm σ σ' := by
  unfold onInitErr at h
  repeat' split at h
  all_goals first | (simp at h; done) | (injection h with h; subst h)
  · exact calm_failInit _
  · exact calm_doShutdownSelf _
  · exact calm_doShutdownSelf _
  · exact calm_doShutdownKid a _

theorem calm_onInitOk {b : Nat} {o : Ora} (h : onInitOk c b o σ = .ok σ') :
    σ'.nShut = σ.nShut ∧ ∀ a, σ'.nStart a = σ.nStart a ∨ (c.sync = false ∧ b = a) := by
  have gen : ∀ τ : State, Calm τ σ' → τ.nShut = σ.nShut → (∀ a, τ.nStart a = σ.nStart a ∨ (c.sync = false ∧ b = a)) →
      σ'.nShut = σ.nShut ∧ ∀ a, σ'.nStart a = σ.nStart a ∨ (c.sync = false ∧ b = a) :=
    fun τ g h1 h2 => ⟨g.nS.trans h1, fun a => (h2 a).imp (fun e => by rw [g.nT, e]) id⟩
  unfold onInitOk at h
  simp only [] at h
  have go : ∀ τ : State, (if hasInit σ then Except.ok τ else initContinue c o τ) = Except.ok σ' → Calm τ σ' := by
    intro τ h
    split at h
    · injection h with h; subst h; exact .refl _
    · exact calm_initContinue h
  have h := go _ h
  cases hf : σ.recs.find b with
  | none => simp only [hf] at h; exact gen _ h rfl (fun a => .inl rfl)
  | some r =>
    simp only [hf] at h
    by_cases hc : c.sync = true
    · rw [if_pos hc] at h; exact gen _ h rfl (fun a => .inl rfl)
    · rw [if_neg hc] at h
      refine gen _ h rfl (fun a => ?_)
      by_cases hb : b = a
      · exact .inr ⟨by simpa using hc, hb⟩
      · left; simp [upd, Ne.symm hb]

/-- why somebody is asked to shut down or started in a step -/
structure Why (c : Conf) (σ : State) (op : Op) (σ' : State) (a : Nat) : Prop where
  nS : σ'.nShut a = σ.nShut a ∨ 5 ≤ σ'.st.rank ∨ ∃ o t, op = .recv o ∧ σ.q = .kid a .trigger :: t
  nT : σ'.nStart a = σ.nStart a ∨ (c.sync = true ∧ σ'.starts ≠ σ.starts) ∨
    (c.sync = false ∧ ∃ o t, op = .recv o ∧ σ.q = .kid a (.initRes true) :: t ∧ σ.iA a = true)

theorem Calm5.why {op : Op} {a : Nat} (h : Calm5 σ σ') : Why c σ op σ' a :=
  ⟨h.nS.imp (fun e => by rw [e]) (fun h => .inl h), .inl (by rw [h.nT])⟩

theorem why_onStart (σ0 : State) (hS : σ0.nShut = σ.nShut) (hT : σ0.nStart = σ.nStart) (hG : σ0.starts = σ.starts) (op : Op) (a : Nat) :
    Why c σ op (onStart c σ0) a := by
  refine ⟨.inl ?_, ?_⟩
  · unfold onStart; repeat' split
    all_goals exact congrFun hS a
  · unfold onStart
    split
    · by_cases hc : c.sync = true
      · rw [if_pos hc]; exact .inr (.inl ⟨hc, by simp [hG]⟩)
      · rw [if_neg hc]; exact .inl (congrFun hT a)
    · exact .inl (congrFun hT a)

theorem why_step {op : Op} (he : step c σ op = .ok σ') (a : Nat) : Why c σ op σ' a := by
  cases op with
  | recv o =>
    simp only [step] at he
    split at he
    · injection he with he; subst he; exact (Calm.refl _).five.why
    · rename_i m t hq
      split at he
      · injection he with he; subst he; exact Calm5.why ⟨.inl rfl, rfl⟩
      · have lift : ∀ {τ : State}, Calm5 { σ with q := t } τ → Calm5 σ τ := fun g => ⟨g.nS, g.nT⟩
        cases m with
        | kid b m =>
          simp only [handle] at he
          cases m with
          | create =>
            simp only [onKid, onCreate] at he
            split at he
            · simp at he
            · injection he with he; subst he; exact Calm5.why ⟨.inl rfl, rfl⟩
          | spawn =>
            simp only [onKid, onSpawn] at he
            split at he
            · simp at he
            · split at he
              · repeat' split at he
                all_goals (injection he with he; subst he)
                · exact Calm5.why ⟨.inl rfl, rfl⟩
                · exact Calm5.why ⟨.inl rfl, rfl⟩
                · have := calm_doShutdownSelf (c := c) { σ with q := t }
                  exact Calm5.why ⟨.inl this.nS, this.nT⟩
                · exact Calm5.why ⟨.inl rfl, rfl⟩
                · exact Calm5.why ⟨.inl rfl, rfl⟩
              · injection he with he; subst he; exact Calm5.why ⟨.inl rfl, rfl⟩
          | initRes ok =>
            simp only [onKid] at he
            split at he
            · rename_i hi
              cases ok with
              | false =>
                simp only [Bool.false_eq_true, if_false] at he
                have := calm_onInitErr he
                exact Calm5.why ⟨.inl this.nS, this.nT⟩
              | true =>
                simp only [if_true] at he
                have g := calm_onInitOk he
                refine ⟨.inl (by rw [g.1]), ?_⟩
                rcases g.2 a with e | ⟨hc, hb⟩
                · exact .inl e
                · subst hb; exact .inr (.inr ⟨hc, o, t, rfl, hq, hi⟩)
            · injection he with he; subst he; exact Calm5.why ⟨.inl rfl, rfl⟩
          | initErr =>
            simp only [onKid] at he
            have := calm_onInitErr he
            exact Calm5.why ⟨.inl this.nS, this.nT⟩
          | trigger =>
            simp only [onKid, onTrigger] at he
            split at he
            · simp at he
            · rename_i r hf
              split at he
              · simp at he
              · injection he with he; subst he
                unfold askKid
                split
                · refine ⟨?_, .inl rfl⟩
                  by_cases hb : b = a
                  · subst hb; exact .inr (.inr ⟨o, t, rfl, hq⟩)
                  · left; simp [upd, Ne.symm hb]
                · exact Calm5.why ⟨.inl rfl, rfl⟩
          | shutRes =>
            simp only [onKid] at he
            split at he
            · unfold onShutRes at he
              split at he
              · simp at he
              · split at he
                · simp only [] at he
                  split at he
                  · have := calm5_continueIf he
                    exact Calm5.why ⟨this.nS, this.nT⟩
                  · split at he
                    · simp at he
                    · rename_i σ2 e
                      have g := calm5_removeChild e
                      have g2 := calm5_continueIf he
                      refine Calm5.why ⟨?_, ?_⟩
                      · rcases g2.nS with h | h
                        · rcases g.nS with h' | h'
                          · exact .inl (by rw [h, h']; rfl)
                          · exact .inr (continueIf_st he h')
                        · exact .inr h
                      · rw [g2.nT, g.nT]; rfl
                · simp at he
            · injection he with he; subst he; exact Calm5.why ⟨.inl rfl, rfl⟩
          | unsub =>
            simp only [onKid] at he
            exact (lift (calm5_removeChild he)).why
        | trigSelf => exact (lift (calm_self he)).why
        | initReqSelf => exact (lift (calm_onInitReq he).five).why
        | initResSelf ok =>
          simp only [handle] at he
          split at he
          · have := calm_onInitResSelf he
            exact Calm5.why ⟨.inl this.nS, this.nT⟩
          · injection he with he; subst he; exact Calm5.why ⟨.inl rfl, rfl⟩
        | initErrSelf => exact (lift (calm_onInitResSelf he).five).why
        | startSelf =>
          simp only [handle] at he
          injection he with he; subst he
          exact why_onStart (σ := σ) { σ with q := t } rfl rfl rfl _ a
  | pInit o =>
    simp only [step] at he
    split at he
    · exact (calm_onInitReq he).five.why
    · simp at he
  | pStart =>
    simp only [step] at he
    split at he
    · injection he with he; subst he; exact why_onStart _ rfl rfl rfl _ a
    · simp at he
  | pShut o =>
    simp only [step] at he
    split at he
    · have := calm5_shutdownContinue he
      exact Calm5.why ⟨this.nS, this.nT⟩
    · simp at he
  | contInit o =>
    simp only [step] at he
    split at he
    · exact (calm_actorInit he).five.why
    · simp at he
  | cont o =>
    simp only [step] at he
    split at he
    · exact (calm5_shutdownContinue he).why
    · simp at he
  | down => simp only [step] at he; injection he with he; subst he; exact (calm_doShutdownSelf σ).five.why
  | create now => simp only [step] at he; injection he with he; subst he; exact Calm5.why ⟨.inl rfl, rfl⟩
  | spawn cfg => simp only [step] at he; injection he with he; subst he; exact Calm5.why ⟨.inl rfl, rfl⟩
  | escalate => simp only [step] at he; injection he with he; subst he; exact Calm5.why ⟨.inl rfl, rfl⟩
  | kidRecv b lost =>
    simp only [step, kidRecv] at he
    repeat' split at he
    all_goals (injection he with he; subst he)
    all_goals first | exact Calm5.why ⟨.inl rfl, rfl⟩ | (split <;> exact Calm5.why ⟨.inl rfl, rfl⟩)
  | _ =>
    simp only [step] at he
    repeat' split at he
    all_goals first
      | (simp at he; done)
      | (injection he with he; subst he; exact Calm5.why ⟨.inl rfl, rfl⟩)

/-- as long as the supervisor is not shutting down, a child is asked to shut down only on account of a message that demands the shutdown of
this child: one that goes down does not take the others with it -/
theorem C36_cause {op : Op} (he : step c σ op = .ok σ') (a : Nat) (h : σ'.nShut a ≠ σ.nShut a) :
    5 ≤ σ'.st.rank ∨ ∃ o t, op = .recv o ∧ σ.q = .kid a .trigger :: t := (why_step he a).nS.resolve_left h

/-- a child is sent the start message when the supervisor starts (`synchronize_start`), or else at its successful answer to an init request
that is still awaited -/
theorem C37_cause {op : Op} (he : step c σ op = .ok σ') (a : Nat) (h : σ'.nStart a ≠ σ.nStart a) :
    (c.sync = true ∧ σ'.starts ≠ σ.starts) ∨
    (c.sync = false ∧ ∃ o t, op = .recv o ∧ σ.q = .kid a (.initRes true) :: t ∧ σ.iA a = true) := (why_step he a).nT.resolve_left h

end Verif.Children
