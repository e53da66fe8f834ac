import Verif.Children.Cause
/-!
# Who demands the shutdown of a child
-/

namespace Verif.Children
open Verif

variable {c : Conf} {φ : Fl} {σ σ' : State}

/-- the messages that demand the shutdown of a child -/
def State.trigs (σ : State) (a : Nat) : Nat := σ.q.count (.kid a .trigger)

/-- no demand is added -/
def NoTrig (σ σ' : State) : Prop := ∀ a, σ'.trigs a ≤ σ.trigs a

theorem NoTrig.refl (σ : State) : NoTrig σ σ := fun _ => Nat.le_refl _
theorem NoTrig.trans {a b d : State} (h : NoTrig a b) (g : NoTrig b d) : NoTrig a d := fun x => Nat.le_trans (g x) (h x)
theorem NoTrig.same (h : σ'.q = σ.q) : NoTrig σ σ' := fun _ => by simp [State.trigs, h]
theorem NoTrig.add {l : List SMsg} (h : σ'.q = σ.q ++ l) (hl : ∀ a, .kid a .trigger ∉ l) : NoTrig σ σ' := fun a => by
  simp [State.trigs, h, List.count_append, List.count_eq_zero.2 (hl a)]
theorem NoTrig.pop {m : SMsg} {t : List SMsg} (hq : σ.q = m :: t) {τ : State} (h : NoTrig { σ with q := t } τ) : NoTrig σ τ := fun a => by
  refine Nat.le_trans (h a) ?_
  simp only [State.trigs, hq, List.count_cons]
  omega

syntax "notrig" : tactic
macro_rules | `(tactic| notrig) => `(tactic| first
  | exact NoTrig.same rfl
  | exact NoTrig.add rfl (by simp))

theorem notrig_createN (now : Int) : ∀ (n : Nat) (σ : State), NoTrig σ (createN now n σ)
  | 0, σ => .refl σ
  | n + 1, σ => by
    have : NoTrig σ (createChild now σ) := by unfold createChild; notrig
    exact this.trans (notrig_createN now n _)

theorem notrig_initFinish (σ : State) : NoTrig σ (initFinish c σ) := by
  unfold initFinish
  cases hc : c.root <;> simp only [Bool.false_eq_true, if_true, if_false] <;> notrig
theorem notrig_failInit (σ : State) : NoTrig σ (failInit c σ) := by
  unfold failInit
  cases hc : c.root <;> simp only [Bool.false_eq_true, if_true, if_false] <;> notrig
theorem notrig_self (σ : State) : NoTrig σ (doShutdownSelf c σ) := by
  unfold doShutdownSelf
  split
  · cases hc : c.root <;> simp only [Bool.false_eq_true, if_true, if_false] <;> notrig
  · exact .refl _

theorem notrig_actorInit {o : Ora} (h : actorInitContinue c o σ = .ok σ') : NoTrig σ σ' := by
  unfold actorInitContinue at h
  split at h
  · split at h
    · injection h with h; subst h; exact .refl _
    · have g0 : NoTrig σ { σ with rInit := false } := .same rfl
      have g := g0.trans (notrig_createN o.now o.late { σ with rInit := false })
      split at h <;> (injection h with h; subst h)
      · exact g.trans (notrig_initFinish _)
      · exact g
  · simp at h

theorem notrig_initContinue {o : Ora} (h : initContinue c o σ = .ok σ') : NoTrig σ σ' := by
  unfold initContinue at h
  split at h
  · exact fun a => notrig_actorInit h a
  · injection h with h; subst h; exact .refl _

theorem notrig_cancelInit (a : Nat) (σ : State) : NoTrig σ (cancelInit a σ) := by unfold cancelInit; split <;> notrig
theorem notrig_removePolicy (r : Rec) (σ : State) : NoTrig σ (removePolicy c r σ) := by
  unfold removePolicy
  repeat' split
  all_goals first | exact .refl _ | exact notrig_failInit _ | exact notrig_self _

theorem notrig_removeRec (a : Nat) (r : Rec) (o : Ora) (σ : State) : NoTrig σ (removeRec a r o σ) := by
  unfold removeRec
  simp only []
  repeat' split
  all_goals notrig

theorem notrig_shutdownContinue {o : Ora} (h : shutdownContinue o σ = .ok σ') : NoTrig σ σ' := by
  unfold shutdownContinue at h
  repeat' split at h
  all_goals first | (simp at h; done) | (injection h with h; subst h)
  all_goals first | notrig | (unfold handleShutdown; simp only []; split <;> notrig)

theorem notrig_continueIf {o : Ora} (h : continueIf o σ = .ok σ') : NoTrig σ σ' := by
  unfold continueIf at h
  split at h
  · exact notrig_shutdownContinue h
  · injection h with h; subst h; exact .refl _

theorem notrig_removeChild {a : Nat} {o : Ora} (h : removeChild c a o σ = .ok σ') : NoTrig σ σ' := by
  unfold removeChild at h
  split at h
  · simp at h
  · rename_i r hf
    split at h
    · have g : NoTrig σ (removeRec a r o (cancelInit a (removePolicy c r σ))) :=
        (notrig_removePolicy r σ).trans ((notrig_cancelInit a _).trans (notrig_removeRec a r o _))
      generalize removeRec a r o (cancelInit a (removePolicy c r σ)) = σ1 at h g
      simp only [] at h
      split at h
      · split at h
        · simp at h
        · rename_i σ2 e
          exact g.trans ((notrig_shutdownContinue e).trans (notrig_initContinue h))
      · exact g.trans (notrig_initContinue h)
    · simp at h

theorem notrig_trigSelf {o : Ora} {σ1 : State} (h : onTrigSelf c o σ = .ok σ1) : NoTrig σ σ1 := by
  unfold onTrigSelf at h
  split at h
  · split at h
    · simp only [] at h
      split at h
      · injection h with h; subst h; exact .same rfl
      · split at h
        · simp at h
        · rename_i σ2 e
          injection h with h; subst h
          exact fun a => notrig_shutdownContinue e a
    · injection h with h; subst h
      exact fun a => notrig_self (c := c) σ a
  · injection h with h; subst h; exact .refl _

theorem notrig_onInitReq {o : Ora} (h : onInitReq c o σ = .ok σ') : NoTrig σ σ' := by
  unfold onInitReq at h
  simp only [] at h
  split at h
  · exact fun a => notrig_actorInit h a
  · injection h with h; subst h; exact .same rfl

theorem notrig_onInitResSelf {ok : Bool} {o : Ora} (h : onInitResSelf c ok o σ = .ok σ') : NoTrig σ σ' := by
  unfold onInitResSelf at h
  split at h
  · simp only [] at h
    have g : NoTrig σ (if σ.st.rank ≤ AState.operational.rank then { σ with q := σ.q ++ [.startSelf] } else σ) := by split <;> notrig
    generalize (if σ.st.rank ≤ AState.operational.rank then { σ with q := σ.q ++ [SMsg.startSelf] } else σ) = σ1 at h g
    split at h
    · injection h with h; subst h; exact g
    · exact g.trans (notrig_initContinue h)
  · injection h with h; subst h; exact notrig_self σ

theorem notrig_onInitOk {b : Nat} {o : Ora} (h : onInitOk c b o σ = .ok σ') : NoTrig σ σ' := by
  unfold onInitOk at h
  simp only [] at h
  have go : ∀ τ : State, (if hasInit σ then Except.ok τ else initContinue c o τ) = Except.ok σ' → NoTrig τ σ' := by
    intro τ h
    split at h
    · injection h with h; subst h; exact .refl _
    · exact notrig_initContinue h
  refine NoTrig.trans ?_ (go _ h)
  split
  · exact .refl _
  · split <;> exact .same rfl

theorem notrig_onInitErr {a b : Nat} (h : onInitErr c b σ = .ok σ') (hb : b ≠ a) : σ'.trigs a ≤ σ.trigs a := by
  unfold onInitErr at h
  repeat' split at h
  all_goals first | (simp at h; done) | (injection h with h; subst h)
  · exact notrig_failInit _ a
  · exact notrig_self _ a
  · exact notrig_self _ a
  · unfold doShutdownKid
    split
    · simp only [State.trigs, List.count_append]
      rw [show List.count (SMsg.kid a .trigger) [SMsg.kid b .trigger] = 0 from List.count_eq_zero.2 (by simp [Ne.symm hb])]
      omega
    · exact Nat.le_refl _

theorem notrig_onStart (σ : State) : NoTrig σ (onStart c σ) := by
  unfold onStart
  repeat' split
  all_goals notrig

/-- a message that demands the shutdown of a child is due to the child itself or to its failure to initialize -/
theorem C36_trigger {op : Op} (he : step c σ op = .ok σ') (a : Nat) (h : σ.q.count (.kid a .trigger) < σ'.q.count (.kid a .trigger)) :
    (∃ t, op = .flush a ∧ σ.out a = .trigger :: t) ∨ ∃ o, op = .recv o ∧ Failure σ a := by
  have no : NoTrig σ σ' → False := fun g => absurd (g a) (Nat.not_le.2 h)
  cases op with
  | recv o =>
    simp only [step] at he
    split at he
    · injection he with he; subst he; exact (no (.refl _)).elim
    · rename_i m t hq
      split at he
      · injection he with he; subst he; exact (no (.pop hq (.refl _))).elim
      · have no' : ∀ {τ : State}, τ.q = t → NoTrig τ σ' → False := fun {τ} e g => no (.pop hq (fun x => by have := g x; simpa [State.trigs, e] using this))
        cases m with
        | kid b m =>
          simp only [handle] at he
          cases m with
          | create =>
            simp only [onKid, onCreate] at he
            split at he
            · simp at he
            · injection he with he; subst he; exact (no' rfl (.same rfl)).elim
          | spawn =>
            simp only [onKid, onSpawn] at he
            split at he
            · simp at he
            · split at he
              · repeat' split at he
                all_goals (injection he with he; subst he)
                · exact (no' (τ := { σ with q := t }) rfl (by unfold createSpawned; notrig)).elim
                · exact (no' (τ := { σ with q := t }) rfl (fun x => notrig_failInit (c := c) { σ with q := t } x)).elim
                · exact (no' (τ := { σ with q := t }) rfl (fun x => notrig_self (c := c) { σ with q := t } x)).elim
                · exact (no' (τ := { σ with q := t }) rfl (.same rfl)).elim
                · exact (no' (τ := { σ with q := t }) rfl (.same rfl)).elim
              · injection he with he; subst he; exact (no' rfl (.same rfl)).elim
          | initRes ok =>
            simp only [onKid] at he
            split at he
            · rename_i hi
              cases ok with
              | false =>
                simp only [Bool.false_eq_true, if_false] at he
                by_cases hb : b = a
                · subst hb; exact .inr ⟨o, rfl, .inl ⟨t, hq, hi⟩⟩
                · have := notrig_onInitErr he hb
                  simp only [State.trigs] at this
                  rw [hq, List.count_cons] at h
                  omega
              | true =>
                simp only [if_true] at he
                exact (no' rfl (notrig_onInitOk he)).elim
            · injection he with he; subst he; exact (no' rfl (.same rfl)).elim
          | initErr =>
            simp only [onKid] at he
            by_cases hb : b = a
            · subst hb; exact .inr ⟨o, rfl, .inr ⟨t, hq⟩⟩
            · have := notrig_onInitErr he hb
              simp only [State.trigs] at this
              rw [hq, List.count_cons] at h
              omega
          | trigger =>
            simp only [onKid, onTrigger] at he
            split at he
            · simp at he
            · split at he
              · simp at he
              · injection he with he; subst he
                exact (no' (τ := { σ with q := t }) rfl (by unfold askKid; split <;> notrig)).elim
          | shutRes =>
            simp only [onKid] at he
            split at he
            · unfold onShutRes at he
              split at he
              · simp at he
              · split at he
                · simp only [] at he
                  split at he
                  · refine (no' (τ := { σ with q := t }) rfl (NoTrig.trans ?_ (notrig_continueIf he))).elim
                    notrig
                  · split at he
                    · simp at he
                    · rename_i σ2 e
                      refine (no' (τ := { σ with q := t }) rfl (NoTrig.trans ?_ ((notrig_removeChild e).trans (notrig_continueIf he)))).elim
                      notrig
                · simp at he
            · injection he with he; subst he; exact (no' rfl (.same rfl)).elim
          | unsub =>
            simp only [onKid] at he
            exact (no' rfl (notrig_removeChild he)).elim
        | trigSelf => exact (no' rfl (notrig_trigSelf he)).elim
        | initReqSelf => exact (no' rfl (notrig_onInitReq he)).elim
        | initResSelf ok =>
          simp only [handle] at he
          split at he
          · exact (no' rfl (notrig_onInitResSelf he)).elim
          · injection he with he; subst he; exact (no' rfl (.same rfl)).elim
        | initErrSelf => exact (no' rfl (notrig_onInitResSelf he)).elim
        | startSelf =>
          simp only [handle] at he
          injection he with he; subst he
          exact (no' rfl (notrig_onStart _)).elim
  | pInit o =>
    simp only [step] at he
    split at he
    · exact (no (notrig_onInitReq he)).elim
    · simp at he
  | pStart =>
    simp only [step] at he
    split at he
    · injection he with he; subst he; exact (no (notrig_onStart _)).elim
    · simp at he
  | pShut o =>
    simp only [step] at he
    split at he
    · exact (no (fun x => notrig_shutdownContinue he x)).elim
    · simp at he
  | contInit o =>
    simp only [step] at he
    split at he
    · exact (no (notrig_actorInit he)).elim
    · simp at he
  | cont o =>
    simp only [step] at he
    split at he
    · exact (no (notrig_shutdownContinue he)).elim
    · simp at he
  | down => simp only [step] at he; injection he with he; subst he; exact (no (notrig_self σ)).elim
  | create now =>
    simp only [step] at he
    injection he with he; subst he
    exact (no (by unfold createChild; notrig)).elim
  | spawn cfg =>
    simp only [step] at he
    injection he with he; subst he
    exact (no (by unfold spawn; notrig)).elim
  | escalate =>
    simp only [step] at he
    injection he with he; subst he
    exact (no (by notrig)).elim
  | drop =>
    simp only [step] at he
    split at he
    · injection he with he; subst he
      exact (no (fun x => (List.tail_sublist σ.q).count_le _)).elim
    · simp at he
  | kidRecv b lost =>
    simp only [step, kidRecv] at he
    repeat' split at he
    all_goals (injection he with he; subst he)
    all_goals first | exact (no (.same rfl)).elim | (split at h <;> exact (Nat.lt_irrefl _ h).elim)
  | flush b =>
    simp only [step] at he
    split at he
    · injection he with he; subst he; exact (no (.refl _)).elim
    · rename_i m o ho
      injection he with he; subst he
      by_cases hm : SMsg.kid b m = .kid a .trigger
      · injection hm with h1 h2; subst h1; subst h2; exact .inl ⟨o, rfl, ho⟩
      · simp only [List.count_append] at h
        rw [show List.count (SMsg.kid a .trigger) [SMsg.kid b m] = 0 from List.count_eq_zero.2 (by simpa using Ne.symm hm)] at h
        omega
  | _ =>
    simp only [step] at he
    repeat' split at he
    all_goals first
      | (simp at he; done)
      | (injection he with he; subst he; exact (no (by notrig)).elim)

/-- as long as the supervisor runs, no spawner waits for ever: when the messages are worked off, one whose instance is gone has a timer, or
has given up -/
theorem C58_not_forgotten (hr : Reach c φ σ) (hq : σ.q = []) (h4 : σ.st.rank ≤ AState.operational.rank) {a : Nat} {r : Rec}
    (hf : σ.recs.find a = some r) (ha : r.act = false) : r.info.timer = true ∨ r.info.active = false := by
  have h := hr.keeps (P := fun v : View => (v.cl = true → 5 ≤ v.st.rank) ∧
      ∀ x, v.r = some x → x.act = false → x.info.timer = false → x.info.active = true → v.st.rank ≤ 4 → .spawn ∈ v.s) a
    (by constructor <;> simp [view, State.init]) (fun v w hv st => by
      obtain ⟨h1, h2⟩ := hv
      cases st <;> constructor <;> (try (first | exact h1 | exact h2)) <;> grind [AState.rank, Rem])
  have := h.2 r hf ha
  cases ht : r.info.timer with
  | true => exact .inl rfl
  | false =>
    cases hact : r.info.active with
    | false => exact .inr rfl
    | true =>
      have hm := this ht hact h4
      rw [show (view σ a).s = [] by simp [view, hq, qOf]] at hm
      simp at hm

/-- a root supervisor that has initialized itself starts: it is not left initialized -/
theorem C37_root_started (hc : c.root = true) (hr : Reach c φ σ) (hq : σ.q = []) : σ.st ≠ .initialized := by
  intro h
  have := hr.r.r1 hc h
  have hq0 : (sview σ).q = [] := by simp [sview, hq]
  rw [hq0] at this
  simp at this

/-- a root supervisor that is told to shut down does so: whatever happens afterwards, when it has worked off its messages, it is shutting
down -/
theorem C35_told (hc : c.root = true) (h5 : σ.st.rank < AState.shuttingDown.rank) {ops : List Op} (he : run c σ (.down :: ops) = .ok σ')
    (hr : Reach c φ σ') (hq : σ'.q = []) : AState.shuttingDown.rank ≤ σ'.st.rank := by
  have stays : ∀ (ops : List Op) (τ τ' : State), Failing τ → run c τ ops = .ok τ' → Failing τ' := by
    intro ops
    induction ops with
    | nil => intro τ τ' h e; simp [run] at e; subst e; exact h
    | cons op ops ih =>
      intro τ τ' h e
      simp only [run] at e
      split at e
      · simp at e
      · rename_i τ1 e1
        exact ih τ1 τ' (C38_stays h e1) e
  refine C38_root hc hr hq ?_
  simp only [run, step] at he
  refine stays ops _ _ ?_ he
  unfold doShutdownSelf
  rw [if_pos h5]
  right; simp

end Verif.Children
