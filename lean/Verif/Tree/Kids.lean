import Verif.Children.Props
/-!
# What a step of a supervisor does to its children and reports to its parent
-/

namespace Verif.Children
open Verif

variable {c : Conf} {φ : Fl}

/-- children are only created -/
def KE (σ σ' : State) : Prop := σ.nx ≤ σ'.nx ∧ ∀ b, σ'.kid b = σ.kid b ∨ (σ.nx ≤ b ∧ σ'.kid b = Kid.new)

theorem KE.same {σ σ' : State} (h1 : σ'.kid = σ.kid) (h2 : σ'.nx = σ.nx) : KE σ σ' :=
  ⟨by rw [h2]; exact Nat.le_refl _, fun b => .inl (by rw [h1])⟩

theorem KE.trans {σ σ1 σ2 : State} (h : KE σ σ1) (h' : KE σ1 σ2) : KE σ σ2 := by
  refine ⟨Nat.le_trans h.1 h'.1, fun b => ?_⟩
  rcases h'.2 b with h2 | h2
  · rcases h.2 b with h1 | h1
    · exact .inl (h2.trans h1)
    · exact .inr ⟨h1.1, h2.trans h1.2⟩
  · exact .inr ⟨Nat.le_trans h.1 h2.1, h2.2⟩

theorem ke_addKid (r : Rec) (σ : State) : KE σ (addKid r σ) := by
  refine ⟨Nat.le_succ _, fun b => ?_⟩
  by_cases hb : b = σ.nx
  · right; subst hb; exact ⟨Nat.le_refl _, by simp [addKid, upd]⟩
  · left; simp [addKid, upd, hb]

theorem ke_createN (now : Int) : ∀ (n : Nat) (σ : State), KE σ (createN now n σ) := by
  intro n
  induction n with
  | zero => intro σ; exact .same rfl rfl
  | succ n ih => intro σ; exact (ke_addKid _ σ).trans (ih _)

theorem ke_aic {o : Ora} {σ σ' : State} (e : actorInitContinue c o σ = .ok σ') : KE σ σ' := by
  unfold actorInitContinue at e
  split at e
  · split at e
    · injection e with e; subst e; exact .same rfl rfl
    · have h := ke_createN o.now o.late { σ with rInit := false }
      simp only at e
      split at e
      · injection e with e; subst e
        exact h.trans (.same rfl rfl)
      · injection e with e; subst e; exact h
  · simp at e

theorem ke_ic {o : Ora} {σ σ' : State} (e : initContinue c o σ = .ok σ') : KE σ σ' := by
  unfold initContinue at e
  split at e
  · exact ke_aic (σ := { σ with rInit := false }) e
  · injection e with e; subst e; exact .same rfl rfl

theorem kid_doShutdownSelf (σ : State) : (doShutdownSelf c σ).kid = σ.kid ∧ (doShutdownSelf c σ).nx = σ.nx := by
  unfold doShutdownSelf; split <;> exact ⟨rfl, rfl⟩

theorem kid_sc {o : Ora} {σ σ' : State} (e : shutdownContinue o σ = .ok σ') : σ'.kid = σ.kid ∧ σ'.nx = σ.nx := by
  unfold shutdownContinue at e
  split at e
  · split at e
    · split at e
      · injection e with e; subst e; exact ⟨rfl, rfl⟩
      · injection e with e; subst e
        unfold handleShutdown
        simp only
        split <;> exact ⟨rfl, rfl⟩
    · injection e with e; subst e; exact ⟨rfl, rfl⟩
  · simp at e

theorem ke_sc {o : Ora} {σ σ' : State} (e : shutdownContinue o σ = .ok σ') : KE σ σ' := .same (kid_sc e).1 (kid_sc e).2

theorem ke_continueIf {o : Ora} {σ σ' : State} (e : continueIf o σ = .ok σ') : KE σ σ' := by
  unfold continueIf at e
  split at e
  · exact ke_sc e
  · injection e with e; subst e; exact .same rfl rfl

theorem kid_removed (a : Nat) (r : Rec) (o : Ora) (σ : State) :
    (removeRec a r o (cancelInit a (removePolicy c r σ))).kid = σ.kid ∧
    (removeRec a r o (cancelInit a (removePolicy c r σ))).nx = σ.nx := by
  have h1 : (removePolicy c r σ).kid = σ.kid ∧ (removePolicy c r σ).nx = σ.nx := by
    rcases removePolicy_cases (c := c) r σ with h | h | h <;> rw [h]
    · exact ⟨rfl, rfl⟩
    · exact ⟨rfl, rfl⟩
    · exact kid_doShutdownSelf σ
  generalize removePolicy c r σ = τ at *
  have h2 : (cancelInit a τ).kid = τ.kid ∧ (cancelInit a τ).nx = τ.nx := by
    unfold cancelInit; split <;> exact ⟨rfl, rfl⟩
  rw [← h1.1, ← h1.2, ← h2.1, ← h2.2]
  unfold removeRec
  split
  · simp only
    split <;> exact ⟨rfl, rfl⟩
  · exact ⟨rfl, rfl⟩

theorem ke_removeChild {a : Nat} {o : Ora} {σ σ' : State} (e : removeChild c a o σ = .ok σ') : KE σ σ' := by
  obtain ⟨r, hr, ha, e⟩ := removeChild_eq e
  have h1 : KE σ (removeRec a r o (cancelInit a (removePolicy c r σ))) := .same (kid_removed a r o σ).1 (kid_removed a r o σ).2
  unfold removeEnd at e
  split at e
  · split at e
    · simp at e
    · rename_i σ2 e2
      exact (h1.trans (ke_sc e2)).trans (ke_ic e)
  · exact h1.trans (ke_ic e)

theorem ke_onInitErr {a : Nat} {σ σ' : State} (e : onInitErr c a σ = .ok σ') : KE σ σ' := by
  unfold onInitErr at e
  split at e
  · injection e with e; subst e
    split
    · exact .same rfl rfl
    · exact .same (kid_doShutdownSelf σ).1 (kid_doShutdownSelf σ).2
  · split at e
    · injection e with e; subst e; exact .same (kid_doShutdownSelf σ).1 (kid_doShutdownSelf σ).2
    · split at e
      · injection e with e; subst e
        unfold doShutdownKid; split <;> exact .same rfl rfl
      · simp at e

theorem ke_onInitOk {a : Nat} {o : Ora} {σ σ' : State} (e : onInitOk c a o σ = .ok σ') : KE σ σ' := by
  rw [onInitOk_eq] at e
  have h1 : KE σ (okRecs c a σ) := by
    unfold okRecs
    split
    · exact .same rfl rfl
    · split <;> exact .same rfl rfl
  split at e
  · injection e with e; subst e; exact h1
  · exact h1.trans (ke_ic e)

theorem ke_onKid {a : Nat} {m : KM} {o : Ora} {σ σ' : State} (e : onKid c a m o σ = .ok σ') : KE σ σ' := by
  cases m with
  | create =>
    obtain ⟨r, _, e⟩ := onCreate_eq e
    exact .same (by rw [e]) (by rw [e])
  | spawn =>
    simp only [onKid, onSpawn] at e
    split at e
    · simp at e
    · split at e
      · split at e
        · injection e with e; subst e
          exact (KE.same (σ := σ) (σ' := { σ with recs := σ.recs.erase a }) rfl rfl).trans (ke_addKid _ _)
        · split at e
          · injection e with e; subst e
            have h1 : KE σ (if σ.initReq then failInit c σ else doShutdownSelf c σ) := by
              split
              · exact .same rfl rfl
              · exact .same (kid_doShutdownSelf σ).1 (kid_doShutdownSelf σ).2
            exact h1.trans (.same rfl rfl)
          · split at e <;> (injection e with e; subst e; exact .same rfl rfl)
      · injection e with e; subst e; exact .same rfl rfl
  | initRes ok =>
    simp only [onKid] at e
    split at e
    · split at e
      · exact ke_onInitOk (σ := { σ with iA := upd σ.iA a false }) e
      · exact ke_onInitErr (σ := { σ with iA := upd σ.iA a false }) e
    · injection e with e; subst e; exact .same rfl rfl
  | initErr => exact ke_onInitErr e
  | trigger =>
    simp only [onKid, onTrigger] at e
    split at e
    · simp at e
    · split at e
      · simp at e
      · injection e with e; subst e
        unfold askKid; split <;> exact .same rfl rfl
  | shutRes =>
    simp only [onKid] at e
    split at e
    · simp only [onShutRes] at e
      split at e
      · simp at e
      · rename_i r hr
        split at e
        · split at e
          · have := ke_continueIf e
            exact (KE.same rfl rfl).trans this
          · split at e
            · simp at e
            · rename_i σ2 e2
              have h1 := ke_removeChild e2
              have h2 := ke_continueIf e
              exact (KE.trans (KE.same (σ := σ) rfl rfl) h1).trans h2
        · simp at e
    · injection e with e; subst e; exact .same rfl rfl
  | unsub => exact ke_removeChild e

theorem ke_onInitReq {o : Ora} {σ σ' : State} (e : onInitReq c o σ = .ok σ') : KE σ σ' := by
  simp only [onInitReq] at e
  split at e
  · exact ke_aic (σ := { σ with initReq := true }) e
  · injection e with e; subst e; exact .same rfl rfl

theorem ke_onStart (σ : State) : KE σ (onStart c σ) := by
  unfold onStart
  split
  · split <;> exact .same rfl rfl
  · exact .same rfl rfl

theorem ke_handle {m : SMsg} {o : Ora} {σ σ' : State} (e : handle c m o σ = .ok σ') : KE σ σ' := by
  cases m with
  | kid a m => exact ke_onKid e
  | trigSelf =>
    simp only [handle, onTrigSelf] at e
    split at e
    · split at e
      · split at e
        · injection e with e; subst e; exact .same rfl rfl
        · split at e
          · simp at e
          · rename_i σ2 e2
            injection e with e; subst e
            have := kid_sc e2
            exact .same this.1 this.2
      · injection e with e; subst e; exact .same (kid_doShutdownSelf σ).1 (kid_doShutdownSelf σ).2
    · injection e with e; subst e; exact .same rfl rfl
  | initReqSelf => exact ke_onInitReq e
  | initResSelf ok =>
    simp only [handle] at e
    split at e
    · simp only [onInitResSelf] at e
      split at e
      · have h1 : KE σ (if σ.st.rank ≤ AState.operational.rank then ({ σ with selfIA := false, q := σ.q ++ [.startSelf] } : State) else { σ with selfIA := false }) := by
          split <;> exact .same rfl rfl
        split at e
        · injection e with e; subst e; exact h1
        · exact h1.trans (ke_ic e)
      · injection e with e; subst e
        exact .same (kid_doShutdownSelf (c := c) { σ with selfIA := false }).1 (kid_doShutdownSelf (c := c) { σ with selfIA := false }).2
    · injection e with e; subst e; exact .same rfl rfl
  | initErrSelf =>
    simp only [handle, onInitResSelf] at e
    split at e
    · simp at *
    · injection e with e; subst e; exact .same (kid_doShutdownSelf σ).1 (kid_doShutdownSelf σ).2
  | startSelf =>
    simp only [handle] at e
    injection e with e; subst e; exact ke_onStart σ

/-- the operation is one of the child itself -/
def kidOp (b : Nat) : Op → Prop
  | .kidRecv a _ | .kidInit a _ _ | .kidDown a | .kidShut a => a = b
  | _ => False

theorem kid_step {op : Op} {σ σ' : State} (e : step c σ op = .ok σ') (b : Nat) (hn : ¬ kidOp b op) :
    σ'.kid b = σ.kid b ∨ (σ.nx ≤ b ∧ σ'.kid b = Kid.new) := by
  have key : KE σ σ' → σ'.kid b = σ.kid b ∨ (σ.nx ≤ b ∧ σ'.kid b = Kid.new) := fun h => h.2 b
  cases op with
  | recv o =>
    simp only [step] at e
    split at e
    · injection e with e; subst e; exact .inl rfl
    · rename_i m t hq
      split at e
      · injection e with e; subst e; exact .inl rfl
      · exact key ((KE.same (σ := σ) (σ' := { σ with q := t }) rfl rfl).trans (ke_handle e))
  | create now => simp only [step] at e; injection e with e; subst e; exact key (ke_addKid _ σ)
  | fired a =>
    simp only [step] at e
    split at e
    · simp at e
    · split at e
      · split at e <;> (injection e with e; subst e; exact .inl rfl)
      · simp at e
  | down => simp only [step] at e; injection e with e; subst e; exact .inl (by rw [(kid_doShutdownSelf σ).1])
  | pInit o =>
    simp only [step] at e
    split at e
    · exact key (ke_onInitReq e)
    · simp at e
  | pStart =>
    simp only [step] at e
    split at e
    · injection e with e; subst e; exact key (ke_onStart σ)
    · simp at e
  | pShut o =>
    simp only [step] at e
    split at e
    · exact .inl (by rw [(kid_sc e).1]; rfl)
    · simp at e
  | contInit o =>
    simp only [step] at e
    split at e
    · exact key (ke_aic e)
    · simp at e
  | cont o =>
    simp only [step] at e
    split at e
    · exact key (ke_sc e)
    · simp at e
  | kidRecv a lost =>
    have hne : b ≠ a := fun h => hn h.symm
    simp only [step, kidRecv] at e
    split at e
    · injection e with e; subst e; exact .inl rfl
    · split at e
      · injection e with e; subst e; exact .inl rfl
      · split at e
        · injection e with e; subst e; left; simp [upd, hne]
        · injection e with e; subst e; left; split <;> simp [upd, hne]
        · injection e with e; subst e; left; simp [upd, hne]
  | flush a =>
    simp only [step] at e
    split at e <;> (injection e with e; subst e; exact .inl rfl)
  | kidInit a ok keep =>
    have hne : b ≠ a := fun h => hn h.symm
    simp only [step] at e
    split at e
    · injection e with e; subst e; left; simp [upd, hne]
    · simp at e
  | kidDown a =>
    have hne : b ≠ a := fun h => hn h.symm
    simp only [step] at e
    split at e
    · injection e with e; subst e; left; simp [upd, hne]
    · simp at e
  | kidShut a =>
    have hne : b ≠ a := fun h => hn h.symm
    simp only [step] at e
    split at e
    · injection e with e; subst e; left; simp [upd, hne]
    · simp at e
  | drop | initTmoSelf | finish | initTmo =>
    simp only [step] at e
    split at e
    · injection e with e; subst e; exact .inl rfl
    · simp at e
  | spawn | escalate => simp only [step] at e; injection e with e; subst e; exact .inl rfl

/-! ## what the parent learns -/

/-- a supervisor that is not a root sends itself no other message than the trigger -/
def Sub (c : Conf) (v : SV) : Prop := c.root = false → v.ia = false ∧ ∀ m ∈ v.q, m = .trigSelf

theorem Reach.sub {σ : State} (h : Reach c φ σ) : Sub c (sview σ) := by
  refine h.skeeps ?_ (fun v w hv st => ?_)
  · intro hc; simp [sview, State.init, hc]
  · intro hc
    obtain ⟨h1, h2⟩ := hv hc
    cases st <;> (try exact ⟨h1, h2⟩) <;> simp only [root, hc] at * <;> constructor <;> grind

/-- the changes of a supervisor that concern its parent, in one step that is not caused by a message of the parent -/
structure Delta (v w : SV) : Prop where
  wants : v.wants ≤ w.wants
  want5 : v.wants < w.wants → v.st.rank < 5
  st : w.st = v.st ∨ (v.st = .initializing ∧ w.st = .initialized ∧ w.oks = v.oks + 1) ∨ (v.st = .shuttingDown ∧ w.st = .shutDown)
  ans : (w.oks = v.oks ∧ w.fails = v.fails ∧ w.req = v.req) ∨
    (w.oks = v.oks + 1 ∧ w.fails = v.fails ∧ v.req = true ∧ w.req = false ∧ v.st = .initializing ∧ w.st = .initialized) ∨
    (w.oks = v.oks ∧ w.fails = v.fails + 1 ∧ v.req = true ∧ w.req = false)

theorem delta {v w : SV} (hc : c.root = false) (h : SSteps c ⟨true, true, true⟩ v w) : Delta v w := by
  refine SSteps.keeps (P := fun x => Delta v x) (fun x y hx st => ?_) h ⟨Nat.le_refl _, fun h => by omega, .inl rfl, .inl ⟨rfl, rfl, rfl⟩⟩
  obtain ⟨h1, h2, h3, h4⟩ := hx
  cases st <;> constructor <;> (try (first | exact h1 | exact h2 | exact h3 | exact h4)) <;> (try simp only [root, hc] at *) <;> grind [AState.rank]

end Verif.Children
