import Verif.Children.Wait
/-!
# The moment a supervisor is initialized; the moment it starts; failed assertions
-/

namespace Verif.Children
open Verif

variable {c : Conf} {φ : Fl}

theorem adm_any (σ : State) (op : Op) : Adm { Fl.any with nd := false } σ op := by
  cases op <;> simp [Adm, Fl.any, May, Still]

theorem Reach.any {σ : State} (h : Reach c φ σ) : Reach c .any σ := by
  induction h with
  | init => exact .init
  | step op _ _ he ih => exact .step op ih (adm_any _ op) he

/-! ## the supervisor is initialized -/

/-- if the supervisor has been initialized between the two states, no child of the first is initializing in the second -/
def FinOk (σ σ' : State) : Prop := σ'.initOks ≠ σ.initOks → ∀ a, a < σ.nx → ¬ (view σ' a).hi

theorem hi_ri {v : View} {b : Bool} : ({ v with ri := b } : View).hi ↔ v.hi := Iff.rfl
theorem hi_st {v : View} {s : AState} : ({ v with st := s } : View).hi ↔ v.hi := Iff.rfl

theorem createN_old (now : Int) : ∀ (n : Nat) (σ : State) (a : Nat), a < σ.nx → ((view (createN now n σ) a).hi ↔ (view σ a).hi) := by
  intro n
  induction n with
  | zero => intro σ a _; exact Iff.rfl
  | succ n ih =>
    intro σ a h
    simp only [createN]
    have h1 : a < (createChild now σ).nx := Nat.lt_succ_of_lt h
    rw [ih _ a h1]
    unfold createChild
    rw [view_addKid, if_neg (Nat.ne_of_lt h)]
    exact hi_ri

theorem fin_aic {o : Ora} {σ σ' : State} (e : actorInitContinue c o σ = .ok σ')
    (hb : σ.st = .initializing → σ.rInit = false → ∀ a, ¬ (view σ a).hi) : FinOk σ σ' := by
  unfold actorInitContinue at e
  split at e
  · rename_i hi
    split at e
    · injection e with e; subst e; intro h; exact absurd rfl h
    · rename_i hn
      intro _ a ha
      have hno : ¬ (view σ a).hi := by
        cases hr : σ.rInit with
        | false => exact hb hi.1 hr a
        | true =>
          have : hasInit σ = false := by
            cases hh : hasInit σ with
            | false => rfl
            | true => exact absurd ⟨hr, hh⟩ hn
          exact hasInit_false this a
      have h1 : ¬ (view (createN o.now o.late { σ with rInit := false }) a).hi := by
        rw [createN_old _ _ { σ with rInit := false } _ ha]; exact hno
      simp only at e
      split at e
      · injection e with e; subst e
        rw [view_initFinish]; exact h1
      · injection e with e; subst e; exact h1
  · simp at e

theorem fin_ic {o : Ora} {σ σ' : State} (e : initContinue c o σ = .ok σ') : FinOk σ σ' := by
  unfold initContinue at e
  split at e
  · rename_i hi
    exact fin_aic (σ := { σ with rInit := false }) e (fun _ _ a => hasInit_false hi.2.2 a)
  · injection e with e; subst e; intro h; exact absurd rfl h

theorem fin_pre {σ τ σ' : State} (h : FinOk τ σ') (e1 : τ.initOks = σ.initOks) (e2 : σ.nx ≤ τ.nx) : FinOk σ σ' := by
  intro g a ha
  exact h (by rw [e1]; exact g) a (Nat.lt_of_lt_of_le ha e2)

theorem oks_doShutdownSelf (σ : State) : (doShutdownSelf c σ).initOks = σ.initOks ∧ (doShutdownSelf c σ).nx = σ.nx := by
  unfold doShutdownSelf; split <;> exact ⟨rfl, rfl⟩

theorem oks_shutdownContinue {o : Ora} {σ σ' : State} (e : shutdownContinue o σ = .ok σ') : σ'.initOks = σ.initOks ∧ σ'.nx = σ.nx := by
  unfold shutdownContinue at e
  split at e
  · split at e
    · split at e
      · injection e with e; subst e; exact ⟨rfl, rfl⟩
      · injection e with e; subst e
        unfold handleShutdown
        simp only
        split <;> exact ⟨rfl, rfl⟩
    · injection e with e; subst e; exact ⟨rfl, rfl⟩
  · simp at e

theorem oks_removed (a : Nat) (r : Rec) (o : Ora) (σ : State) :
    (removeRec a r o (cancelInit a (removePolicy c r σ))).initOks = σ.initOks ∧
    (removeRec a r o (cancelInit a (removePolicy c r σ))).nx = σ.nx := by
  have h1 : (removePolicy c r σ).initOks = σ.initOks ∧ (removePolicy c r σ).nx = σ.nx := by
    rcases removePolicy_cases (c := c) r σ with h | h | h <;> rw [h]
    · exact ⟨rfl, rfl⟩
    · exact ⟨rfl, rfl⟩
    · exact oks_doShutdownSelf σ
  generalize removePolicy c r σ = τ at *
  have h2 : (cancelInit a τ).initOks = τ.initOks ∧ (cancelInit a τ).nx = τ.nx := by
    unfold cancelInit; split <;> exact ⟨rfl, rfl⟩
  rw [← h1.1, ← h1.2, ← h2.1, ← h2.2]
  unfold removeRec
  split
  · simp only
    split <;> exact ⟨rfl, rfl⟩
  · exact ⟨rfl, rfl⟩

theorem fin_removeChild {a : Nat} {o : Ora} {σ σ' : State} (e : removeChild c a o σ = .ok σ') : FinOk σ σ' := by
  obtain ⟨r, hr, ha, e⟩ := removeChild_eq e
  have h1 := oks_removed (c := c) a r o σ
  unfold removeEnd at e
  split at e
  · split at e
    · simp at e
    · rename_i σ2 e2
      have h2 := oks_shutdownContinue e2
      exact fin_pre (fin_ic e) (by rw [h2.1, h1.1]) (by rw [h2.2, h1.2]; exact Nat.le_refl _)
  · exact fin_pre (fin_ic e) h1.1 (by rw [h1.2]; exact Nat.le_refl _)

theorem fin_same {σ σ' : State} (e : σ'.initOks = σ.initOks) : FinOk σ σ' := fun h => absurd e h

theorem fin_onKid {a : Nat} {m : KM} {o : Ora} {σ σ' : State} (e : onKid c a m o σ = .ok σ') : FinOk σ σ' := by
  cases m with
  | create =>
    obtain ⟨r, _, e⟩ := onCreate_eq e
    exact fin_same (by rw [e])
  | spawn =>
    simp only [onKid, onSpawn] at e
    split at e
    · simp at e
    · split at e
      · split at e
        · injection e with e; subst e; exact fin_same rfl
        · split at e
          · injection e with e; subst e
            refine fin_same ?_
            show (if σ.initReq then failInit c σ else doShutdownSelf c σ).initOks = σ.initOks
            split
            · rfl
            · exact (oks_doShutdownSelf σ).1
          · split at e <;> (injection e with e; subst e; exact fin_same rfl)
      · injection e with e; subst e; exact fin_same rfl
  | initRes ok =>
    simp only [onKid] at e
    split at e
    · split at e
      · rw [onInitOk_eq] at e
        have h1 : (okRecs c a { σ with iA := upd σ.iA a false }).initOks = σ.initOks ∧ (okRecs c a { σ with iA := upd σ.iA a false }).nx = σ.nx := by
          unfold okRecs
          split
          · exact ⟨rfl, rfl⟩
          · split <;> exact ⟨rfl, rfl⟩
        split at e
        · injection e with e; subst e; exact fin_same h1.1
        · exact fin_pre (fin_ic e) h1.1 (by rw [h1.2]; exact Nat.le_refl _)
      · simp only [onInitErr] at e
        split at e
        · injection e with e; subst e
          refine fin_same ?_
          split
          · rfl
          · exact (oks_doShutdownSelf (c := c) { σ with iA := upd σ.iA a false }).1
        · split at e
          · injection e with e; subst e; exact fin_same (oks_doShutdownSelf (c := c) { σ with iA := upd σ.iA a false }).1
          · split at e
            · injection e with e; subst e
              refine fin_same ?_
              unfold doShutdownKid; split <;> rfl
            · simp at e
    · injection e with e; subst e; exact fin_same rfl
  | initErr =>
    simp only [onKid, onInitErr] at e
    split at e
    · injection e with e; subst e
      refine fin_same ?_
      split
      · rfl
      · exact (oks_doShutdownSelf σ).1
    · split at e
      · injection e with e; subst e; exact fin_same (oks_doShutdownSelf σ).1
      · split at e
        · injection e with e; subst e
          refine fin_same ?_
          unfold doShutdownKid; split <;> rfl
        · simp at e
  | trigger =>
    simp only [onKid, onTrigger] at e
    split at e
    · simp at e
    · split at e
      · simp at e
      · injection e with e; subst e
        refine fin_same ?_
        unfold askKid; split <;> rfl
  | shutRes =>
    simp only [onKid] at e
    split at e
    · simp only [onShutRes] at e
      split at e
      · simp at e
      · rename_i r hr
        split at e
        · split at e
          · unfold continueIf at e
            split at e
            · exact fin_same (by rw [(oks_shutdownContinue e).1]; rfl)
            · injection e with e; subst e; exact fin_same rfl
          · split at e
            · simp at e
            · rename_i σ2 e2
              have h1 : FinOk σ σ2 := fin_pre (fin_removeChild e2) rfl (Nat.le_refl _)
              unfold continueIf at e
              split at e
              · rename_i hs
                intro g b hb
                have h2 := oks_shutdownContinue e
                have h3 := h1 (by rw [← h2.1]; exact g) b hb
                have h4 : σ2.st ≠ .shuttingDown → False := fun h => h hs
                -- the shutdown changes neither the state of a child nor what the record says about its initialization
                rintro ⟨r', q1, q2, q3, q4⟩
                apply h3
                have q1' : σ'.recs.find b = some r' := q1
                unfold shutdownContinue at e
                rw [if_pos hs] at e
                split at e
                · split at e
                  · injection e with e; subst e; exact ⟨r', q1, q2, q3, q4⟩
                  · injection e with e; subst e
                    have e3 : (handleShutdown σ2).recs = (askAll { σ2 with selfShut := .confirmed }).recs := by
                      unfold handleShutdown; simp only; split <;> rfl
                    have e4 : (handleShutdown σ2).kid = σ2.kid := by
                      unfold handleShutdown; simp only; split <;> rfl
                    rw [e3, find_askAll] at q1'
                    have q3' : ((handleShutdown σ2).kid b).st.rank ≤ 2 := q3
                    rw [e4] at q3'
                    cases hx : σ2.recs.find b with
                    | none =>
                      have : ({ σ2 with selfShut := .confirmed } : State).recs.find b = none := hx
                      rw [this] at q1'; simp at q1'
                    | some x =>
                      have : ({ σ2 with selfShut := .confirmed } : State).recs.find b = some x := hx
                      rw [this] at q1'; simp at q1'
                      refine ⟨x, hx, ?_, q3', ?_⟩
                      · subst q1'
                        unfold askRec at q2
                        split at q2
                        · assumption
                        · split at q2 <;> exact q2
                      · subst q1'
                        unfold askRec at q4
                        split at q4
                        · split at q4 <;> exact q4
                        · split at q4 <;> exact q4
                · injection e with e; subst e; exact ⟨r', q1, q2, q3, q4⟩
              · injection e with e; subst e; exact h1
        · simp at e
    · injection e with e; subst e; exact fin_same rfl
  | unsub => exact fin_removeChild e

theorem oks_onStart (σ : State) : (onStart c σ).initOks = σ.initOks := by
  unfold onStart
  split
  · split <;> rfl
  · rfl

theorem fin_handle {m : SMsg} {o : Ora} {σ σ' : State} (e : handle c m o σ = .ok σ')
    (hb : σ.st = .initializing → σ.rInit = false → ∀ a, ¬ (view σ a).hi) : FinOk σ σ' := by
  cases m with
  | kid a m => exact fin_onKid e
  | trigSelf =>
    simp only [handle, onTrigSelf] at e
    split at e
    · split at e
      · split at e
        · injection e with e; subst e; exact fin_same rfl
        · split at e
          · simp at e
          · rename_i σ2 e2
            injection e with e; subst e
            refine fin_same ?_
            show σ2.initOks = _
            rw [(oks_shutdownContinue e2).1]
            rfl
      · injection e with e; subst e; exact fin_same (oks_doShutdownSelf σ).1
    · injection e with e; subst e; exact fin_same rfl
  | initReqSelf =>
    simp only [handle, onInitReq] at e
    split at e
    · exact fin_aic (σ := { σ with initReq := true }) e hb
    · injection e with e; subst e; exact fin_same rfl
  | initResSelf ok =>
    simp only [handle] at e
    split at e
    · simp only [onInitResSelf] at e
      split at e
      · have h1 : (if σ.st.rank ≤ AState.operational.rank then ({ σ with selfIA := false, q := σ.q ++ [.startSelf] } : State) else { σ with selfIA := false }).initOks = σ.initOks ∧
            (if σ.st.rank ≤ AState.operational.rank then ({ σ with selfIA := false, q := σ.q ++ [.startSelf] } : State) else { σ with selfIA := false }).nx = σ.nx := by
          split <;> exact ⟨rfl, rfl⟩
        split at e
        · injection e with e; subst e; exact fin_same h1.1
        · exact fin_pre (fin_ic e) h1.1 (by rw [h1.2]; exact Nat.le_refl _)
      · injection e with e; subst e; exact fin_same (oks_doShutdownSelf (c := c) { σ with selfIA := false }).1
    · injection e with e; subst e; exact fin_same rfl
  | initErrSelf =>
    simp only [handle, onInitResSelf] at e
    split at e
    · simp at *
    · injection e with e; subst e; exact fin_same (oks_doShutdownSelf σ).1
  | startSelf =>
    simp only [handle] at e
    injection e with e; subst e; exact fin_same (oks_onStart σ)

theorem kidRecv_oks {a : Nat} {lost : Bool} {σ σ' : State} (e : kidRecv a lost σ = .ok σ') : σ'.initOks = σ.initOks :=
  congrArg SV.oks (sv_kidRecv e)

theorem fin_step {op : Op} {σ σ' : State} (e : step c σ op = .ok σ') (hb : Base φ σ) : FinOk σ σ' := by
  have hb' : σ.st = .initializing → σ.rInit = false → ∀ a, ¬ (view σ a).hi := fun h1 h2 a => (hb a).ri h1 h2
  cases op with
  | recv o =>
    simp only [step] at e
    split at e
    · injection e with e; subst e; exact fin_same rfl
    · rename_i m t hq
      split at e
      · injection e with e; subst e; exact fin_same rfl
      · exact fin_handle (σ := { σ with q := t }) e hb'
  | fired a =>
    simp only [step] at e
    split at e
    · simp at e
    · split at e
      · split at e <;> (injection e with e; subst e; exact fin_same rfl)
      · simp at e
  | down => simp only [step] at e; injection e with e; subst e; exact fin_same (oks_doShutdownSelf σ).1
  | pInit o =>
    simp only [step] at e
    split at e
    · simp only [onInitReq] at e
      split at e
      · exact fin_aic (σ := { σ with initReq := true }) e hb'
      · injection e with e; subst e; exact fin_same rfl
    · simp at e
  | pStart =>
    simp only [step] at e
    split at e
    · injection e with e; subst e; exact fin_same (oks_onStart σ)
    · simp at e
  | pShut o =>
    simp only [step] at e
    split at e
    · exact fin_same (by rw [(oks_shutdownContinue e).1]; rfl)
    · simp at e
  | contInit o =>
    simp only [step] at e
    split at e
    · exact fin_aic e hb'
    · simp at e
  | cont o =>
    simp only [step] at e
    split at e
    · exact fin_same (oks_shutdownContinue e).1
    · simp at e
  | kidRecv a lost => exact fin_same (kidRecv_oks e)
  | flush a =>
    simp only [step] at e
    split at e <;> (injection e with e; subst e; exact fin_same rfl)
  | drop | initTmoSelf | finish | kidInit | kidDown | kidShut | initTmo =>
    simp only [step] at e
    split at e
    · injection e with e; subst e; exact fin_same rfl
    · simp at e
  | create | spawn | escalate => simp only [step] at e; injection e with e; subst e; exact fin_same rfl

/-! ## no assertion fails -/

theorem ic_ok {o : Ora} {σ : State} : ∃ σ', initContinue c o σ = .ok σ' := by
  unfold initContinue
  split
  · rename_i h
    unfold actorInitContinue
    have h1 : ({ σ with rInit := false } : State).st = .initializing ∧ ({ σ with rInit := false } : State).initReq = true := ⟨h.1, h.2.1⟩
    rw [if_pos h1]
    simp only
    split
    · exact ⟨_, rfl⟩
    · split <;> exact ⟨_, rfl⟩
  · exact ⟨_, rfl⟩

theorem sc_ok {o : Ora} {σ : State} (h : σ.st = .shuttingDown) : ∃ σ', shutdownContinue o σ = .ok σ' := by
  unfold shutdownContinue
  rw [if_pos h]
  split
  · split <;> exact ⟨_, rfl⟩
  · exact ⟨_, rfl⟩

theorem continueIf_ok {o : Ora} {σ : State} : ∃ σ', continueIf o σ = .ok σ' := by
  unfold continueIf
  split
  · exact sc_ok ‹_›
  · exact ⟨_, rfl⟩

theorem removeChild_ok {a : Nat} {o : Ora} {σ : State} {r : Rec} (hr : σ.recs.find a = some r) (ha : r.act = true) :
    ∃ σ', removeChild c a o σ = .ok σ' := by
  unfold removeChild
  rw [hr]
  simp only [ha, if_true]
  split
  · rename_i h
    obtain ⟨σ2, h2⟩ := sc_ok (o := o) h.1
    rw [h2]
    exact ic_ok
  · exact ic_ok

theorem onInitErr_ok {a : Nat} {σ : State} (h : ∀ r, σ.recs.find a = some r → r.act = true) : ∃ σ', onInitErr c a σ = .ok σ' := by
  unfold onInitErr
  split
  · exact ⟨_, rfl⟩
  · split
    · exact ⟨_, rfl⟩
    · rename_i r hr
      rw [if_pos (h r hr)]
      exact ⟨_, rfl⟩

theorem onInitOk_ok {a : Nat} {o : Ora} {σ : State} : ∃ σ', onInitOk c a o σ = .ok σ' := by
  rw [onInitOk_eq]
  split
  · exact ⟨_, rfl⟩
  · exact ic_ok

theorem onKid_ok {a : Nat} {m : KM} {o : Ora} {σ : State} (hi : Inv c φ (view (push (.kid a m) σ) a)) (hd : D (view (push (.kid a m) σ) a)) :
    ∃ σ', onKid c a m o σ = .ok σ' := by
  have hmem : m ∈ (view (push (.kid a m) σ) a).s := by rw [view_push_self]; simp
  have e0 : (view (push (.kid a m) σ) a).r = σ.recs.find a := rfl
  have hnact : m ≠ .spawn → ∃ r, σ.recs.find a = some r ∧ r.act = true := by
    intro hne
    cases hr : σ.recs.find a with
    | none => exact absurd (hd.nact (fun r h => by rw [e0, hr] at h; simp at h) m (.inl hmem)) hne
    | some r =>
      refine ⟨r, rfl, ?_⟩
      cases ha : r.act with
      | true => rfl
      | false => exact absurd (hd.nact (fun r' h => by rw [e0, hr] at h; injection h with h; subst h; exact ha) m (.inl hmem)) hne
  cases m with
  | create =>
    obtain ⟨r, hr, _⟩ := hnact (by simp)
    simp only [onKid, onCreate, hr]
    exact ⟨_, rfl⟩
  | spawn =>
    obtain ⟨r, hr⟩ := hi.s.spr hmem
    have hr' : σ.recs.find a = some r := hr
    simp only [onKid, onSpawn, hr']
    split
    · split
      · exact ⟨_, rfl⟩
      · split
        · exact ⟨_, rfl⟩
        · split <;> exact ⟨_, rfl⟩
    · exact ⟨_, rfl⟩
  | initRes ok =>
    obtain ⟨r, hr, ha⟩ := hnact (by simp)
    simp only [onKid]
    split
    · split
      · exact onInitOk_ok
      · exact onInitErr_ok (σ := { σ with iA := upd σ.iA a false }) (fun r' h => by
          have h' : σ.recs.find a = some r' := h
          rw [hr] at h'; injection h' with h'; subst h'; exact ha)
    · exact ⟨_, rfl⟩
  | initErr =>
    obtain ⟨r, hr, ha⟩ := hnact (by simp)
    exact onInitErr_ok (fun r' h => by rw [hr] at h; injection h with h; subst h; exact ha)
  | trigger =>
    obtain ⟨r, hr, ha⟩ := hnact (by simp)
    simp only [onKid, onTrigger, hr]
    rw [if_neg (by simp [ha])]
    exact ⟨_, rfl⟩
  | shutRes =>
    obtain ⟨r, hr, ha⟩ := hnact (by simp)
    simp only [onKid]
    split
    · simp only [onShutRes, hr]
      rw [if_pos ha]
      split
      · exact continueIf_ok
      · obtain ⟨σ2, h2⟩ := removeChild_ok (c := c) (o := o) (a := a) (σ := State.setRec { σ with sA := upd σ.sA a false } a { r with shut := .confirmed })
          (r := { r with shut := .confirmed }) (by simp [State.setRec, AMap.find_set]) ha
        rw [h2]
        exact continueIf_ok
    · exact ⟨_, rfl⟩
  | unsub =>
    obtain ⟨r, hr, ha⟩ := hnact (by simp)
    exact removeChild_ok hr ha

theorem handle_ok {m : SMsg} {o : Ora} {σ : State} (hk : ∀ a k, m = .kid a k → ∃ σ', onKid c a k o σ = .ok σ') : ∃ σ', handle c m o σ = .ok σ' := by
  cases m with
  | kid a k => exact hk a k rfl
  | trigSelf =>
    simp only [handle, onTrigSelf]
    split
    · split
      · split
        · exact ⟨_, rfl⟩
        · obtain ⟨σ2, h2⟩ := sc_ok (o := o) (σ := askAll (startShutdown { σ with selfIA := if σ.initReq then false else σ.selfIA, selfShut := .confirmed })) rfl
          rw [h2]
          exact ⟨_, rfl⟩
      · exact ⟨_, rfl⟩
    · exact ⟨_, rfl⟩
  | initReqSelf =>
    simp only [handle, onInitReq]
    split
    · rename_i h
      unfold actorInitContinue
      have h1 : ({ σ with initReq := true } : State).st = .initializing ∧ ({ σ with initReq := true } : State).initReq = true := ⟨h, rfl⟩
      rw [if_pos h1]
      split
      · exact ⟨_, rfl⟩
      · simp only; split <;> exact ⟨_, rfl⟩
    · exact ⟨_, rfl⟩
  | initResSelf ok =>
    simp only [handle]
    split
    · simp only [onInitResSelf]
      split
      · split
        · exact ⟨_, rfl⟩
        · exact ic_ok
      · exact ⟨_, rfl⟩
    · exact ⟨_, rfl⟩
  | initErrSelf => exact ⟨_, rfl⟩
  | startSelf => exact ⟨_, rfl⟩

end Verif.Children
