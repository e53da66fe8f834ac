import Verif.Children.Safe
/-!
# Invariants of the whole state
-/

namespace Verif.Children
open Verif

variable {c : Conf} {φ : Fl}

/-! ## the records have different addresses -/

def ND (σ : State) : Prop := (AMap.keys σ.recs).Nodup

theorem keys_map {V : Type} (g : V → V) : ∀ l : AMap Nat V, AMap.keys (l.map (fun p => (p.1, g p.2))) = AMap.keys l := by
  intro l
  simp [AMap.keys]

theorem nd_of {σ σ' : State} (h : ND σ) (e : σ'.recs = σ.recs) : ND σ' := by unfold ND; rw [e]; exact h

theorem nd_set {σ σ' : State} {a : Nat} {r : Rec} (h : ND σ) (e : σ'.recs = σ.recs.set a r) : ND σ' := by
  unfold ND; rw [e]; exact AMap.keys_set_nodup _ _ _ h

theorem nd_erase {σ σ' : State} {a : Nat} (h : ND σ) (e : σ'.recs = σ.recs.erase a) : ND σ' := by
  unfold ND; rw [e]; exact AMap.keys_erase_nodup _ _ h

theorem nd_addKid {r : Rec} {σ : State} (h : ND σ) : ND (addKid r σ) := nd_set h rfl

theorem nd_createN {now : Int} : ∀ {n : Nat} {σ : State}, ND σ → ND (createN now n σ) := by
  intro n
  induction n with
  | zero => intro σ h; exact h
  | succ n ih => intro σ h; exact ih (nd_addKid h)

theorem nd_doShutdownSelf {σ : State} (h : ND σ) : ND (doShutdownSelf c σ) := nd_of h (doShutdownSelf_same σ).2.1

theorem nd_actorInitContinue {o : Ora} {σ σ' : State} (e : actorInitContinue c o σ = .ok σ') (h : ND σ) : ND σ' := by
  unfold actorInitContinue at e
  split at e
  · split at e
    · injection e with e; subst e; exact h
    · simp only at e
      have h1 : ND (createN o.now o.late { σ with rInit := false }) := nd_createN (nd_of h rfl)
      split at e <;> (injection e with e; subst e; exact h1)
  · simp at e

theorem nd_initContinue {o : Ora} {σ σ' : State} (e : initContinue c o σ = .ok σ') (h : ND σ) : ND σ' := by
  unfold initContinue at e
  split at e
  · exact nd_actorInitContinue e h
  · injection e with e; subst e; exact h

theorem nd_askAll {σ : State} (h : ND σ) : ND (askAll σ) := by
  unfold ND askAll
  simp only
  rw [keys_map askRec]; exact h

theorem nd_shutdownContinue {o : Ora} {σ σ' : State} (e : shutdownContinue o σ = .ok σ') (h : ND σ) : ND σ' := by
  unfold shutdownContinue at e
  split at e
  · split at e
    · split at e
      · injection e with e; subst e; exact h
      · injection e with e; subst e
        unfold handleShutdown
        simp only
        have h1 : ND (askAll { σ with selfShut := .confirmed }) := nd_askAll h
        split <;> exact h1
    · injection e with e; subst e; exact h
  · simp at e

theorem nd_removeRec {a : Nat} {r : Rec} {o : Ora} {σ : State} (h : ND σ) : ND (removeRec a r o σ) := by
  unfold removeRec
  split
  · simp only
    split
    · exact nd_set h rfl
    · exact nd_erase h rfl
    · exact nd_set h rfl
    · exact nd_erase h rfl
  · exact nd_erase h rfl

theorem cancelInit_recs (a : Nat) (σ : State) : (cancelInit a σ).recs = σ.recs := by unfold cancelInit; split <;> rfl

theorem nd_removeChild {a : Nat} {o : Ora} {σ σ' : State} (e : removeChild c a o σ = .ok σ') (h : ND σ) : ND σ' := by
  obtain ⟨r, hr, ha, e⟩ := removeChild_eq e
  have h1 : ND (removeRec a r o (cancelInit a (removePolicy c r σ))) :=
    nd_removeRec (nd_of h (by rw [cancelInit_recs, (removePolicy_same r σ).1]))
  unfold removeEnd at e
  split at e
  · split at e
    · simp at e
    · rename_i σ2 e2
      exact nd_initContinue e (nd_shutdownContinue e2 h1)
  · exact nd_initContinue e h1

theorem nd_continueIf {o : Ora} {σ σ' : State} (e : continueIf o σ = .ok σ') (h : ND σ) : ND σ' := by
  unfold continueIf at e
  split at e
  · exact nd_shutdownContinue e h
  · injection e with e; subst e; exact h

theorem nd_onInitOk {a : Nat} {o : Ora} {σ σ' : State} (e : onInitOk c a o σ = .ok σ') (h : ND σ) : ND σ' := by
  unfold onInitOk at e
  simp only at e
  have h1 : ND (match σ.recs.find a with
    | none => σ
    | some r =>
      if c.sync then σ.setRec a { r with initialized := true }
      else
        { σ with
          recs := σ.recs.set a { r with initialized := true, started := true }
          to := upd σ.to a (σ.to a ++ [.start])
          nStart := upd σ.nStart a (σ.nStart a + 1) }) := by
    split
    · exact h
    · split <;> exact nd_set h rfl
  split at e
  · injection e with e; subst e; exact h1
  · exact nd_initContinue e h1

theorem nd_onKid {a : Nat} {m : KM} {o : Ora} {σ σ' : State} (e : onKid c a m o σ = .ok σ') (h : ND σ) : ND σ' := by
  cases m with
  | create =>
    obtain ⟨r, _, e⟩ := onCreate_eq e
    exact nd_of h (by rw [e])
  | spawn =>
    simp only [onKid, onSpawn] at e
    split at e
    · simp at e
    · split at e
      · split at e
        · injection e with e; subst e
          exact nd_addKid (nd_erase h rfl)
        · split at e
          · injection e with e; subst e
            refine nd_set (σ := if σ.initReq then failInit c σ else doShutdownSelf c σ) ?_ rfl
            split
            · exact h
            · exact nd_doShutdownSelf h
          · split at e <;> (injection e with e; subst e; exact nd_set h rfl)
      · injection e with e; subst e; exact h
  | initRes ok =>
    simp only [onKid] at e
    split at e
    · split at e
      · exact nd_onInitOk e h
      · refine ?_
        simp only [onInitErr] at e
        split at e
        · injection e with e; subst e
          split
          · exact h
          · exact nd_doShutdownSelf (σ := { σ with iA := upd σ.iA a false }) h
        · split at e
          · injection e with e; subst e; exact nd_doShutdownSelf (σ := { σ with iA := upd σ.iA a false }) h
          · split at e
            · injection e with e; subst e
              refine nd_of h ?_
              unfold doShutdownKid; split <;> rfl
            · simp at e
    · injection e with e; subst e; exact h
  | initErr =>
    simp only [onKid, onInitErr] at e
    split at e
    · injection e with e; subst e
      split
      · exact h
      · exact nd_doShutdownSelf h
    · split at e
      · injection e with e; subst e; exact nd_doShutdownSelf h
      · split at e
        · injection e with e; subst e
          refine nd_of h ?_
          unfold doShutdownKid; split <;> rfl
        · simp at e
  | trigger =>
    simp only [onKid, onTrigger] at e
    split at e
    · simp at e
    · split at e
      · simp at e
      · injection e with e; subst e
        unfold askKid
        split
        · exact nd_set h rfl
        · exact h
  | shutRes =>
    simp only [onKid] at e
    split at e
    · simp only [onShutRes] at e
      split at e
      · simp at e
      · rename_i r hr
        split at e
        · have h1 : ND (State.setRec { σ with sA := upd σ.sA a false } a { r with shut := .confirmed }) := nd_set h rfl
          split at e
          · exact nd_continueIf e h1
          · split at e
            · simp at e
            · rename_i σ2 e2
              exact nd_continueIf e (nd_removeChild e2 h1)
        · simp at e
    · injection e with e; subst e; exact h
  | unsub => exact nd_removeChild e h

theorem nd_onStart {σ : State} (h : ND σ) : ND (onStart c σ) := by
  unfold onStart
  split
  · split
    · show (AMap.keys (σ.recs.map (fun p => (p.1, { p.2 with started := true })))).Nodup
      rw [keys_map (fun r : Rec => { r with started := true })]; exact h
    · exact h
  · exact h

theorem nd_onInitReq {o : Ora} {σ σ' : State} (e : onInitReq c o σ = .ok σ') (h : ND σ) : ND σ' := by
  simp only [onInitReq] at e
  split at e
  · exact nd_actorInitContinue e h
  · injection e with e; subst e; exact h

theorem nd_onInitResSelf {ok : Bool} {o : Ora} {σ σ' : State} (e : onInitResSelf c ok o σ = .ok σ') (h : ND σ) : ND σ' := by
  simp only [onInitResSelf] at e
  split at e
  · have h1 : ND (if σ.st.rank ≤ AState.operational.rank then { σ with q := σ.q ++ [.startSelf] } else σ) := by
      split <;> exact h
    split at e
    · injection e with e; subst e; exact h1
    · exact nd_initContinue e h1
  · injection e with e; subst e; exact nd_doShutdownSelf h

theorem nd_onTrigSelf {o : Ora} {σ σ' : State} (e : onTrigSelf c o σ = .ok σ') (h : ND σ) : ND σ' := by
  simp only [onTrigSelf] at e
  split at e
  · split at e
    · split at e
      · injection e with e; subst e; exact h
      · split at e
        · simp at e
        · rename_i σ2 e2
          injection e with e; subst e
          refine nd_of (nd_shutdownContinue e2 (nd_askAll ?_)) rfl
          exact h
    · injection e with e; subst e; exact nd_of (nd_doShutdownSelf (c := c) h) rfl
  · injection e with e; subst e; exact h

theorem nd_handle {m : SMsg} {o : Ora} {σ σ' : State} (e : handle c m o σ = .ok σ') (h : ND σ) : ND σ' := by
  cases m with
  | kid a m => exact nd_onKid e h
  | trigSelf => exact nd_onTrigSelf e h
  | initReqSelf => exact nd_onInitReq e h
  | initResSelf ok =>
    simp only [handle] at e
    split at e
    · exact nd_onInitResSelf e h
    · injection e with e; subst e; exact h
  | initErrSelf => exact nd_onInitResSelf e h
  | startSelf =>
    simp only [handle] at e
    injection e with e; subst e; exact nd_onStart h

theorem kidRecv_recs {a : Nat} {lost : Bool} {σ σ' : State} (e : kidRecv a lost σ = .ok σ') : σ'.recs = σ.recs := by
  unfold kidRecv at e
  split at e
  · injection e with e; subst e; rfl
  · simp only at e
    split at e
    · injection e with e; subst e; rfl
    · split at e
      · injection e with e; subst e; rfl
      · injection e with e; subst e; split <;> rfl
      · injection e with e; subst e; rfl

theorem nd_step {op : Op} {σ σ' : State} (e : step c σ op = .ok σ') (h : ND σ) : ND σ' := by
  cases op with
  | create now => simp only [step] at e; injection e with e; subst e; exact nd_addKid h
  | spawn cfg => simp only [step] at e; injection e with e; subst e; exact nd_set h rfl
  | recv o =>
    simp only [step] at e
    split at e
    · injection e with e; subst e; exact h
    · split at e
      · injection e with e; subst e; exact h
      · exact nd_handle e h
  | fired a =>
    simp only [step] at e
    split at e
    · simp at e
    · split at e
      · split at e <;> (injection e with e; subst e; exact nd_set h rfl)
      · simp at e
  | down => simp only [step] at e; injection e with e; subst e; exact nd_doShutdownSelf h
  | pInit o =>
    simp only [step] at e
    split at e
    · exact nd_onInitReq e h
    · simp at e
  | pStart =>
    simp only [step] at e
    split at e
    · injection e with e; subst e; exact nd_onStart h
    · simp at e
  | pShut o =>
    simp only [step] at e
    split at e
    · exact nd_shutdownContinue e h
    · simp at e
  | contInit o =>
    simp only [step] at e
    split at e
    · exact nd_actorInitContinue e h
    · simp at e
  | cont o =>
    simp only [step] at e
    split at e
    · exact nd_shutdownContinue e h
    · simp at e
  | kidRecv a lost => exact nd_of h (kidRecv_recs e)
  | flush a =>
    simp only [step] at e
    split at e <;> (injection e with e; subst e; exact h)
  | drop | initTmoSelf | finish | kidInit | kidDown | kidShut | initTmo =>
    simp only [step] at e
    split at e
    · injection e with e; subst e; exact h
    · simp at e
  | escalate => simp only [step] at e; injection e with e; subst e; exact h

theorem Reach.nd {σ : State} (h : Reach c φ σ) : ND σ := by
  induction h with
  | init => simp [ND, State.init, AMap.keys]
  | step op _ _ he ih => exact nd_step he ih

/-! ## all the invariants -/

structure Inv (c : Conf) (φ : Fl) (v : View) : Prop where
  vb : VBase φ v
  a : A c v
  b : B c v
  s : S v
  l : L v

theorem Inv.step {v w : View} (h : Inv c φ v) (st : VStep c φ v w) : Inv c φ w :=
  ⟨h.vb.step st, h.a.step st, h.b.step h.a st, h.s.step h.a h.b st, h.l.step h.vb h.a h.b st⟩

theorem Reach.inv {σ : State} (h : Reach c φ σ) (a : Nat) : Inv c φ (view σ a) := by
  refine h.keeps a ?_ (fun v w hv st => hv.step st)
  rw [view_init]
  refine ⟨?_, ?_, ?_, ?_, ?_⟩ <;> constructor <;> simp [View.hi, Kid.no, dying, AState.rank]

theorem Reach.d {σ : State} (hn : φ.nt = true) (h : Reach c φ σ) (a : Nat) : D (view σ a) := by
  have := h.keeps (P := fun v => Inv c φ v ∧ D v) a ?_ (fun v w hv st => ⟨hv.1.step st, hv.2.step hn hv.1.a hv.1.s st⟩)
  · exact this.2
  · refine ⟨Reach.inv .init a, ?_⟩
    rw [view_init]
    constructor <;> simp [endLast]

theorem Reach.o {σ : State} (hn : φ.no = true) (h : Reach c φ σ) (a : Nat) : O c (view σ a) := by
  refine h.keeps a ?_ (fun v w hv st => hv.step hn st)
  rw [view_init]
  constructor <;> simp

theorem Reach.t {σ : State} (hn : c.sync = false ∨ (φ.nl = true ∧ φ.nm = true)) (h : Reach c φ σ) (a : Nat) : T c (view σ a) := by
  have := h.keeps (P := fun v => Inv c φ v ∧ T c v) a ?_ (fun v w hv st => ⟨hv.1.step st, hv.2.step hn hv.1.a hv.1.b st⟩)
  · exact this.2
  · refine ⟨Reach.inv .init a, ?_⟩
    rw [view_init]
    constructor <;> simp [Kid.no]

theorem hasInit_true {σ : State} (hd : ND σ) (h : hasInit σ = true) : ∃ a, (view σ a).hi := by
  simp only [hasInit, List.any_eq_true] at h
  obtain ⟨⟨a, r⟩, hm, h⟩ := h
  have := AMap.find_of_mem hd hm
  simp at h
  exact ⟨a, r, this, h.1.1, h.1.2, h.2⟩

/-- a record counted by `active_actors` -/
def View.liv (v : View) : Prop := ∃ r, v.r = some r ∧ (r.act = true ∨ r.info.timer = true ∨ r.info.active = true)

theorem othersAlive_true {σ : State} (hd : ND σ) (h : othersAlive σ = true) : ∃ a, (view σ a).liv := by
  simp only [othersAlive, List.any_eq_true] at h
  obtain ⟨⟨a, r⟩, hm, h⟩ := h
  have := AMap.find_of_mem hd hm
  simp at h
  refine ⟨a, r, this, ?_⟩
  grind

end Verif.Children
