import Verif.Children.Props
/-!
# Which children are instances of the same spawner

Ghost state beside an execution of `Verif.Children`: the spawner (or the child itself, if there is none) every child comes from.
-/

namespace Verif.Children
open Verif

variable {c : Conf} {φ : Fl} {σ σ' : State}

/-- `line`: the spawner of a child, or the child itself; `made`: how many instances a spawner has; `cfg`: its configuration -/
structure Ghost where
  line : Nat → Nat
  made : Nat → Nat
  cfg : Nat → Option Spawner.Cfg

def Ghost.init : Ghost := ⟨id, fun _ => 0, fun _ => none⟩

/-- a message `spawn` that gives rise to a child: it is an instance of the spawner the record belongs to -/
def Ghost.next (h : Ghost) (σ : State) (op : Op) (σ' : State) : Ghost :=
  match op, σ.q with
  | .spawn cfg, _ => { h with cfg := upd h.cfg σ.nx (some cfg) }
  | .recv _, .kid a .spawn :: _ =>
    if σ'.nx = σ.nx then h
    else { h with line := upd h.line σ.nx (h.line a), made := upd h.made (h.line a) (h.made (h.line a) + 1) }
  | _, _ => h

/-- executions, with the instances of the spawners -/
inductive Hist (c : Conf) (φ : Fl) : State → Ghost → Prop
  | init : Hist c φ (.init c) .init
  | step {σ σ' : State} {h : Ghost} (op : Op) : Hist c φ σ h → Adm φ σ op → step c σ op = .ok σ' → Hist c φ σ' (h.next σ op σ')

theorem Hist.reach {h : Ghost} (hr : Hist c φ σ h) : Reach c φ σ := by
  induction hr with
  | init => exact .init
  | step op _ ha he ih => exact .step op ih ha he

theorem Reach.hist (hr : Reach c φ σ) : ∃ h, Hist c φ σ h := by
  induction hr with
  | init => exact ⟨_, .init⟩
  | step op _ ha he ih => obtain ⟨h, ih⟩ := ih; exact ⟨_, .step op ih ha he⟩

/-! ## what becomes of a record -/

/-- a further attempt is permitted only as long as there are less of them than configured -/
def Rec.room (r : Rec) : Prop := r.cfg.maxAttempts ≠ 0 → r.info.active = true → r.info.attempts < r.cfg.maxAttempts

structure RecStep (r r' : Rec) : Prop where
  fac : r'.fac = r.fac
  cfg : r'.cfg = r.cfg
  att : r.info.attempts ≤ r'.info.attempts
  room : r.room → r'.room

theorem RecStep.refl (r : Rec) : RecStep r r := ⟨rfl, rfl, Nat.le_refl _, id⟩
theorem RecStep.trans {a b d : Rec} (h : RecStep a b) (h2 : RecStep b d) : RecStep a d :=
  ⟨h2.fac.trans h.fac, h2.cfg.trans h.cfg, Nat.le_trans h.att h2.att, h2.room ∘ h.room⟩

theorem RecStep.of {r r' : Rec} (h1 : r'.fac = r.fac) (h2 : r'.cfg = r.cfg) (h3 : r'.info.attempts = r.info.attempts)
    (h4 : r'.info.active = true → r.info.active = true) : RecStep r r' :=
  ⟨h1, h2, Nat.le_of_eq h3.symm, fun h => by unfold Rec.room at *; rw [h2, h3]; exact fun x y => h x (h4 y)⟩

/-- every record comes from an old one, or belongs to a child that is no instance of a spawner -/
def Keys (σ σ' : State) : Prop :=
  σ.nx ≤ σ'.nx ∧ ∀ a r', σ'.recs.find a = some r' → (∃ r, σ.recs.find a = some r ∧ RecStep r r') ∨ (σ.nx ≤ a ∧ a < σ'.nx ∧ r'.fac = false)

theorem Keys.of (h1 : σ'.recs = σ.recs) (h2 : σ'.nx = σ.nx) : Keys σ σ' :=
  ⟨Nat.le_of_eq h2.symm, fun a r' h => .inl ⟨r', h1 ▸ h, .refl _⟩⟩

theorem Keys.refl (σ : State) : Keys σ σ := .of rfl rfl

theorem Keys.trans {x y z : State} (h : Keys x y) (h2 : Keys y z) : Keys x z := by
  refine ⟨Nat.le_trans h.1 h2.1, fun a r' hz => ?_⟩
  rcases h2.2 a r' hz with ⟨r, h3, h4⟩ | ⟨h3, h4, h5⟩
  · rcases h.2 a r h3 with ⟨q, h5, h6⟩ | ⟨h5, h6, h7⟩
    · exact .inl ⟨q, h5, h6.trans h4⟩
    · exact .inr ⟨h5, Nat.lt_of_lt_of_le h6 h2.1, h4.fac.trans h7⟩
  · exact .inr ⟨Nat.le_trans h.1 h3, h4, h5⟩

theorem Keys.pre {x y z : State} (k : Keys y z) (h1 : y.recs = x.recs) (h2 : y.nx = x.nx) : Keys x z := (Keys.of h1 h2).trans k

theorem keys_set {a : Nat} {r r' : Rec} (hf : σ.recs.find a = some r) (hs : RecStep r r') (h1 : σ'.recs = σ.recs.set a r') (h2 : σ'.nx = σ.nx) :
    Keys σ σ' := by
  refine ⟨Nat.le_of_eq h2.symm, fun b q hb => ?_⟩
  rw [h1, AMap.find_set] at hb
  split at hb
  · rename_i e; subst e; cases hb; exact .inl ⟨r, hf, hs⟩
  · exact .inl ⟨q, hb, .refl _⟩

theorem keys_erase {a : Nat} (h1 : σ'.recs = σ.recs.erase a) (h2 : σ'.nx = σ.nx) : Keys σ σ' := by
  refine ⟨Nat.le_of_eq h2.symm, fun b q hb => ?_⟩
  rw [h1, AMap.find_erase] at hb
  split at hb
  · cases hb
  · exact .inl ⟨q, hb, .refl _⟩

theorem find_map (f : Rec → Rec) (m : AMap Nat Rec) (a : Nat) : AMap.find (m.map (fun p => (p.1, f p.2))) a = (m.find a).map f := by
  induction m with
  | nil => rfl
  | cons p m ih =>
    simp only [List.map_cons, AMap.find]
    split <;> simp_all [AMap.find]

theorem keysMap {f : Rec → Rec} (hs : ∀ r, RecStep r (f r)) (h1 : σ'.recs = σ.recs.map (fun p => (p.1, f p.2))) (h2 : σ'.nx = σ.nx) : Keys σ σ' := by
  refine ⟨Nat.le_of_eq h2.symm, fun b q hb => ?_⟩
  rw [h1, find_map] at hb
  cases hx : σ.recs.find b with
  | none => rw [hx] at hb; cases hb
  | some r => rw [hx] at hb; cases hb; exact .inl ⟨r, rfl, hs r⟩

theorem keys_createChild (now : Int) (σ : State) : Keys σ (createChild now σ) := by
  refine ⟨Nat.le_succ _, fun b q hb => ?_⟩
  simp only [createChild, addKid, AMap.find_set] at hb
  split at hb
  · rename_i e; subst e; cases hb; exact .inr ⟨Nat.le_refl _, Nat.lt_succ_self _, rfl⟩
  · exact .inl ⟨q, hb, .refl _⟩

theorem keys_createN (now : Int) (n : Nat) : ∀ σ : State, Keys σ (createN now n σ) := by
  induction n with
  | zero => intro σ; exact .refl _
  | succ n ih => intro σ; exact (keys_createChild now σ).trans (ih _)

theorem keys_actorInitContinue {o : Ora} (h : actorInitContinue c o σ = .ok σ') : Keys σ σ' := by
  unfold actorInitContinue at h
  split at h
  · split at h
    · cases h; exact .refl _
    · have k : Keys σ (createN o.now o.late { σ with rInit := false }) := Keys.trans (y := { σ with rInit := false }) (.of rfl rfl) (keys_createN _ _ _)
      simp only at h
      split at h
      · cases h; exact k.trans (.of rfl rfl)
      · cases h; exact k
  · cases h

theorem keys_initContinue {o : Ora} (h : initContinue c o σ = .ok σ') : Keys σ σ' := by
  unfold initContinue at h
  split at h
  · exact Keys.trans (y := { σ with rInit := false }) (.of rfl rfl) (keys_actorInitContinue h)
  · cases h; exact .refl _

theorem keys_doShutdownSelf : Keys σ (doShutdownSelf c σ) := by
  unfold doShutdownSelf; split
  · exact .of rfl rfl
  · exact .refl _

theorem keys_doShutdownKid {a : Nat} : Keys σ (doShutdownKid a σ) := by
  unfold doShutdownKid; split
  · exact .of rfl rfl
  · exact .refl _

theorem keys_cancelInit {a : Nat} : Keys σ (cancelInit a σ) := by
  unfold cancelInit; split
  · exact .of rfl rfl
  · exact .refl _

theorem recStep_ask (r : Rec) : RecStep r (askRec r) := by
  unfold askRec
  split
  · split
    · exact .of rfl rfl rfl id
    · exact .refl _
  · split
    · exact .of rfl rfl rfl (by simp)
    · exact .refl _

theorem keys_askAll : Keys σ (askAll σ) := keysMap recStep_ask rfl rfl

theorem keys_askKid {a : Nat} {r : Rec} (hf : σ.recs.find a = some r) : Keys σ (askKid a r σ) := by
  unfold askKid; split
  · exact keys_set hf (r' := { r with shut := .sent }) (.of rfl rfl rfl id) rfl rfl
  · exact .refl _

theorem keys_handleShutdown : Keys σ (handleShutdown σ) := by
  have k : Keys σ (askAll { σ with selfShut := .confirmed }) := Keys.trans (y := { σ with selfShut := .confirmed }) (.of rfl rfl) keys_askAll
  unfold handleShutdown
  simp only
  split
  · exact k
  · exact k.trans (.of rfl rfl)

theorem keys_shutdownContinue {o : Ora} (h : shutdownContinue o σ = .ok σ') : Keys σ σ' := by
  unfold shutdownContinue at h
  split at h
  · split at h
    · split at h
      · cases h; exact .refl _
      · cases h; exact keys_handleShutdown
    · cases h; exact .refl _
  · cases h

theorem keys_failInit : Keys σ (failInit c σ) := .of rfl rfl

theorem keys_removePolicy {r : Rec} : Keys σ (removePolicy c r σ) := by
  unfold removePolicy
  split
  · split
    · split
      · exact keys_failInit
      · exact .refl _
    · exact keys_doShutdownSelf
  · exact .refl _

theorem nextSpawn_keeps (cf : Spawner.Cfg) (i : Spawner.Info) (abn ans : Bool) (now : Int) :
    (Spawner.nextSpawn cf i abn ans now).1.attempts = i.attempts ∧ ((Spawner.nextSpawn cf i abn ans now).1.active = true → i.active = true) := by
  unfold Spawner.nextSpawn Spawner.checkEscalation
  grind

theorem keys_removeRec {a : Nat} {r : Rec} {o : Ora} (hf : σ.recs.find a = some r) : Keys σ (removeRec a r o σ) := by
  have hn := nextSpawn_keeps r.cfg r.info o.abnormal o.answer o.now
  unfold removeRec
  split
  · simp only
    split
    · exact keys_set hf (.of (r' := { r with act := false, info := (Spawner.nextSpawn r.cfg r.info o.abnormal o.answer o.now).1 }) rfl rfl hn.1 hn.2) rfl rfl
    · exact keys_erase (a := a) rfl rfl
    · exact keys_set hf (.of (r' := { r with act := false, info := { (Spawner.nextSpawn r.cfg r.info o.abnormal o.answer o.now).1 with timer := true } }) rfl rfl hn.1 hn.2) rfl rfl
    · exact keys_erase (a := a) rfl rfl
  · exact keys_erase (a := a) rfl rfl

theorem recs_cancelInit {a : Nat} : (cancelInit a σ).recs = σ.recs := by unfold cancelInit; split <;> rfl
theorem recs_doShutdownSelf : (doShutdownSelf c σ).recs = σ.recs := by unfold doShutdownSelf; split <;> rfl
theorem nx_doShutdownSelf : (doShutdownSelf c σ).nx = σ.nx := by unfold doShutdownSelf; split <;> rfl
theorem recs_removePolicy {r : Rec} : (removePolicy c r σ).recs = σ.recs := by
  unfold removePolicy
  split
  · split
    · split <;> rfl
    · exact recs_doShutdownSelf
  · rfl

theorem keys_removeChild {a : Nat} {o : Ora} (h : removeChild c a o σ = .ok σ') : Keys σ σ' := by
  unfold removeChild at h
  split at h
  · cases h
  · rename_i r hf
    split at h
    · have k : Keys σ (removeRec a r o (cancelInit a (removePolicy c r σ))) :=
        (keys_removePolicy (c := c) (r := r)).trans ((keys_cancelInit (a := a)).trans (keys_removeRec (by rw [recs_cancelInit, recs_removePolicy]; exact hf)))
      simp only at h
      split at h
      · split at h
        · cases h
        · rename_i σ2 h2; exact k.trans ((keys_shutdownContinue h2).trans (keys_initContinue h))
      · exact k.trans (keys_initContinue h)
    · cases h

theorem keys_onCreate {a : Nat} (h : onCreate a σ = .ok σ') : Keys σ σ' := by
  unfold onCreate at h
  split at h
  · cases h
  · cases h; exact .of rfl rfl

theorem keys_onInitErr {a : Nat} (h : onInitErr c a σ = .ok σ') : Keys σ σ' := by
  unfold onInitErr at h
  split at h
  · cases h; split
    · exact keys_failInit
    · exact keys_doShutdownSelf
  · split at h
    · cases h; exact keys_doShutdownSelf
    · split at h
      · cases h; exact keys_doShutdownKid
      · cases h

theorem keys_onInitOk {a : Nat} {o : Ora} (h : onInitOk c a o σ = .ok σ') : Keys σ σ' := by
  unfold onInitOk at h
  simp only at h
  have key : ∀ σ1, Keys σ σ1 → (if hasInit σ then .ok σ1 else initContinue c o σ1) = .ok σ' → Keys σ σ' := by
    intro σ1 k h
    split at h
    · cases h; exact k
    · exact k.trans (keys_initContinue h)
  refine key _ ?_ h
  split
  · exact .refl _
  · rename_i r hf
    split
    · exact keys_set hf (r' := { r with initialized := true }) (.of rfl rfl rfl id) rfl rfl
    · exact keys_set hf (r' := { r with initialized := true, started := true }) (.of rfl rfl rfl id) rfl rfl

theorem keys_onTrigger {a : Nat} (h : onTrigger a σ = .ok σ') : Keys σ σ' := by
  unfold onTrigger at h
  split at h
  · cases h
  · rename_i r hf
    split at h
    · cases h
    · cases h; exact keys_askKid hf

theorem keys_continueIf {o : Ora} (h : continueIf o σ = .ok σ') : Keys σ σ' := by
  unfold continueIf at h
  split at h
  · exact keys_shutdownContinue h
  · cases h; exact .refl _

theorem keys_onShutRes {a : Nat} {o : Ora} (h : onShutRes c a o σ = .ok σ') : Keys σ σ' := by
  unfold onShutRes at h
  split at h
  · cases h
  · rename_i r hf
    split at h
    · have k : Keys σ (σ.setRec a { r with shut := .confirmed }) := keys_set hf (r' := { r with shut := .confirmed }) (.of rfl rfl rfl id) rfl rfl
      simp only at h
      split at h
      · exact k.trans (Keys.trans (Keys.of rfl rfl : Keys _ { (σ.setRec a { r with shut := .confirmed }) with q := σ.q ++ [.kid a .unsub] }) (keys_continueIf h))
      · split at h
        · cases h
        · rename_i σ2 h2; exact k.trans ((keys_removeChild h2).trans (keys_continueIf h))
    · cases h

theorem keys_onTrigSelf {o : Ora} (h : onTrigSelf c o σ = .ok σ') : Keys σ σ' := by
  unfold onTrigSelf at h
  split at h
  · split at h
    · simp only at h
      split at h
      · cases h; exact .of rfl rfl
      · split at h
        · cases h
        · rename_i σ2 h2
          cases h
          refine Keys.trans (y := startShutdown { σ with selfIA := if σ.initReq then false else σ.selfIA, selfShut := .confirmed }) (.of rfl rfl) ?_
          exact keys_askAll.trans ((keys_shutdownContinue h2).trans (.of rfl rfl))
    · cases h; exact keys_doShutdownSelf.trans (.of rfl rfl)
  · cases h; exact .refl _

theorem keys_onInitReq {o : Ora} (h : onInitReq c o σ = .ok σ') : Keys σ σ' := by
  unfold onInitReq at h
  simp only at h
  split at h
  · exact Keys.trans (y := { σ with initReq := true }) (.of rfl rfl) (keys_actorInitContinue h)
  · cases h; exact .of rfl rfl

theorem keys_onInitResSelf {ok : Bool} {o : Ora} (h : onInitResSelf c ok o σ = .ok σ') : Keys σ σ' := by
  unfold onInitResSelf at h
  split at h
  · simp only at h
    have key : ∀ σ1, Keys σ σ1 → (if hasInit σ then .ok σ1 else initContinue c o σ1) = .ok σ' → Keys σ σ' := by
      intro σ1 k h
      split at h
      · cases h; exact k
      · exact k.trans (keys_initContinue h)
    refine key _ ?_ h
    split
    · exact .of rfl rfl
    · exact .refl _
  · cases h; exact keys_doShutdownSelf

theorem keys_onStart : Keys σ (onStart c σ) := by
  unfold onStart
  split
  · split
    · exact keysMap (f := fun r => { r with started := true }) (fun r => .of rfl rfl rfl id) rfl rfl
    · exact .of rfl rfl
  · exact .refl _

theorem keys_kidRecv {a : Nat} {l : Bool} (h : kidRecv a l σ = .ok σ') : Keys σ σ' := by
  unfold kidRecv at h
  split at h
  · cases h; exact .refl _
  · simp only at h
    split at h
    · cases h; exact .of rfl rfl
    · split at h
      · cases h; exact .of rfl rfl
      · cases h
        split <;> exact .of rfl rfl
      · cases h; exact .of rfl rfl

/-- the record after an attempt -/
theorem recStep_attempt (r : Rec) (now : Int) : RecStep r (attempt r now) ∧ (attempt r now).room ∧ (attempt r now).info.attempts = r.info.attempts + 1 := by
  have : (attempt r now).room := by
    unfold Rec.room attempt Spawner.spawnAttempt
    grind
  exact ⟨⟨rfl, rfl, Nat.le_succ _, fun _ => this⟩, this, rfl⟩

/-- a new instance of a spawner -/
structure New (σ σ' : State) (a : Nat) : Prop where
  nx : σ'.nx = σ.nx + 1
  moved : ∃ r r', σ.recs.find a = some r ∧ r.info.active = true ∧ σ'.recs = (σ.recs.erase a).set σ.nx r' ∧ r'.fac = r.fac ∧ r'.cfg = r.cfg ∧
    r'.info.attempts = r.info.attempts + 1 ∧ r'.room

theorem keys_onSpawn {a : Nat} {o : Ora} (h : onSpawn c a o σ = .ok σ') : (Keys σ σ' ∧ σ'.nx = σ.nx) ∨ New σ σ' a := by
  unfold onSpawn at h
  split at h
  · cases h
  · rename_i r0 hf
    have ha := recStep_attempt r0 o.now
    split at h
    · rename_i hac
      simp only at h
      split at h
      · cases h
        exact .inr ⟨rfl, r0, _, hf, hac, rfl, rfl, rfl, ha.2.2, ha.2.1⟩
      · refine .inl ?_
        split at h
        · cases h
          have k : ∀ σ1 : State, σ1.recs = σ.recs → σ1.nx = σ.nx → Keys σ (σ1.setRec a { attempt r0 o.now with info := { (attempt r0 o.now).info with active := false } }) := by
            intro σ1 h1 h2
            refine keys_set hf (ha.1.trans (.of (r' := { attempt r0 o.now with info := { (attempt r0 o.now).info with active := false } }) rfl rfl rfl (by simp))) ?_ h2
            rw [← h1]; rfl
          split
          · exact ⟨k _ rfl rfl, rfl⟩
          · exact ⟨k _ recs_doShutdownSelf nx_doShutdownSelf, nx_doShutdownSelf⟩
        · split at h
          · cases h
            exact ⟨keys_set hf (ha.1.trans (.of (r' := { attempt r0 o.now with info := { (attempt r0 o.now).info with timer := true } }) rfl rfl rfl id)) rfl rfl, rfl⟩
          · cases h
            exact ⟨keys_set hf (ha.1.trans (.of (r' := { attempt r0 o.now with info := { (attempt r0 o.now).info with active := false } }) rfl rfl rfl (by simp))) rfl rfl, rfl⟩
    · cases h; exact .inl ⟨.refl _, rfl⟩

set_option maxHeartbeats 1000000 in
/-- what a step does to the records, unless a spawner is created -/
theorem keys_step {op : Op} (h : step c σ op = .ok σ') (hn : ∀ cfg, op ≠ .spawn cfg) :
    Keys σ σ' ∧ (∀ a t o, op = .recv o → σ.q = .kid a .spawn :: t → σ'.nx = σ.nx) ∨
      ∃ a t o, op = .recv o ∧ σ.q = .kid a .spawn :: t ∧ New σ σ' a := by
  cases op with
  | create now => cases h; exact .inl ⟨keys_createChild _ _, by simp⟩
  | spawn cfg => exact absurd rfl (hn cfg)
  | recv o =>
    simp only [step] at h
    split at h
    · rename_i hq; cases h; exact .inl ⟨.refl _, by simp [hq]⟩
    · rename_i m t hq
      split at h
      · cases h; exact .inl ⟨.of rfl rfl, fun _ _ _ _ _ => rfl⟩
      · have pop : Keys σ { σ with q := t } := .of rfl rfl
        by_cases hs : ∃ a, m = .kid a .spawn
        · obtain ⟨a, rfl⟩ := hs
          simp only [handle, onKid] at h
          rcases keys_onSpawn h with h1 | h1
          · exact .inl ⟨pop.trans h1.1, fun _ _ _ _ _ => h1.2⟩
          · exact .inr ⟨a, t, o, rfl, hq, h1.nx, h1.moved⟩
        · refine .inl ⟨pop.trans ?_, fun a t' _ _ hq' => absurd ⟨a, by rw [hq] at hq'; cases hq'; rfl⟩ hs⟩
          cases m with
          | kid a m =>
            simp only [handle] at h
            cases m with
            | create => exact keys_onCreate h
            | spawn => exact absurd ⟨a, rfl⟩ hs
            | initRes ok =>
              simp only [onKid] at h
              split at h
              · split at h
                · exact (keys_onInitOk h).pre rfl rfl
                · exact (keys_onInitErr h).pre rfl rfl
              · cases h; exact .refl _
            | initErr => exact keys_onInitErr h
            | trigger => exact keys_onTrigger h
            | shutRes =>
              simp only [onKid] at h
              split at h
              · exact (keys_onShutRes h).pre rfl rfl
              · cases h; exact .refl _
            | unsub => exact keys_removeChild h
          | trigSelf => exact keys_onTrigSelf h
          | initReqSelf => exact keys_onInitReq h
          | initResSelf ok =>
            simp only [handle] at h
            split at h
            · exact (keys_onInitResSelf h).pre rfl rfl
            · cases h; exact .refl _
          | initErrSelf => exact keys_onInitResSelf h
          | startSelf => cases h; exact keys_onStart
  | drop =>
    simp only [step] at h
    split at h
    · cases h; exact .inl ⟨.of rfl rfl, by simp⟩
    · cases h
  | fired a =>
    refine .inl ⟨?_, by simp⟩
    simp only [step] at h
    split at h
    · cases h
    · rename_i r hf
      split at h
      · have k : RecStep r { r with info := { r.info with timer := false } } := .of rfl rfl rfl id
        split at h <;> (cases h; exact keys_set hf k rfl rfl)
      · cases h
  | down => cases h; exact .inl ⟨keys_doShutdownSelf, by simp⟩
  | escalate => cases h; exact .inl ⟨.of rfl rfl, by simp⟩
  | pInit o =>
    refine .inl ⟨?_, by simp⟩
    simp only [step] at h
    split at h
    · exact keys_onInitReq h
    · cases h
  | pStart =>
    refine .inl ⟨?_, by simp⟩
    simp only [step] at h
    split at h
    · cases h; exact keys_onStart
    · cases h
  | pShut o =>
    refine .inl ⟨?_, by simp⟩
    simp only [step] at h
    split at h
    · exact Keys.trans (y := startShutdown σ) (.of rfl rfl) (keys_shutdownContinue h)
    · cases h
  | contInit o =>
    refine .inl ⟨?_, by simp⟩
    simp only [step] at h
    split at h
    · exact keys_actorInitContinue h
    · cases h
  | cont o =>
    refine .inl ⟨?_, by simp⟩
    simp only [step] at h
    split at h
    · exact keys_shutdownContinue h
    · cases h
  | kidRecv a l => exact .inl ⟨keys_kidRecv h, by simp⟩
  | flush a =>
    refine .inl ⟨?_, by simp⟩
    simp only [step] at h
    split at h
    · cases h; exact .refl _
    · cases h; exact .of rfl rfl
  | initTmoSelf | finish | kidInit | kidDown | kidShut | initTmo =>
    refine .inl ⟨?_, by simp⟩
    simp only [step] at h
    split at h
    · cases h; exact .of rfl rfl
    · cases h

/-! ## the instances of a spawner -/

structure J (σ : State) (h : Ghost) : Prop where
  le : ∀ a, h.line a ≤ a
  new : ∀ a, σ.nx ≤ a → h.line a = a ∧ h.made a = 0 ∧ h.cfg a = none
  key : ∀ a, σ.recs.find a ≠ none → a < σ.nx
  one : ∀ a b, σ.recs.find a ≠ none → σ.recs.find b ≠ none → h.line a = h.line b → a = b
  spn : ∀ a r, σ.recs.find a = some r → r.fac = true → h.cfg (h.line a) = some r.cfg ∧ h.made (h.line a) ≤ r.info.attempts ∧ r.room
  man : ∀ a r, σ.recs.find a = some r → r.fac = false → h.cfg (h.line a) = none
  max : ∀ l k, h.cfg l = some k → k.maxAttempts ≠ 0 → h.made l ≤ k.maxAttempts

theorem J.keys {h : Ghost} (hj : J σ h) (hk : Keys σ σ') : J σ' h := by
  have old : ∀ a, a < σ.nx → ∀ r', σ'.recs.find a = some r' → ∃ r, σ.recs.find a = some r ∧ RecStep r r' := fun a ha r' hr => by
    rcases hk.2 a r' hr with h1 | h1
    · exact h1
    · omega
  have new : ∀ a, σ.nx ≤ a → ∀ r', σ'.recs.find a = some r' → a < σ'.nx ∧ r'.fac = false := fun a ha r' hr => by
    rcases hk.2 a r' hr with ⟨r, h1, h2⟩ | h1
    · have := hj.key a (by rw [h1]; simp); omega
    · exact h1.2
  have inx := hk.1
  refine ⟨hj.le, fun a ha => hj.new a (by omega), fun a ha => ?_, fun a b ha hb hl => ?_, fun a r hr hf => ?_, fun a r hr hf => ?_, hj.max⟩
  · cases hx : σ'.recs.find a with
    | none => exact absurd hx ha
    | some r =>
      by_cases hc : a < σ.nx
      · omega
      · exact (new a (by omega) r hx).1
  · cases hx : σ'.recs.find a with
    | none => exact absurd hx ha
    | some r =>
      cases hy : σ'.recs.find b with
      | none => exact absurd hy hb
      | some r2 =>
        by_cases h1 : a < σ.nx <;> by_cases h2 : b < σ.nx
        · obtain ⟨x, e1, _⟩ := old a h1 r hx
          obtain ⟨y, e2, _⟩ := old b h2 r2 hy
          exact hj.one a b (by rw [e1]; simp) (by rw [e2]; simp) hl
        · have := hj.le a; have := (hj.new b (by omega)).1; omega
        · have := hj.le b; have := (hj.new a (by omega)).1; omega
        · have := (hj.new b (by omega)).1; have := (hj.new a (by omega)).1; omega
  · by_cases h1 : a < σ.nx
    · obtain ⟨x, e1, e2⟩ := old a h1 r hr
      obtain ⟨j1, j2, j3⟩ := hj.spn a x e1 (e2.fac ▸ hf)
      exact ⟨by rw [j1, e2.cfg], Nat.le_trans j2 e2.att, e2.room j3⟩
    · rw [(new a (by omega) r hr).2] at hf; cases hf
  · by_cases h1 : a < σ.nx
    · obtain ⟨x, e1, e2⟩ := old a h1 r hr
      exact hj.man a x e1 (e2.fac ▸ hf)
    · rw [(hj.new a (by omega)).1]; exact (hj.new a (by omega)).2.2

theorem J.spawner {h : Ghost} (hj : J σ h) (cfg : Spawner.Cfg) : J (spawn cfg σ) { h with cfg := upd h.cfg σ.nx (some cfg) } := by
  obtain ⟨j1, j2, j3, j4, j5, j6, j7⟩ := hj
  have hnx : (spawn cfg σ).nx = σ.nx + 1 := rfl
  have hf : ∀ a, (spawn cfg σ).recs.find a = if a = σ.nx then
      some { act := false, fac := true, cfg := cfg, info := ⟨0, true, false, 0⟩, initialized := false, started := false, shut := .none } else σ.recs.find a := by
    intro a; simp only [spawn, AMap.find_set]
  have lt : ∀ a, σ.recs.find a ≠ none → h.line a < σ.nx := fun a ha => Nat.lt_of_le_of_lt (j1 a) (j3 a ha)
  refine ⟨j1, fun a ha => ?_, fun a ha => ?_, fun a b ha hb hl => ?_, fun a r hr hx => ?_, fun a r hr hx => ?_, fun l k hl hm => ?_⟩
  · obtain ⟨e1, e2, e3⟩ := j2 a (by omega)
    exact ⟨e1, e2, by simp only [upd]; rw [if_neg (by omega)]; exact e3⟩
  · rw [hf] at ha
    split at ha
    · omega
    · have := j3 a ha; omega
  · rw [hf] at ha hb
    have hl : h.line a = h.line b := hl
    have e := (j2 σ.nx (Nat.le_refl _)).1
    split at ha <;> split at hb
    · omega
    · rename_i h1 _; rw [h1, e] at hl; have := lt b hb; omega
    · rename_i _ h1; rw [h1, e] at hl; have := lt a ha; omega
    · exact j4 a b ha hb hl
  · rw [hf] at hr
    split at hr
    · rename_i h1
      cases hr
      have e := j2 σ.nx (Nat.le_refl _)
      rw [h1]
      refine ⟨?_, ?_, ?_⟩
      · show upd h.cfg σ.nx (some cfg) (h.line σ.nx) = some cfg
        rw [e.1]; simp [upd]
      · show h.made (h.line σ.nx) ≤ 0
        rw [e.1, e.2.1]; exact Nat.le_refl _
      · intro hm _; exact Nat.pos_of_ne_zero hm
    · have := lt a (by rw [hr]; simp)
      obtain ⟨x1, x2, x3⟩ := j5 a r hr hx
      refine ⟨?_, x2, x3⟩
      show upd h.cfg σ.nx (some cfg) (h.line a) = _
      simp only [upd]; rw [if_neg (by omega)]; exact x1
  · rw [hf] at hr
    split at hr
    · cases hr; cases hx
    · have := lt a (by rw [hr]; simp)
      show upd h.cfg σ.nx (some cfg) (h.line a) = _
      simp only [upd]; rw [if_neg (by omega)]; exact j6 a r hr hx
  · have hl : upd h.cfg σ.nx (some cfg) l = some k := hl
    simp only [upd] at hl
    split at hl
    · rename_i h1
      show h.made l ≤ _
      rw [h1, (j2 σ.nx (Nat.le_refl _)).2.1]; exact Nat.zero_le _
    · exact j7 l k hl hm

theorem J.inst {h : Ghost} {a : Nat} (hj : J σ h) (hn : New σ σ' a) :
    J σ' { h with line := upd h.line σ.nx (h.line a), made := upd h.made (h.line a) (h.made (h.line a) + 1) } := by
  obtain ⟨j1, j2, j3, j4, j5, j6, j7⟩ := hj
  obtain ⟨hnx, r0, r1, hr0, hact, hrec, hfac, hcfg, hatt, hroom⟩ := hn
  have ha := j3 a (by rw [hr0]; simp)
  have hla := j1 a
  have hf : ∀ b, σ'.recs.find b = if b = σ.nx then some r1 else if b = a then none else σ.recs.find b := by
    intro b; rw [hrec, AMap.find_set, AMap.find_erase]
  have lt : ∀ a, σ.recs.find a ≠ none → h.line a < σ.nx := fun a ha => Nat.lt_of_le_of_lt (j1 a) (j3 a ha)
  -- the line of a record
  have ln : ∀ b r, σ'.recs.find b = some r → (b = σ.nx ∧ r = r1 ∧ upd h.line σ.nx (h.line a) b = h.line a) ∨
      (b ≠ σ.nx ∧ b ≠ a ∧ σ.recs.find b = some r ∧ upd h.line σ.nx (h.line a) b = h.line b ∧ h.line b ≠ h.line a) := by
    intro b r hb
    rw [hf] at hb
    split at hb
    · rename_i e; cases hb; exact .inl ⟨e, rfl, by simp [upd, e]⟩
    · split at hb
      · cases hb
      · rename_i e1 e2
        exact .inr ⟨e1, e2, hb, by simp [upd, e1], fun e => e2 (j4 b a (by rw [hb]; simp) (by rw [hr0]; simp) e)⟩
  refine ⟨fun b => ?_, fun b hb => ?_, fun b hb => ?_, fun b d hb hd hl => ?_, fun b r hr hx => ?_, fun b r hr hx => ?_, fun l k hl hm => ?_⟩
  · simp only [upd]
    split
    · omega
    · exact j1 b
  · obtain ⟨e1, e2, e3⟩ := j2 b (by omega)
    refine ⟨?_, ?_, e3⟩
    · simp only [upd]; rw [if_neg (by omega)]; exact e1
    · simp only [upd]; rw [if_neg (by omega)]; exact e2
  · cases hx : σ'.recs.find b with
    | none => exact absurd hx hb
    | some r =>
      rcases ln b r hx with h1 | h1
      · omega
      · have := j3 b (by rw [h1.2.2.1]; simp); omega
  · cases hx : σ'.recs.find b with
    | none => exact absurd hx hb
    | some r =>
      cases hy : σ'.recs.find d with
      | none => exact absurd hy hd
      | some r2 =>
        have hl : upd h.line σ.nx (h.line a) b = upd h.line σ.nx (h.line a) d := hl
        rcases ln b r hx with h1 | h1 <;> rcases ln d r2 hy with h2 | h2
        · omega
        · rw [h1.2.2, h2.2.2.2.1] at hl; exact absurd hl.symm h2.2.2.2.2
        · rw [h2.2.2, h1.2.2.2.1] at hl; exact absurd hl h1.2.2.2.2
        · rw [h1.2.2.2.1, h2.2.2.2.1] at hl
          exact j4 b d (by rw [h1.2.2.1]; simp) (by rw [h2.2.2.1]; simp) hl
  · show h.cfg (upd h.line σ.nx (h.line a) b) = _ ∧ upd h.made (h.line a) (h.made (h.line a) + 1) (upd h.line σ.nx (h.line a) b) ≤ _ ∧ _
    rcases ln b r hr with h1 | h1
    · obtain ⟨_, rfl, e⟩ := h1
      obtain ⟨x1, x2, x3⟩ := j5 a r0 hr0 (hfac ▸ hx)
      rw [e]
      refine ⟨by rw [x1, hcfg], ?_, hroom⟩
      simp only [upd, if_true]; omega
    · obtain ⟨_, _, h3, e, h5⟩ := h1
      rw [e]
      obtain ⟨x1, x2, x3⟩ := j5 b r h3 hx
      refine ⟨x1, ?_, x3⟩
      simp only [upd]; rw [if_neg h5]; exact x2
  · show h.cfg (upd h.line σ.nx (h.line a) b) = _
    rcases ln b r hr with h1 | h1
    · obtain ⟨_, rfl, e⟩ := h1
      rw [e]; exact j6 a r0 hr0 (hfac ▸ hx)
    · obtain ⟨_, _, h3, e, h5⟩ := h1
      rw [e]; exact j6 b r h3 hx
  · have hl : h.cfg l = some k := hl
    show upd h.made (h.line a) (h.made (h.line a) + 1) l ≤ _
    simp only [upd]
    split
    · rename_i e
      subst e
      cases hx : r0.fac with
      | false => rw [j6 a r0 hr0 hx] at hl; cases hl
      | true =>
        obtain ⟨x1, x2, x3⟩ := j5 a r0 hr0 hx
        rw [x1] at hl; cases hl
        have := x3 hm hact
        omega
    · exact j7 l k hl hm

theorem Hist.j {h : Ghost} (hr : Hist c φ σ h) : J σ h := by
  induction hr with
  | init =>
    refine ⟨fun a => Nat.le_refl _, fun a _ => ⟨rfl, rfl, rfl⟩, ?_, ?_, ?_, ?_, ?_⟩ <;> simp [State.init, Ghost.init]
  | @step σ σ' h op hh ha he ih =>
    by_cases hs : ∃ cfg, op = .spawn cfg
    · obtain ⟨cfg, rfl⟩ := hs
      cases he
      exact ih.spawner cfg
    · rcases keys_step he (fun cfg e => hs ⟨cfg, e⟩) with ⟨hk, hx⟩ | ⟨a, t, o, rfl, hq, hn⟩
      · have : h.next σ op σ' = h := by
          unfold Ghost.next
          split
          · exact absurd ⟨_, rfl⟩ hs
          · rename_i o a t hq
            rw [if_pos (hx a t o rfl hq)]
          · rfl
        rw [this]; exact ih.keys hk
      · have : h.next σ (.recv o) σ' = { h with line := upd h.line σ.nx (h.line a), made := upd h.made (h.line a) (h.made (h.line a) + 1) } := by
          simp only [Ghost.next, hq]
          rw [if_neg (by rw [hn.nx]; omega)]
        rw [this]; exact ih.inst hn

/-- at any time a spawner has one living instance at most -/
theorem C58_single {h : Ghost} (hr : Hist c φ σ h) {a b : Nat} (ha : Living σ a) (hb : Living σ b) (hl : h.line a = h.line b) : a = b := by
  obtain ⟨r, h1, _⟩ := living_rec hr.reach ha
  obtain ⟨r2, h2, _⟩ := living_rec hr.reach hb
  exact hr.j.one a b (by rw [h1]; simp) (by rw [h2]; simp) hl

/-- with a limit of attempts there are not more instances ever -/
theorem C58_limit {h : Ghost} (hr : Hist c φ σ h) {s : Nat} {k : Spawner.Cfg} (hk : h.cfg s = some k) (hm : k.maxAttempts ≠ 0) :
    h.made s ≤ k.maxAttempts := hr.j.max s k hk hm

end Verif.Children
