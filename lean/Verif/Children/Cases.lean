import Verif.Children.Props
/-!
# Concrete executions: cases of the theorems of `Verif.Children.Props`, and what goes wrong
-/

namespace Verif.Children
open Verif

def mayB (φ : Fl) (σ : State) : Bool :=
  (!φ.nc || !σ.closed) && (!φ.ns || decide (σ.st.rank < 5)) && (!φ.nm || decide (σ.st ≠ .initialized)) && (!φ.no || decide (σ.st ≠ .operational))

def isOk : SMsg → Bool
  | .kid _ (.initRes true) => true
  | _ => false

/-- the flags allow the supervisor to handle `m` -/
def headB (φ : Fl) (σ : State) (o : Ora) (m : SMsg) : Bool :=
  (!φ.nk || !removes o m) && (!φ.nj || !isOk m) && (!φ.nd || decide (m ≠ .trigSelf)) &&
    match m with
    | .kid a .spawn =>
      match σ.recs.find a with
      | some r => !r.info.active || ((!φ.ns || decide (σ.st.rank < 5)) && (!φ.nm || decide (σ.st ≠ .initialized)) && (!φ.no || decide (σ.st ≠ .operational)))
      | none => true
    | _ => true

/-- the flags allow the operation -/
def allowed (φ : Fl) (σ : State) : Op → Bool
  | .create _ | .spawn _ => mayB φ σ
  | .recv o => (!φ.nl || decide (o.late = 0)) && (!φ.wn || o.next) && (!φ.wa || o.agree) &&
      (match σ.q with
      | [] => true
      | m :: _ => headB φ σ o m)
  | .pInit o | .contInit o => (!φ.nl || decide (o.late = 0)) && (!φ.wn || o.next)
  | .pShut o => !φ.nd && (!φ.wa || o.agree)
  | .cont o => !φ.wa || o.agree
  | .fired _ => !φ.ns || decide (σ.st.rank < 5)
  | .initTmo a => !φ.nt ||
      (match σ.recs.find a with
      | some r => r.act && decide (r.shut = .none)
      | none => false)
  | _ => true

theorem adm_of_allowed {φ : Fl} {σ : State} {op : Op} (h : allowed φ σ op = true) : Adm φ σ op := by
  cases op <;> simp only [allowed, Adm, mayB, May] at * <;> (try trivial)
  case recv o =>
    simp only [Bool.and_eq_true, Bool.or_eq_true, Bool.not_eq_true', decide_eq_true_eq] at h
    obtain ⟨⟨⟨h1, h2⟩, h3⟩, h4⟩ := h
    refine ⟨by grind, by grind, by grind, fun m t hq => ?_, fun a t hq r hr ha => ?_⟩
    · rw [hq] at h4
      simp only [headB, Bool.and_eq_true, Bool.or_eq_true, Bool.not_eq_true', decide_eq_true_eq] at h4
      obtain ⟨⟨⟨h5, h6⟩, h7⟩, _⟩ := h4
      refine ⟨⟨by grind, fun hj a e => ?_⟩, by grind⟩
      rw [e] at h6; simp [isOk, hj] at h6
    · rw [hq] at h4
      simp only [headB, Bool.and_eq_true, Bool.or_eq_true, Bool.not_eq_true', decide_eq_true_eq] at h4
      have h5 := h4.2
      rw [hr] at h5
      simp [ha] at h5
      grind
  case initTmo a =>
    intro hn
    rw [hn] at h
    simp only [Bool.not_true, Bool.false_or] at h
    split at h
    · rename_i r hr
      simp at h
      exact ⟨r, hr, h.1, h.2⟩
    · simp at h
  all_goals simp only [Bool.and_eq_true, Bool.or_eq_true, Bool.not_eq_true', decide_eq_true_eq] at h; grind

def runF (c : Conf) (φ : Fl) : State → List Op → Option State
  | σ, [] => some σ
  | σ, op :: ops =>
    if allowed φ σ op then
      match step c σ op with
      | .error _ => none
      | .ok σ1 => runF c φ σ1 ops
    else none

theorem reach_of_runF {c : Conf} {φ : Fl} {ops : List Op} : ∀ {σ σ' : State}, Reach c φ σ → runF c φ σ ops = some σ' → Reach c φ σ' := by
  induction ops with
  | nil => intro σ σ' hr h; simp [runF] at h; subst h; exact hr
  | cons op ops ih =>
    intro σ σ' hr h
    simp only [runF] at h
    split at h
    · rename_i ha
      split at h
      · simp at h
      · rename_i σ1 h1
        exact ih (.step op hr (adm_of_allowed ha) h1) h
    · simp at h

/-- a property of the state reached -/
def after (c : Conf) (φ : Fl) (ops : List Op) (p : State → Bool) : Bool :=
  match runF c φ (.init c) ops with
  | some σ => p σ
  | none => false

theorem after_reach {c : Conf} {φ : Fl} {ops : List Op} {p : State → Bool} (h : after c φ ops p = true) : ∃ σ, Reach c φ σ ∧ p σ = true := by
  unfold after at h
  split at h
  · rename_i σ hs; exact ⟨σ, reach_of_runF .init hs, h⟩
  · simp at h

/-- the execution ends with this failure -/
def fails (c : Conf) (ops : List Op) (e : Err) : Bool :=
  match run c (.init c) ops with
  | .error e' => decide (e' = e)
  | .ok _ => false

/-- no message of, or to, the supervisor or its first `n` children is on its way -/
def quiet (n : Nat) (σ : State) : Bool :=
  decide (σ.q = []) && (List.range n).all (fun a => decide (σ.to a = []) && decide (σ.out a = []))

/-- everybody agrees -/
def yes : Ora := { agree := true, next := true, late := 0, abnormal := false, answer := false, now := 0, later := false, fac := true }

def r : Op := .recv yes

/-- all restrictions that have to do with circumstances -/
def Fl.strict : Fl := ⟨true, true, true, true, true, false, true, true, false, false, false⟩

/-- a root supervisor with `synchronize_start`, and one without -/
def cS : Conf := ⟨true, true, true⟩
def cU : Conf := ⟨true, false, true⟩
/-- policy `shutdown_failed` -/
def cF : Conf := ⟨true, false, false⟩

/-- two children are created and have got their init requests -/
def two : List Op := [.create 0, .create 0, r, r, r, .kidRecv 0 false, .kidRecv 1 false]

/-- C34: the supervisor waits for both -/
example : after cS .strict two (fun σ => decide (σ.st = .initializing ∧ σ.initReq = true) && quiet 2 σ) = true := by decide
example : after cS .strict (two ++ [.kidInit 0 true false, .flush 0, r]) (fun σ => decide (σ.st = .initializing) && quiet 2 σ) = true := by decide

/-- both are initialized, and the supervisor is -/
def ready : List Op := two ++ [.kidInit 0 true false, .flush 0, r, .kidInit 1 true false, .flush 1, r]

example : after cS .strict ready (fun σ => decide (σ.st = .initialized ∧ σ.initOks = 1)) = true := by decide
example : after cS .strict ready (fun σ => decide (σ.nStart 0 = 0 ∧ σ.q = [.initResSelf true])) = true := by decide

/-- C37: then all of them are started; without `synchronize_start` the first child has been started before -/
def running : List Op := ready ++ [r, r, .kidRecv 0 false, .kidRecv 1 false]

example : after cS .strict running (fun σ => decide (σ.st = .operational ∧ (σ.kid 0).st = .operational ∧ (σ.kid 1).st = .operational) && quiet 2 σ) = true := by decide
example : after cU .strict (two ++ [.kidInit 0 true false, .flush 0, r, .kidRecv 0 false])
    (fun σ => decide (σ.st = .initializing ∧ (σ.kid 0).st = .operational)) = true := by decide

/-- C35, C36: the supervisor is shut down; it waits for both -/
example : after cS .strict (running ++ [.down, r, .kidRecv 0 false, .kidRecv 1 false])
    (fun σ => decide (σ.st = .shuttingDown ∧ σ.closed = false ∧ σ.nShut 0 = 1 ∧ σ.nShut 1 = 1) && quiet 2 σ) = true := by decide
example : after cS .strict (running ++ [.down, r, .kidRecv 0 false, .kidRecv 1 false, .kidShut 1, .flush 1, r])
    (fun σ => decide (σ.st = .shuttingDown ∧ σ.closed = false) && quiet 2 σ) = true := by decide
def stopped : List Op := running ++ [.down, r, .kidRecv 0 false, .kidRecv 1 false, .kidShut 1, .flush 1, r, .kidShut 0, .flush 0, r, .finish]
example : after cS .strict stopped (fun σ => decide (σ.st = .shutDown) && quiet 2 σ) = true := by decide

/-- C36: a child shuts itself down while its supervisor does so too -/
example : after cS .strict (running ++ [.kidDown 0, .down, .flush 0, r, r, .kidRecv 0 false, .kidRecv 1 false])
    (fun σ => decide (σ.nShut 0 = 1) && quiet 2 σ) = true := by decide

/-- C38: a child fails; `shutdown_self` -/
example : after cU .strict (two ++ [.kidInit 0 false false, .flush 0, r]) (fun σ => decide (σ.initFails = 1 ∧ σ.st = .initializing)) = true := by decide
example : after cU .strict (two ++ [.kidInit 0 false false, .flush 0, r, r, r]) (fun σ => decide (σ.st = .shuttingDown ∧ σ.q = [])) = true := by decide
/-- `shutdown_failed`: only the child -/
example : after cF .strict (two ++ [.kidInit 0 false false, .flush 0, r, r, .kidRecv 0 false])
    (fun σ => decide (σ.initFails = 0 ∧ σ.wants = 0 ∧ (σ.kid 0).st = .shuttingDown) && quiet 2 σ) = true := by decide

/-- C55: a child whose init request has timed out answers -/
example : after cF .strict (two ++ [.initTmo 0, r, r, .kidRecv 0 false, .kidInit 0 false false, .flush 0, r, .kidShut 0, .flush 0, r])
    (fun σ => decide (σ.recs.find 0 = none ∧ σ.recs.find 1 ≠ none)) = true := by decide

/-- C59: the record holds the child until its confirmation is processed -/
example : after cS .strict (running ++ [.down, r, .kidRecv 0 false, .kidRecv 1 false, .kidShut 1])
    (fun σ => decide ((σ.kid 1).st = .shutDown ∧ (σ.recs.find 1).map (·.act) = some true ∧ σ.out 1 = [.shutRes])) = true := by decide
example : after cS .strict (running ++ [.down, r, .kidRecv 0 false, .kidRecv 1 false, .kidShut 1, .flush 1, r])
    (fun σ => decide ((σ.kid 1).st = .shutDown ∧ σ.recs.find 1 = none)) = true := by decide

/-! ## what goes wrong -/

/-- C34: a child created by a plugin when it is asked for the initialization, e.g. in `configure` of the starter: the supervisor confirms
its initialization, although the child is not initialized. (`C34_confirms` is about the children that are there before.) -/
theorem C34_late_counterexample : after cS Fl.any [.recv { yes with late := 1 }]
    (fun σ => decide (σ.initOks = 1 ∧ (σ.kid 0).born = true ∧ (σ.kid 0).st = .initializing)) = true := by decide

def cfgR : Spawner.Cfg := ⟨.always, 50, 0, false⟩

/-- a child and an instance of a spawner are running -/
def spawned : List Op := [.create 0, .spawn cfgR, r, r, r, r, .kidRecv 0 false, .kidRecv 2 false, .kidInit 0 true false, .flush 0, r,
  .kidInit 2 true false, .flush 2, r, r, r, .kidRecv 0 false, .kidRecv 2 false]

example : after cS .strict spawned (fun σ => decide (σ.st = .operational ∧ (σ.kid 0).st = .operational ∧ (σ.kid 2).st = .operational) && quiet 3 σ) = true := by
  decide

/-- C35: with a spawner whose instance has ended and which waits for its timer, the shutdown completes -/
example : after cS .strict (spawned ++ [.kidDown 2, .flush 2, r, .kidRecv 2 false, .kidShut 2, .flush 2, r, .down, r, .kidRecv 0 false, .kidShut 0,
    .flush 0, r, .finish]) (fun σ => decide (σ.st = .shutDown) && quiet 3 σ) = true := by decide

/-- C35: the shutdown begins when a spawner is about to create its next instance: that is never asked, and the shutdown never completes.
The restrictions are met but for `ns`. -/
theorem C35_restart_counterexample : after cS { Fl.strict with ns := false }
    (spawned ++ [.kidDown 0, .flush 0, r, .kidRecv 0 false, .kidShut 0, .flush 0, r, .kidDown 2, .flush 2, r, .kidRecv 2 false, .kidShut 2, .flush 2, .down,
      .recv { yes with now := 100 }, r, r, r, .kidRecv 3 false, .kidInit 3 true false, .flush 3, r])
    (fun σ => decide (σ.st = .shuttingDown ∧ σ.closed = false ∧ (σ.kid 3).st = .initialized ∧ σ.nShut 3 = 0) && quiet 4 σ) = true := by decide

/-- C35: a child created while the supervisor is shutting down, by a child that is the last one but still has subscriptions to be
undone: it is never asked -/
theorem C35_create_counterexample : after cS { Fl.strict with ns := false }
    (running ++ [.down, r, .kidRecv 0 false, .kidRecv 1 false, .kidShut 1, .flush 1, r, .kidShut 0, .flush 0, .recv { yes with later := true },
      .create 0, r, r, .kidRecv 2 false])
    (fun σ => decide (σ.st = .shuttingDown ∧ σ.closed = false ∧ (σ.kid 2).st = .initializing ∧ σ.nShut 2 = 0) && quiet 3 σ) = true := by decide

/-- C35: a child created after the child manager has agreed, while the plugins before it have not: the supervisor is shut down, the child
is not -/
theorem C35_closed_counterexample : after cS { Fl.strict with nc := false, ns := false }
    [r, r, r, .down, r, .create 0, .finish, r]
    (fun σ => decide (σ.st = .shutDown ∧ (σ.kid 0).st = .initializing ∧ σ.nShut 0 = 0) && quiet 1 σ) = true := by decide

/-- C35: the restart timer of a spawner fires after the shutdown has begun and the plugins behind the child manager have not agreed yet:
the supervisor (not a root) waits for the spawner for ever -/
theorem C35_timer_counterexample : after ⟨false, false, true⟩ { Fl.strict with ns := false, wa := false }
    [.spawn cfgR, r, r, .kidRecv 1 false, .kidInit 1 true false, .flush 1, r, .kidRecv 1 false, .pInit yes, .pStart, .kidDown 1, .flush 1, r, .kidRecv 1 false,
      .kidShut 1, .flush 1, r, .pShut { yes with agree := false }, .fired 1, .cont yes]
    (fun σ => decide (σ.st = .shuttingDown ∧ σ.closed = false) && σ.recs.all (fun p => !p.2.act && !p.2.info.timer && p.2.info.active) &&
      quiet 3 σ) = true := by decide

/-- C37: with `synchronize_start` a child created when the supervisor is operational is never started -/
theorem C37_late_counterexample : after cS .strict
    (running ++ [.create 0, r, .kidRecv 2 false, .kidInit 2 true false, .flush 2, r])
    (fun σ => decide (σ.st = .operational ∧ (σ.kid 2).st = .initialized ∧ σ.nStart 2 = 0) && quiet 3 σ) = true := by decide

/-- C37: with `synchronize_start` a child created when the supervisor is INITIALIZED gets the start message before its init request -/
theorem C37_early_counterexample : after cS { Fl.strict with nm := false }
    ([r, .create 0, r, r, r, .kidRecv 0 false, .kidRecv 0 false, .kidInit 0 true false, .flush 0, r])
    (fun σ => decide (σ.st = .operational ∧ (σ.kid 0).st = .initialized ∧ σ.nStart 0 = 1) && quiet 1 σ) = true := by decide

/-- C38: `shutdown_failed`: when the shutdown of the child that failed is complete, the supervisor is shut down also -/
theorem C38_failed_counterexample : after cF .strict
    (two ++ [.kidInit 0 false false, .flush 0, r, r, .kidRecv 0 false, .kidShut 0, .flush 0, r, r])
    (fun σ => decide (σ.initFails = 0 ∧ σ.wants = 1 ∧ σ.st = .shuttingDown)) = true := by decide

/-- C38: `shutdown_self`, no root supervisor: a child that is shut down before the supervisor has got its own init request is not
noticed: the supervisor is initialized without it -/
theorem C38_early_counterexample : after ⟨false, false, true⟩ .strict
    [.create 0, r, .kidRecv 0 false, .kidDown 0, .flush 0, r, .kidRecv 0 false, .kidInit 0 false false, .flush 0, r, .kidShut 0, .flush 0, r, .pInit yes]
    (fun σ => decide (σ.initOks = 1 ∧ σ.wants = 0 ∧ σ.st = .initialized ∧ (σ.kid 0).st = .shutDown) && quiet 1 σ) = true := by decide

/-- C55: without the restriction: the init request of a spawner's instance times out when its shutdown has been confirmed, and its record is kept
for the restart: the actor in the record is null -/
theorem C55_timeout_counterexample : fails cF
    [.spawn cfgR, r, r, r, r, r, .kidDown 1, .flush 1, r, .kidRecv 1 false, .kidRecv 1 false, .kidShut 1, .flush 1, .initTmo 1, r, r]
    .nullActor = true := by decide

end Verif.Children
