import Verif.Link.Props
/-!
# Concrete executions: cases of the theorems of `Verif.Link.Props`, and what goes wrong
-/

namespace Verif.Link
open Verif

instance (σ : State) (op : Op) : Decidable (relinkFree σ op) := by
  cases op <;> unfold relinkFree <;> infer_instance

/-- the restrictions `φ` are satisfied -/
def allowed (φ : Fl) (σ : State) (op : Op) : Bool :=
  (!φ.rl || decide (relinkFree σ op)) && (!φ.nt || !isTimeout op) && (!φ.nl || decide (lateOf op = [])) && (!φ.ag || agreeing op) &&
    (!φ.wi || willing op)

def runF (φ : Fl) : State → List Op → Option State
  | σ, [] => some σ
  | σ, op :: ops =>
    if allowed φ σ op then
      match step σ op with
      | .error _ => none
      | .ok σ1 => runF φ σ1 ops
    else none

theorem reach_of_runF {φ : Fl} {ops : List Op} : ∀ {σ σ' : State}, Reach φ σ → runF φ σ ops = some σ' → Reach φ σ' := by
  induction ops with
  | nil => intro σ σ' hr h; simp [runF] at h; subst h; exact hr
  | cons op ops ih =>
    intro σ σ' hr h
    simp only [runF] at h
    split at h
    · rename_i ha
      split at h
      · simp at h
      · rename_i σ1 h1
        simp [allowed] at ha
        obtain ⟨⟨⟨⟨h2, h3⟩, h4⟩, h5⟩, h6⟩ := ha
        refine ih (.step op hr ?_ ?_ ?_ ?_ ?_ h1) h
        · intro e; simpa [e] using h2
        · intro e; simpa [e] using h3
        · intro e; simpa [e] using h4
        · intro e; simpa [e] using h5
        · intro e; simpa [e] using h6
    · simp at h

/-- a property of the state reached -/
def after (φ : Fl) (ops : List Op) (p : State → Bool) : Bool :=
  match runF φ State.init ops with
  | some σ => p σ
  | none => false

theorem after_reach {φ : Fl} {ops : List Op} {p : State → Bool} (h : after φ ops p = true) : ∃ σ, Reach φ σ ∧ p σ = true := by
  unfold after at h
  split at h
  · rename_i σ hs; exact ⟨σ, reach_of_runF .init hs, h⟩
  · simp at h

/-- the execution ends with this failed assertion -/
def fails (ops : List Op) (e : Err) : Bool :=
  match run State.init ops with
  | .error e' => decide (e' = e)
  | .ok _ => false

/-- no message between the first `n` actors is in transit -/
def quiet (n : Nat) (σ : State) : Bool :=
  (List.range n).all (fun c => (List.range n).all (fun s => decide (σ.up c s = []) && decide (σ.dn s c = [])))

/-- all restrictions -/
def Fl.strict : Fl := ⟨true, true, true, true, true⟩

/-- everybody agrees -/
def yes : Ora := { agree := true, next := true, late := [], unl := true, handled := false }

/-- two servers, 0 and 1, and a client 2; server 1 is asked for when it is operational -/
def setup : List Op :=
  [.init 0 [] yes, .init 1 [] yes, .start 0, .init 2 [(0, false), (1, true)] yes, .up 2 0 yes, .up 2 1 yes, .dn 0 2 yes]

/-- C42: the client is initialized when both have confirmed, not before -/
example : after .strict setup (fun σ => decide ((σ.act 2).st = .initializing ∧ (σ.act 2).inits = []) && quiet 3 σ) = true := by decide
example : after .strict (setup ++ [.start 1]) (fun σ => decide ((σ.act 2).st = .initializing ∧ (σ.act 2).inits = [])) = true := by decide
example : after .strict (setup ++ [.start 1, .dn 1 2 yes])
    (fun σ => decide ((σ.act 2).st = .initialized ∧ (σ.act 2).inits = [true])) = true := by decide

/-- C41: the request to server 1 is kept -/
example : after .strict setup (fun σ => decide (srvRec (σ.hist 2 1) = some (some 1)) && decide ((σ.act 1).st = .initialized)) = true := by
  decide

/-- C42: a server that is shutting down refuses, the initialization fails -/
example : after .strict [.init 0 [] yes, .start 0, .shutdown 0 true { yes with agree := true }, .init 1 [(0, false)] yes, .up 1 0 yes, .dn 0 1 yes]
    (fun σ => decide ((σ.act 1).inits = [false] ∧ σ.hist 1 0 = [.known 1 false, .answered 1 false false .shuttingDown, .asked 1 .initializing]) &&
      quiet 2 σ) = true := by decide

/-- C40, C43: the server waits for its client, asks it once, and is closed when it has agreed -/
def linked : List Op := setup ++ [.start 1, .dn 1 2 yes, .start 2]

example : after .strict (linked ++ [.shutdown 0 true yes])
    (fun σ => decide ((σ.act 0).closed = false) && decide (srvRec (σ.hist 2 0) = some none ∧ cliLinked (σ.hist 2 0) = true ∧
      (σ.hist 2 0).countP isUAsk = 1)) = true := by decide
example : after .strict (linked ++ [.shutdown 0 true yes, .dn 0 2 yes, .up 2 0 yes])
    (fun σ => decide ((σ.act 0).closed = true) && decide (srvRec (σ.hist 2 0) = none ∧ cliLinked (σ.hist 2 0) = false ∧
      cliLinked (σ.hist 2 1) = true) && quiet 3 σ) = true := by decide

/-- C43: both shut down at the same time; the unlink request and the notification cross -/
example : after .strict (linked ++ [.shutdown 0 true yes, .shutdown 2 true yes, .up 2 0 yes, .dn 0 2 yes, .up 2 1 yes])
    (fun σ => decide ((σ.act 0).closed = true ∧ (σ.act 2).closed = true) && decide (srvRec (σ.hist 2 0) = none ∧ srvRec (σ.hist 2 1) = none) &&
      quiet 3 σ) = true := by decide

/-- C40: a chain, 2 is linked with 1 and 1 with 0; all are shutting down, the last first -/
example : after .strict [.init 0 [] yes, .init 1 [(0, false)] yes, .up 1 0 yes, .dn 0 1 yes, .init 2 [(1, false)] yes, .up 2 1 yes, .dn 1 2 yes,
      .start 0, .start 1, .start 2, .shutdown 0 true yes, .shutdown 1 true yes, .shutdown 2 true yes, .up 2 1 yes, .dn 1 2 yes,
      .dn 0 1 yes, .up 1 0 yes]
    (fun σ => decide ((σ.act 0).closed = true ∧ (σ.act 1).closed = true ∧ (σ.act 2).closed = true) && quiet 3 σ) = true := by decide

/-! ## what goes wrong -/

/-- Links in a circle: both actors wait for each other for ever (the documentation warns of it). -/
theorem C40_link_cycle_counterexample : after .strict [.init 0 [] yes, .init 1 [(0, false)] yes, .up 1 0 yes, .dn 0 1 yes, .link 0 1 false, .up 0 1 yes, .dn 1 0 yes,
      .start 0, .start 1, .shutdown 0 true yes, .shutdown 1 true yes, .dn 0 1 yes, .dn 1 0 yes]
    (fun σ => decide ((σ.act 0).st = .shuttingDown ∧ (σ.act 1).st = .shuttingDown ∧ (σ.act 0).closed = false ∧ (σ.act 1).closed = false) &&
      quiet 2 σ) = true := by decide

/-- 1 is linked with 0 and 2 with 1; 0 is shutting down, 1 is asked but has a client. When that client leaves, the request in the queue
of 1 is forgotten: 0 waits although nothing prevents 1 from unlinking. -/
theorem C43_unlink_forgotten_counterexample : after .strict [.init 0 [] yes, .init 1 [(0, false)] yes, .up 1 0 yes, .dn 0 1 yes, .init 2 [(1, false)] yes,
      .up 2 1 yes, .dn 1 2 yes, .start 0, .start 1, .start 2, .shutdown 0 true yes, .dn 0 1 yes, .shutdown 2 true yes, .up 2 1 yes]
    (fun σ => decide ((σ.act 0).st = .shuttingDown ∧ (σ.act 0).closed = false ∧ (σ.act 1).clients = [] ∧ (σ.act 1).st = .operational ∧
      (σ.act 1).unlinkQ ≠ []) && quiet 3 σ) = true := by decide

/-- A server with a request it has kept is shut down: the request is not answered and the client is not asked, so the server waits. -/
theorem C41_kept_unanswered_counterexample : after .strict [.init 0 [] yes, .init 1 [(0, true)] yes, .up 1 0 yes, .shutdown 0 true yes]
    (fun σ => decide ((σ.act 0).st = .shuttingDown ∧ (σ.act 0).closed = false ∧ (σ.act 1).initReq = true ∧ srvRec (σ.hist 1 0) = some (some 0)) &&
      quiet 2 σ) = true := by decide

/-- After the link request has expired the client forgets the server without telling it, and not even the client's shutdown
releases the server. -/
theorem C40_kept_request_counterexample : after .any [.init 0 [] yes, .init 1 [(0, true)] yes, .up 1 0 yes, .shutdown 0 true yes, .timeoutL 1 0 0,
      .ltmo 1 0 yes, .shutdown 1 true yes, .deafC 1, .deafS 1, .finish 1]
    (fun σ => decide ((σ.act 0).st = .shuttingDown ∧ (σ.act 0).closed = false ∧ (σ.act 1).st = .shutDown ∧ srvRec (σ.hist 1 0) = some (some 0)) &&
      quiet 2 σ) = true := by decide

/-- A link asked for by a plugin behind the link client, when it is asked whether it is initialized, is not waited for. -/
theorem C42_late_link_counterexample : after .any [.init 0 [] yes, .init 1 [] { yes with late := [(0, true)] }]
    (fun σ => decide ((σ.act 1).inits = [true] ∧ (σ.act 1).st = .initialized ∧ σ.hist 1 0 = [.asked 0 .initializing] ∧
      (σ.act 1).servers.find 0 = some (.linking 0))) = true := by decide

/-- A client that has an own client begins to shut down while it is initializing: the confirmation of its link calls `init_continue`
in the state SHUTTING_DOWN, where an assertion fails. -/
theorem C41_confirmed_in_shutdown_counterexample : fails [.init 0 [] yes, .init 1 [(0, false)] yes, .init 2 [(1, false)] yes, .up 2 1 yes, .dn 1 2 yes,
    .up 1 0 yes, .shutdown 1 true yes, .dn 0 1 yes] .initCont = true := by decide

/-- The link request expires just before the client leaves: it discards a request that is not active any more. -/
theorem C41_expired_link_counterexample : fails [.init 0 [] yes, .init 1 [(0, true)] yes, .up 1 0 yes, .timeoutL 1 0 0, .shutdown 1 true yes] .discard = true := by
  decide

/-- The unlink request expires, then the client leaves: the server cancels a timer that is not there any more. -/
theorem C43_expired_unlink_counterexample : fails (linked ++ [.shutdown 0 true yes, .timeoutU 0 2 2, .utmo 0 2, .shutdown 2 true yes, .up 2 0 yes]) .timer =
    true := by decide

/-- An unlink request of a root supervisor expires: there is no shutdown request to answer, and the client is looked up by the empty
address of the error response. -/
theorem C43_expired_unlink_root_counterexample : fails (linked ++ [.shutdown 0 false yes, .timeoutU 0 2 2, .utmo 0 2]) .noClient = true := by decide

/-- Two unlink requests expire: the shutdown request is answered with an error twice. -/
theorem C43_shutdown_answered_twice_counterexample : after .any ([.init 0 [] yes, .start 0, .init 1 [(0, false)] yes, .up 1 0 yes, .dn 0 1 yes, .init 2 [(0, false)] yes, .up 2 0 yes, .dn 0 2 yes,
      .shutdown 0 true yes, .timeoutU 0 1 2, .timeoutU 0 2 2, .utmo 0 1, .utmo 0 2])
    (fun σ => decide ((σ.act 0).shutErr = 2)) = true := by decide

/-- Granted unlink requests stay in the queue: the client unlinks server 0 and asks it for a link again; the unlink request of another
server then makes it drop the new link while it is being established, and an assertion fails when the answer arrives. -/
theorem C43_stale_request_counterexample : fails [.init 0 [] yes, .start 0, .init 1 [] yes, .start 1, .init 2 [(0, false), (1, false)] yes, .up 2 0 yes, .dn 0 2 yes,
    .up 2 1 yes, .dn 1 2 yes, .start 2, .shutdown 0 true yes, .dn 0 2 { yes with unl := false }, .link 2 0 false,
    .shutdown 1 true yes, .dn 1 2 { yes with unl := false }, .up 2 0 yes, .up 2 0 yes, .dn 0 2 yes] .noRecord = true := by decide

end Verif.Link
