import Verif.Naming.Model

/-! # What identities and the texts of errors are to tell -/

namespace Verif.Naming

open Verif.Texts (Text)

/-- addresses are written without blanks and `<`, different ones differently -/
structure Plain (addrText : Nat → Text) : Prop where
  inj : ∀ a b, addrText a = addrText b → a = b
  blank : ∀ a, ' ' ∉ addrText a
  angle : ∀ a, '<' ∉ addrText a

/-- what `configure` said last -/
inductive Said where
  /-- a name, to which the address is to be appended -/
  | appended (name : Text)
  /-- a name as it is -/
  | plain (name : Text)
  /-- nothing -/
  | nothing
deriving DecidableEq, Repr

def said (a : Actor) : Said :=
  match a.calls.getLast? with
  | none => .nothing
  | some (name, true) => .appended name
  | some ([], false) => .nothing
  | some (c :: cs, false) => .plain (c :: cs)

/-- the name to which the address is appended, if so -/
def named (a : Actor) : Option Text :=
  match said a with
  | .appended name => some name
  | .plain _ => none
  | .nothing => some (if a.sup then c!"supervisor" else c!"actor")

def Reachable (addrText : Nat → Text) (σ : State) : Prop := ∃ ls, run addrText ⟨[], []⟩ ls = some σ

/-- a code of the library -/
def Code.ours (c : Code) : Prop := c.cat = .error ∨ c.cat = .shutdown

/-- .. with a name -/
def Code.known (c : Code) : Prop := (∃ e : ErrCode, c = e.code) ∨ (∃ e : ShutCode, c = e.code)

/-- the words that a reader looks for -/
def ErrCode.keywords : ErrCode → List Text
  | .success => [c!"success"]
  | .cancelled => [c!"cancelled"]
  | .requestTimeout => [c!"request", c!"timeout"]
  | .supervisorDefined => [c!"supervisor", c!"already defined"]
  | .alreadyRegistered => [c!"already registered"]
  | .actorMisconfigured => [c!"misconfigured"]
  | .actorNotLinkable => [c!"not link"]
  | .alreadyLinked => [c!"already linked"]
  | .failureEscalation => [c!"escalation"]
  | .registrationFailed => [c!"registration", c!"failed"]
  | .discoveryFailed => [c!"discovery", c!"failed"]
  | .unknownService => [c!"service", c!"not registered"]

def ShutCode.keywords : ShutCode → List Text
  | .normal => [c!"normal"]
  | .supervisorShutdown => [c!"requested by supervisor"]
  | .childDown => [c!"supervisor", c!"due to child shutdown"]
  | .childInitFailed => [c!"supervisor", c!"child init failure"]
  | .initFailed => [c!"actor", c!"init failure"]
  | .unlinkRequested => [c!"actor", c!"unlink request"]

/-- the same code, or values of the same category that mean nothing -/
def Code.same (c d : Code) : Prop := c = d ∨ (c.cat = d.cat ∧ ¬ c.known ∧ ¬ d.known)

/-- an error with a code of the library, and without the character of the arrow in the name of the actor -/
def Err.ordinary (e : Err) : Prop := e.ec.ours ∧ '<' ∉ e.context

/-- the same actors failed for the same reasons -/
def SameStory (c d : List Err) : Prop :=
  c.map (·.context) = d.map (·.context) ∧ c.length = d.length ∧
    ∀ i (h : i < c.length) (h' : i < d.length), Code.same c[i].ec d[i].ec

end Verif.Naming
