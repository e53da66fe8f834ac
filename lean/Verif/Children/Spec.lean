import Verif.Children.Model
/-!
# What is claimed about a supervisor and its children
-/

namespace Verif.Children
open Verif

/-- no message is on its way -/
structure Quiet (σ : State) : Prop where
  q : σ.q = []
  to : ∀ a, σ.to a = []
  out : ∀ a, σ.out a = []

/-- there is such a child, and it is not shut down -/
def Living (σ : State) (a : Nat) : Prop := (σ.kid a).born = true ∧ (σ.kid a).st ≠ .shutDown

/-- the child has been created, and is past its initialization -/
def Past (σ : State) (a : Nat) : Prop := AState.initialized.rank ≤ (σ.kid a).st.rank

/-- the child has an init request and has not answered it -/
def Busy (σ : State) (a : Nat) : Prop := (σ.kid a).st = .initializing ∧ (σ.kid a).asked = true ∧ (σ.kid a).ans = false

/-- the initialization of the supervisor has failed, or its `do_shutdown` has been called -/
def Failing (σ : State) : Prop := 0 < σ.initFails ∨ 0 < σ.wants

/-- the next message tells the supervisor that the child has failed to initialize: an answer to an active request, or its timer -/
def Failure (σ : State) (a : Nat) : Prop :=
  (∃ t, σ.q = .kid a (.initRes false) :: t ∧ σ.iA a = true) ∨ ∃ t, σ.q = .kid a .initErr :: t

/-- a step without any effect -/
def idle (σ : State) : Op → Bool
  | .recv _ => σ.q.isEmpty
  | .drop => σ.q.isEmpty
  | .kidRecv a _ => (σ.to a).isEmpty
  | .flush a => (σ.out a).isEmpty
  | _ => false

/-- a step nothing else has caused: user code or a timer of a spawner creates a child, shuts an actor down, has a new instance made, or
lets an actor go on; a child answers its init request again -/
def user : Op → Bool
  | .create _ | .spawn _ | .fired _ | .down | .escalate | .contInit _ | .cont _ | .kidDown _ => true
  | .kidInit _ ok keep => !ok && keep
  | _ => false

end Verif.Children
