import Verif.Spawner.Model

/-! # What the restart policies promise -/

namespace Verif.Spawner

/-- the policy asks for another instance after one went down: `abnormal` - because of a failure,
`answer` - what the instance says about restarting itself -/
def wants (p : Policy) (abnormal answer : Bool) : Prop :=
  match p with
  | .always => True
  | .never => False
  | .askActor => answer = true
  | .normalOnly => abnormal = false
  | .failOnly => abnormal = true

/-- times of the factory calls -/
def calls (out : List Out) : List Int :=
  out.filterMap (fun | .factory t _ => some t | _ => none)

/-- another attempt is allowed by the limit (zero: no limit) -/
def attemptsLeft (c : Cfg) (out : List Out) : Prop := c.maxAttempts = 0 ∨ (calls out).length < c.maxAttempts

/-- a restart is on its way: the message is queued or the timer is armed -/
def scheduled (s : State) : Prop := s.pending > 0 ∨ s.info.timer = true

end Verif.Spawner
