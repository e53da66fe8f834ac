import Verif.SpawnBuilder.Model
/-!
# What a user expects of `sup.spawn(factory)….spawn()`
-/

namespace Verif.SpawnBuilder
open Verif.Spawner

/-- the object is told to spawn, or ends -/
def Op.ends (i : Nat) : Op → Bool
  | .spawn j => i == j
  | .destroy j => i == j
  | _ => false

/-- the factories handed over, in order -/
def factories (ops : List Op) : List Nat := ops.filterMap (fun o => match o with | .create f => some f | _ => none)

/-- the settings of object `i` in the history -/
def settings (i : Nat) (ops : List Op) : List Setter := ops.filterMap (fun o => match o with | .set j x => if i = j then some x else none | _ => none)

/-- the value said last, or the default -/
def lastOf {α : Type} (f : Setter → Option α) (d : α) (l : List Setter) : α := ((l.filterMap f).getLast?).getD d

def asPeriod : Setter → Option Int | .period d => some d | _ => none
def asPolicy : Setter → Option Policy | .policy d => some d | _ => none
def asAttempts : Setter → Option Nat | .attempts d => some d | _ => none
def asEscalate : Setter → Option Bool | .escalate d => some d | _ => none

/-- what has been said last about every setting; 15 seconds, restarts after a normal end, any number of attempts and no escalation otherwise -/
def said (l : List Setter) : Cfg := ⟨lastOf asPolicy .normalOnly l, lastOf asPeriod 15 l, lastOf asAttempts 0 l, lastOf asEscalate false l⟩

/-- nobody copies a spawner -/
def NoCopies (ops : List Op) : Prop := ∀ i, .copy i ∉ ops

end Verif.SpawnBuilder
