import Verif.RegPlugin.Model
/-!
# Executions of the registry plugin, computed
-/

namespace Verif.RegPlugin

def run (c : Conf) : List Op → State → Except Err State
  | [], σ => .ok σ
  | op :: ops, σ =>
    match step c σ op with
    | .error e => .error e
    | .ok σ1 => run c ops σ1

/-- the operations can be executed, and what comes out has the property -/
def after (c : Conf) (ops : List Op) (f : State → Bool) : Bool :=
  match run c ops .init with
  | .ok σ => f σ
  | .error _ => false

/-- the operations end in the error -/
def fails (c : Conf) (ops : List Op) (e : Err) : Bool :=
  match run c ops .init with
  | .ok _ => false
  | .error e' => decide (e' = e)

def yes : Ora := ⟨true, true, false⟩
/-- a plugin behind is not ready -/
def busy : Ora := ⟨false, true, false⟩
/-- the actor has clients -/
def served : Ora := ⟨true, true, true⟩

/-- the registry is at 100; one name is registered, two are discovered -/
def c3 : Conf := ⟨100, [.reg 1 7, .disc 2 20 false true, .disc 3 30 true true], []⟩
def c2 : Conf := ⟨100, [.disc 2 20 false true, .disc 3 30 false true], []⟩
def cShared : Conf := ⟨100, [.disc 2 20 false true, .disc 3 20 false true], []⟩
def cLate : Conf := ⟨100, [.disc 2 20 true true, .disc 3 30 true true], []⟩
def cUser : Conf := ⟨100, [.disc 2 20 false true], [50]⟩

def linkedUp : List Op := [.init yes, .linkRes 100 true yes yes]

end Verif.RegPlugin
