import Verif.ExtendedError.Model

/-! # What nested errors mean: every error is a non-empty list of levels, outermost first -/

namespace Verif.ExtendedError

/-- one level of a nested error: what the caller of `make_error` said -/
structure Level where
  context : String
  ec : Nat
  ecText : String
  request : Option String
deriving DecidableEq, Repr

/-- the calls of `make_error`: a fresh error, or one wrapping the `n`-th error made before -/
inductive Op where
  | fresh (l : Level)
  | wrap (l : Level) (n : Nat)
deriving DecidableEq, Repr

/-- the errors made by a history of calls, each as its list of levels; `none` if a call wraps an
error that does not exist -/
def made (es : List (List Level)) : List Op → Option (List (List Level))
  | [] => some es
  | .fresh l :: ops => made (es ++ [[l]]) ops
  | .wrap l n :: ops => match es[n]? with
    | none => none
    | some inner => made (es ++ [l :: inner]) ops

/-- the same history on the heap -/
def exec (h : Heap) : List Op → Heap
  | [] => h
  | .fresh l :: ops => exec (make h ⟨l.context, l.ec, l.ecText, none, l.request⟩).1 ops
  | .wrap l n :: ops => exec (make h ⟨l.context, l.ec, l.ecText, some n, l.request⟩).1 ops

/-- how one level reads -/
def Level.text (l : Level) : String := l.context ++ " " ++ l.ecText

/-- how an error reads: its levels from the outermost to the innermost, separated by arrows -/
def render : List Level → String
  | [] => ""
  | [l] => l.text
  | l :: l' :: ls => l.text ++ " <- " ++ render (l' :: ls)

end Verif.ExtendedError
