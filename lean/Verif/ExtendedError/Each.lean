import Verif.ExtendedError.Props
/-!
# How an error reads when the request is rendered too (C45)
-/

namespace Verif.ExtendedError

/-- the rendered request of a level, in brackets -/
def Level.bracketed (l : Level) : String := match l.request with | some r => " [" ++ r ++ "]" | none => ""

/-- how an error reads for somebody with a stringifier: the request of the outermost level is shown after its text -/
def renderWithRequest : List Level → String
  | [] => ""
  | [l] => l.text ++ l.bracketed
  | l :: l' :: ls => l.text ++ l.bracketed ++ " <- " ++ render (l' :: ls)

/-- **C45** With a stringifier, the text of an error is that of all its levels, from the outermost to the innermost, and the request of the
outermost level, if there is one, is shown in brackets behind the text of that level and nowhere else. -/
theorem C45_with_request (ops : List Op) (es : List (List Level)) (hm : made [] ops = some es) (id : Nat) (ls : List Level) (hid : es[id]? = some ls) :
    ∃ f0, ∀ f, f0 ≤ f → message (exec [] ops) true f id = some (renderWithRequest ls) := by
  have hrel := rel_exec ops [] [] es rel_nil hm
  have hr := hrel.2 id ls hid
  refine ⟨ls.length, fun f hf => message_fuel _ _ ls.length _ _ ?_ _ hf⟩
  cases hr with
  | leaf _ l hl =>
    simp only [List.length_cons, List.length_nil, message, hl, renderWithRequest, Level.text, Level.bracketed]
    cases l.request <;> simp
  | node _ n l ls' hl hr' =>
    have hmsg := hr'.message
    cases ls' with
    | nil => exact absurd rfl hr'.ne_nil
    | cons l' ls' =>
      rw [List.length_cons]
      simp only [message, hl, hmsg, renderWithRequest, Level.text, Level.bracketed]
      cases l.request <;> simp

example : ∃ es, made [] exOps = some es ∧ es.map renderWithRequest =
    ["db no route", "client down [req] <- db no route", "sup child down <- client down <- db no route", "other failed <- db no route"] := by
  refine ⟨_, rfl, by decide⟩

end Verif.ExtendedError
