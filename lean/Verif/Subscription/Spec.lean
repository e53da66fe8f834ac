import Verif.Subscription.Model

/-!
# What a subscription table is supposed to do

The specification knows nothing about hash tables: it is the list of the live subscriptions in
the order in which they were made.
-/

namespace Verif.Subscription

/-- a live subscription -/
structure Live where
  id : Nat
  handler : Nat
  addr : Nat
deriving DecidableEq, Repr

/-- the live subscriptions, oldest first, and the number of subscriptions ever made -/
structure Spec where
  made : Nat
  live : List Live

/-- nothing subscribed -/
def Spec.empty : Spec := ⟨0, []⟩

/-- what each call means -/
def Spec.step (s : Spec) : Op → Spec
  | .subscribe h a => ⟨s.made + 1, s.live ++ [⟨s.made, h, a⟩]⟩
  | .forget id => { s with live := s.live.filter (fun l => l.id ≠ id) }
  | .tag id h' => { s with live := s.live.map (fun l => if l.id = id then { l with handler := h' } else l) }

/-- meaning of a history -/
def Spec.run (s : Spec) (ops : List Op) : Spec := ops.foldl Spec.step s

/-- Which calls are legal: only live subscriptions are undone or tagged, tagging yields a handler
for the same message type and the same actor (`handler_intercepted_t` copies both,
`src/rotor/handler.cpp:49-50,71`), and no two live subscriptions to one address share a handler
*object* (every `subscribe` call of the public API wraps its argument in a new handler object). -/
def Spec.legal (w : World) (s : Spec) : Op → Prop
  | .subscribe h a => ∀ l ∈ s.live, l.addr = a → l.handler ≠ h
  | .forget id => ∃ l ∈ s.live, l.id = id
  | .tag id h' => ∃ l ∈ s.live, l.id = id ∧ w.msgType h' = w.msgType l.handler ∧
      w.handlerLoc h' = w.handlerLoc l.handler ∧
      ∀ l' ∈ s.live, l'.addr = l.addr → l'.id ≠ id → l'.handler ≠ h'

/-- every call of a history is legal at its time -/
def Spec.legalHistory (w : World) (s : Spec) : List Op → Prop
  | [] => True
  | op :: ops => s.legal w op ∧ Spec.legalHistory w (s.step op) ops

/-- The weaker legality without the restriction on shared handler objects, and without tagging. -/
def Spec.legalLoose (s : Spec) : Op → Prop
  | .subscribe _ _ => True
  | .forget id => ∃ l ∈ s.live, l.id = id
  | .tag _ _ => False

/-- every call of a history is loosely legal at its time -/
def Spec.legalLooseHistory (s : Spec) : List Op → Prop
  | [] => True
  | op :: ops => s.legalLoose op ∧ Spec.legalLooseHistory (s.step op) ops

/-- The handlers that have to see a message of type `ty` sent to address `a` of locality `loc`:
those of the live subscriptions to `a` whose handler takes `ty`; `own` selects the handlers whose
actors live in the locality of the table, `¬ own` those that live elsewhere. -/
def Spec.expected (w : World) (loc : Loc) (s : Spec) (a : AddrId) (ty : TypeId) (own : Bool) : List HandlerId :=
  (s.live.filter (fun l => decide (l.addr = a) && decide (w.msgType l.handler = ty) &&
      decide (w.addrLoc l.addr = loc) && (decide (w.handlerLoc l.handler = loc) == own))).map (·.handler)

/-- the live subscriptions to addresses of the locality -/
def Spec.liveHere (w : World) (loc : Loc) (s : Spec) : List Live :=
  s.live.filter (fun l => decide (w.addrLoc l.addr = loc))

/-- what `get_recipients` hands to the delivery: nothing, or the two lists of handlers -/
def recipientsOf : Option Joint → List HandlerId × List HandlerId
  | none => ([], [])
  | some j => (j.internal, j.external)

end Verif.Subscription
