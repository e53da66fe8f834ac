import Verif.Link.View
/-!
# The histories of links

What the events between a client and a server (newest first) have to satisfy.
-/

namespace Verif.Link
open Verif

def isAsk (rid : Nat) : PEv → Bool
  | .asked r _ => r == rid
  | _ => false

def isAns (rid : Nat) : PEv → Bool
  | .answered r _ _ _ => r == rid
  | _ => false

def isGone (rid : Nat) : PEv → Bool
  | .withdrawn r => r == rid
  | .lost r => r == rid
  | _ => false

def isKnown (rid : Nat) : PEv → Bool
  | .known r _ => r == rid
  | _ => false

def isUAsk : PEv → Bool
  | .unlinkAsked _ => true
  | _ => false

/-- what the server has about the client after these events: nothing, a request it keeps, or a link -/
def srvRec : List PEv → Option (Option Nat)
  | [] => none
  | .queued rid :: _ => some (some rid)
  | .answered _ true _ _ :: _ => some none
  | .freed :: _ => none
  | _ :: h => srvRec h

/-- does the client consider itself linked after these events? -/
def cliLinked : List PEv → Bool
  | [] => false
  | .known _ ok :: _ => ok
  | .unlinked _ :: _ => false
  | .left :: _ => false
  | _ :: h => cliLinked h

/-- the condition under which an event may come after the events `h` -/
def Rule (h : List PEv) : PEv → Prop
  | .asked _ st => st.rank ≤ 4 ∧ cliLinked h = false
  /- a link is confirmed by a server that is not shutting down; if the client has asked for it, by one that is operational; -/
  | .answered rid true op st => st.rank ≤ 4 ∧ (op = true → st = .operational) ∧ (srvRec h = none ∨ srvRec h = some (some rid))
  /- it is refused by a server that is shutting down or has a link or a request of that client already; -/
  | .answered _ false _ st => 4 < st.rank ∨ srvRec h ≠ none
  | .queued _ => srvRec h = none
  /- the client is linked only if the server has confirmed it; -/
  | .known rid true => ∃ op st, .answered rid true op st ∈ h
  | .known _ false => True
  /- a request that was kept is dropped only if the client has left; -/
  | .withdrawn rid => srvRec h = some (some rid) ∧ .left ∈ h
  /- the server forgets the client only if it has left or agreed; -/
  | .freed => srvRec h ≠ none ∧ (.left ∈ h ∨ ∃ u, .unlinked u ∈ h)
  | .lost _ => srvRec h = none
  /- only linked clients are asked to unlink, and only once; -/
  | .unlinkAsked _ => srvRec h = some none ∧ ∀ u, .unlinkAsked u ∉ h
  | .unlinked u => .unlinkAsked u ∈ h
  | .left => True

/-- every event satisfies its rule -/
def Legal : List PEv → Prop
  | [] => True
  | e :: h => Rule h e ∧ Legal h

end Verif.Link
