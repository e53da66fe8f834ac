import Verif.Lifecycle.Model
/-! What the properties C29-C31, C33, C39 mean, as statements about the log of events (newest first) -/

namespace Verif.Lifecycle
open Verif

/-- the property `P e l` holds for every event `e` of the log, `l` being what happened before -/
def Every (P : Ev → List Ev → Prop) : List Ev → Prop
  | [] => True
  | e :: l => P e l ∧ Every P l

theorem every_iff {P : Ev → List Ev → Prop} {log : List Ev} :
    Every P log ↔ ∀ l2 e l1, log = l2 ++ e :: l1 → P e l1 := by
  induction log with
  | nil => simp [Every]
  | cons e l ih =>
    simp only [Every, ih]
    constructor
    · rintro ⟨h1, h2⟩ l2 e' l1 he
      cases l2 with
      | nil => simp at he; rw [← he.1, ← he.2]; exact h1
      | cons x l2 => simp at he; exact h2 l2 e' l1 he.2
    · intro h
      exact ⟨h [] e l rfl, fun l2 e' l1 he => h (e :: l2) e' l1 (by simp [he])⟩

/-- the state an observer knows -/
def stateOf : List Ev → AState
  | [] => .new
  | .became st :: _ => st
  | _ :: l => stateOf l

/-- whether a plugin takes part in a phase: it does if it did so after activation or joined later,
and has neither agreed nor left since -/
def takesPart (c : Cfg) (ph : Phase) (i : Nat) : List Ev → Bool
  | [] => false
  | .became .initializing :: _ => c.reacts ph i
  | .joined p j :: l => if p = ph ∧ j = i then true else takesPart c ph i l
  | .left p j :: l => if p = ph ∧ j = i then false else takesPart c ph i l
  | .answer p j true :: l => if p = ph ∧ j = i then false else takesPart c ph i l
  | _ :: l => takesPart c ph i l

/-- a plugin has agreed (or has left the vote by itself) -/
def Agreed (ph : Phase) (i : Nat) (l : List Ev) : Prop := Ev.answer ph i true ∈ l ∨ Ev.left ph i ∈ l

/-- the order of polling: direct for init, reverse for shutdown -/
def Before : Phase → Nat → Nat → Prop
  | .init, i, j => i < j
  | .shut, i, j => j < i

/-- the reason of the first shutdown request or trigger that carried one -/
def firstReason : List Ev → Option Nat
  | [] => none
  | .gotShut _ reason :: l => (firstReason l).or reason
  | _ :: l => firstReason l

/-- the latest shutdown request -/
def lastShut : List Ev → Option Nat
  | [] => none
  | .gotShut (some r) _ :: _ => some r
  | _ :: l => lastShut l

def isReplyInit (r : Nat) : Ev → Bool
  | .replyInit r' _ => r' = r
  | _ => false
def isGotInit (r : Nat) : Ev → Bool
  | .gotInit r' => r' = r
  | _ => false
def isReplyShut (r : Nat) : Ev → Bool
  | .replyShut r' _ => r' = r
  | _ => false
def isGotShut (r : Nat) : Ev → Bool
  | .gotShut r' _ => r' = some r
  | _ => false

/-- what is demanded of each event -/
def Rule (c : Cfg) : Ev → List Ev → Prop
  | .ask ph j, l => takesPart c ph j l = true ∧ ∀ i, i < c.n → Before ph i j → c.reacts ph i = true → Agreed ph i l
  | .became .initialized, l => (stateOf l = .initializing ∧ ∃ r l', l = .replyInit r true :: l') ∧
      ∀ i, i < c.n → c.reacts .init i = true → Agreed .init i l
  | .became .operational, l => stateOf l = .initialized
  | .became .shutDown, l => (stateOf l = .shuttingDown ∧ ∀ r, lastShut l = some r → ∃ l', l = .replyShut r true :: l') ∧
      ∀ i, i < c.n → c.reacts .shut i = true → Agreed .shut i l
  | .became .shuttingDown, l => (stateOf l).rank ≤ AState.shuttingDown.rank ∧ ∃ r reason l', l = .gotShut r reason :: l'
  | .became .initializing, l => l = []
  | .became .new, _ => False
  | .became .unknown, _ => False
  | _, _ => True

end Verif.Lifecycle
