import Verif.Children.Lines
import Verif.Children.Cases
/-!
# Concrete executions with spawners: cases of the theorems of `Verif.Children.Lines`
-/

namespace Verif.Children
open Verif

def runG (c : Conf) (φ : Fl) : State → Ghost → List Op → Option (State × Ghost)
  | σ, h, [] => some (σ, h)
  | σ, h, op :: ops =>
    if allowed φ σ op then
      match step c σ op with
      | .error _ => none
      | .ok σ1 => runG c φ σ1 (h.next σ op σ1) ops
    else none

theorem hist_of_runG {c : Conf} {φ : Fl} {ops : List Op} : ∀ {σ σ' : State} {h h' : Ghost}, Hist c φ σ h → runG c φ σ h ops = some (σ', h') →
    Hist c φ σ' h' := by
  induction ops with
  | nil => intro σ σ' h h' hr e; simp [runG] at e; obtain ⟨rfl, rfl⟩ := e; exact hr
  | cons op ops ih =>
    intro σ σ' h h' hr e
    simp only [runG] at e
    split at e
    · rename_i ha
      split at e
      · simp at e
      · rename_i σ1 h1
        exact ih (.step op hr (adm_of_allowed ha) h1) e
    · simp at e

def afterG (c : Conf) (φ : Fl) (ops : List Op) (p : State → Ghost → Bool) : Bool :=
  match runG c φ (.init c) .init ops with
  | some (σ, h) => p σ h
  | none => false

theorem afterG_hist {c : Conf} {φ : Fl} {ops : List Op} {p : State → Ghost → Bool} (h : afterG c φ ops p = true) : ∃ σ g, Hist c φ σ g ∧ p σ g = true := by
  unfold afterG at h
  split at h
  · rename_i σ g hs; exact ⟨σ, g, hist_of_runG .init hs, h⟩
  · simp at h

/-- restarted always, at once, two instances at most -/
def cfg2 : Spawner.Cfg := ⟨.always, 0, 2, false⟩

/-- two spawners have made an instance each; the one of the first is shut down, and there is another one in its place -/
def again : List Op := [.spawn cfg2, .spawn cfg2, r, r, r, r, r, r, r, .kidRecv 2 false, .kidRecv 2 false, .kidInit 2 true false, .flush 2, r, .kidDown 2, .flush 2, r,
  .kidRecv 2 false, .kidShut 2, .flush 2, r, r]

/-- the children 2 and 4 are instances of the spawner 0, and 3 of the spawner 1; 3 and 4 are living, 2 is not -/
example : afterG cS .any again (fun σ h => decide (h.line 2 = 0 ∧ h.line 4 = 0 ∧ h.line 3 = 1 ∧ h.made 0 = 2 ∧ h.made 1 = 1 ∧ (σ.kid 2).st = .shutDown ∧
    (σ.kid 3).born = true ∧ (σ.kid 3).st = .initializing ∧ (σ.kid 4).born = true ∧ (σ.kid 4).st = .initializing ∧ h.cfg 0 = some cfg2)) = true := by decide

/-- so the theorems are about this execution -/
example : ∃ σ h, Hist cS .any σ h ∧ Living σ 4 ∧ ¬ Living σ 2 ∧ h.line 2 = h.line 4 ∧ h.made 0 = 2 ∧ h.cfg 0 = some cfg2 := by
  obtain ⟨σ, h, hh, hp⟩ := afterG_hist (c := cS) (φ := .any) (ops := again) (p := fun σ h => decide (h.line 2 = 0 ∧ h.line 4 = 0 ∧ h.made 0 = 2 ∧ (σ.kid 4).born = true ∧
    (σ.kid 4).st = .initializing ∧ h.cfg 0 = some cfg2)) (by decide)
  simp only [decide_eq_true_eq] at hp
  obtain ⟨h1, h2, h3, h4, h5, h6⟩ := hp
  have hl : Living σ 4 := ⟨h4, by rw [h5]; simp⟩
  refine ⟨σ, h, hh, hl, fun h2' => ?_, h1.trans h2.symm, h3, h6⟩
  have := C58_single hh h2' hl (h1.trans h2.symm)
  omega

/-- the limit is reached: when the second instance is gone as well, there is no third one -/
example : afterG cS .any (again ++ [r, .kidRecv 4 false, .kidInit 4 true false, .flush 4, r, .kidDown 4, .flush 4, r, .kidRecv 4 false,
    .kidRecv 4 false, .kidShut 4, .flush 4, r, r]) (fun σ h => decide ((σ.kid 4).st = .shutDown ∧ h.made 0 = 2) && σ.recs.all (fun p => decide (p.1 = 3))) = true := by decide

end Verif.Children
