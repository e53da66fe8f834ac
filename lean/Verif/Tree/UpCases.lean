import Verif.Tree.Cases
import Verif.Tree.Up
/-!
# Concrete trees that start completely
-/

namespace Verif.Tree
open Verif Verif.Children

def benignB : Op → Bool
  | .down | .escalate | .pShut _ | .initTmoSelf | .initTmo _ | .kidDown _ => false
  | .kidInit _ ok _ => ok
  | .recv o => o.fac
  | _ => true

theorem benign_of {op : Op} (h : benignB op = true) : Benign op := by
  cases op <;> simp only [benignB, Benign] at * <;> (try trivial) <;> (try simp at h)

def benignT : TOp → Bool
  | .own _ op => benignB op
  | _ => true

theorem stepT_smooth {s : Sys} {φ : Fl} {T T' : Tree} {x : TOp} (hb0 : benignT x = true) (hr : TSmooth s φ T) (h : stepT s φ T x = some T') : TSmooth s φ T' := by
  cases x with
  | own p op =>
    simp only [stepT] at h
    split at h
    · rename_i hb
      simp only [Bool.and_eq_true] at hb
      split at h
      · rename_i σ' he
        injection h with h; subst h
        exact .own p op σ' hr (member_of hb.1.1) (own_of hb.1.2) (adm_of_allowed hb.2) (benign_of hb0) he
      · simp at h
    · simp at h
  | deliver p a o =>
    simp only [stepT] at h
    split at h
    · simp at h
    · rename_i m t hq
      split at h
      · rename_i hb
        simp only [Bool.and_eq_true, decide_eq_true_eq] at hb
        split at h
        · rename_i σ' he
          injection h with h; subst h
          exact .deliver p a m t o σ' hr (member_of hb.1.1) hq hb.1.2 (adm_of_allowed hb.2) he
        · simp at h
      · simp at h
  | lost p a =>
    simp only [stepT] at h
    split at h
    · simp at h
    · rename_i m t hq
      split at h
      · rename_i hb
        simp only [Bool.and_eq_true, decide_eq_true_eq] at hb
        injection h with h; subst h
        exact .lost p a m t hr (member_of hb.1) hq hb.2
      · simp at h

theorem runT_smooth {s : Sys} {φ : Fl} : ∀ {xs : List TOp} {T T' : Tree}, xs.all benignT = true → TSmooth s φ T → runT s φ T xs = some T' → TSmooth s φ T' := by
  intro xs
  induction xs with
  | nil => intro T T' _ hr h; simp only [runT] at h; injection h with h; subst h; exact hr
  | cons x xs ih =>
    intro T T' hb hr h
    simp only [List.all_cons, Bool.and_eq_true] at hb
    simp only [runT] at h
    split at h
    · simp at h
    · rename_i T1 h1; exact ih hb.2 (stepT_smooth hb.1 hr h1) h

/-- a supervisor below another, with an actor of its own: `C53_up` is about the tree after `up` -/
example : ∃ T, TSmooth two Fl.full T ∧ Settled two T ∧ Member two T [0] ∧ All two T (fun x => x = .operational) := by
  have h : (match runT two Fl.full (.init two) up with
    | some T => settledB two T [[], [0]] && memberB two T [0]
    | none => false) = true := by decide
  split at h
  · rename_i T hT
    simp only [Bool.and_eq_true] at h
    have hr := runT_smooth (by decide) .init hT
    have hs := settled_of hr.reach h.1
    exact ⟨T, hr, hs, member_of h.2, C53_up ⟨rfl, rfl, rfl, rfl, .inl fun _ => rfl⟩ hr hs⟩
  · simp at h

/-- with `synchronize_start` -/
example : ∃ T, TSmooth sync2 Fl.full T ∧ Settled sync2 T ∧ Member sync2 T [0] ∧ All sync2 T (fun x => x = .operational) := by
  have h : (match runT sync2 Fl.full (.init sync2) upS with
    | some T => settledB sync2 T [[], [0]] && memberB sync2 T [0]
    | none => false) = true := by decide
  split at h
  · rename_i T hT
    simp only [Bool.and_eq_true] at h
    have hr := runT_smooth (by decide) .init hT
    have hs := settled_of hr.reach h.1
    exact ⟨T, hr, hs, member_of h.2, C53_up ⟨rfl, rfl, rfl, rfl, .inr ⟨rfl, rfl, rfl⟩⟩ hr hs⟩
  · simp at h

/-- one call of `do_shutdown` is enough to the contrary -/
example : (match runT two Fl.full (.init two) (up ++ [R .down, R r]) with
    | some T => decide ((T []).st = .shuttingDown)
    | none => false) = true := by decide

end Verif.Tree
