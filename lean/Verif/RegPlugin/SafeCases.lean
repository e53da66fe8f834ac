import Verif.RegPlugin.Safe
import Verif.RegPlugin.Run
import Verif.RegPlugin.Final
/-!
# Concrete careful executions of the registry plugin
-/

namespace Verif.RegPlugin
open Verif

variable {c : Conf} {σ σ' : State}

instance (c : Conf) (σ : State) (op : Op) : Decidable (Careful c σ op) := by
  cases op
  case discRes n r o => cases r <;> (dsimp only [Careful]; infer_instance)
  all_goals (dsimp only [Careful]; infer_instance)

/-- runs the operations as long as they are careful -/
def careful (c : Conf) : List Op → State → Option State
  | [], σ => some σ
  | op :: l, σ => if Careful c σ op then (match step c σ op with | .ok σ' => careful c l σ' | .error _ => none) else none

theorem careful_reach {l : List Op} : ∀ {σ : State}, Reach c (Careful c) σ → careful c l σ = some σ' → Reach c (Careful c) σ' := by
  induction l with
  | nil => intro σ h e; simp only [careful, Option.some.injEq] at e; exact e ▸ h
  | cons op l ih =>
    intro σ h e
    simp only [careful] at e
    split at e
    · rename_i hc
      split at e
      · rename_i h1
        exact ih (h.step _ hc h1) e
      · cases e
    · cases e

def carefully (c : Conf) (l : List Op) (p : State → Bool) : Bool := match careful c l State.init with | some σ => p σ | none => false

theorem carefully_reach {l : List Op} {p : State → Bool} (h : carefully c l p = true) : ∃ σ, Reach c (Careful c) σ ∧ p σ = true := by
  unfold carefully at h
  split at h
  · rename_i e; exact ⟨_, careful_reach .init e, h⟩
  · cases h

theorem c3_fine : c3.Fine := by
  refine ⟨⟨?_, ?_⟩, by decide, by decide, by decide, by decide⟩
  · intro n v d b n' v' d' b' h1 h2 h3
    simp only [c3, List.mem_cons, List.not_mem_nil, or_false, reduceCtorEq, false_or, Want.disc.injEq] at h1 h2
    grind
  · intro n a a' h1 h2
    simp [c3] at h1 h2
    rw [h1.2, h2.2]

/-- the whole life of an actor that registers one name and finds two others -/
example : ∃ σ, Reach c3 (Careful c3) σ ∧ decide (σ.st = .shutDown ∧ Ev.dereg 1 ∈ σ.log ∧ Ev.answer true ∈ σ.log) = true :=
  carefully_reach (l := linkedUp ++ [.discRes 2 (some 50) yes, .regRes 1 true yes, .discRes 3 (some 60) yes, .linkRes 60 true yes yes,
      .linkRes 50 true yes yes, .start, .shut yes, .finish]) (by decide)

/-- .. and of one of whose names is not found -/
example : ∃ σ, Reach c3 (Careful c3) σ ∧ decide (σ.st = .initializing ∧ Ev.answer false ∈ σ.log ∧ σ.qReg = [1]) = true :=
  carefully_reach (l := linkedUp ++ [.discRes 2 none yes]) (by decide)

/-- C49_success_final: an actor that is initialized, and lives on -/
example : ∃ σ, Reach c3 NoPoke σ ∧ ∃ pre post, σ.log = pre ++ .answer true :: post ∧ pre ≠ [] := by
  obtain ⟨σ, h, e⟩ := carefully_reach (c := c3) (p := fun σ => decide (∃ n, n < σ.log.length ∧ n ≠ 0 ∧ σ.log[n]? = some (.answer true)))
    (l := linkedUp ++ [.discRes 2 (some 50) yes, .regRes 1 true yes, .discRes 3 (some 60) yes, .linkRes 60 true yes yes,
      .linkRes 50 true yes yes, .start, .shut yes, .finish]) (by decide)
  simp only [decide_eq_true_eq] at e
  obtain ⟨n, hn, h0, e⟩ := e
  refine ⟨σ, h.mono (fun _ _ h => h.noPoke), σ.log.take n, σ.log.drop (n + 1), ?_, ?_⟩
  · rw [List.getElem?_eq_getElem hn] at e
    injection e with e
    rw [← e, List.getElem_cons_drop, List.take_append_drop]
  · intro h; rw [List.take_eq_nil_iff] at h; rcases h with h | h
    · exact h0 h
    · rw [h] at hn; simp at hn

/-- everything is answered, the rest of the plugins waits: the next poll completes the initialization -/
example : ∃ σ, Reach c2 (Careful c2) σ ∧ decide (σ.st = .initializing ∧ σ.initReq = true ∧ Ev.answer false ∉ σ.log ∧ σ.qReg = [] ∧ σ.qDisc = [] ∧
    σ.qLink = []) = true :=
  carefully_reach (l := linkedUp ++ [.discRes 2 (some 50) yes, .discRes 3 (some 50) yes, .linkRes 50 true { yes with next := false } { yes with next := false }])
    (by decide)

end Verif.RegPlugin
