import Verif.TypeRegistry.Model

/-! # Property C51: message types are distinguished by identity -/

namespace Verif.TypeRegistry

/-- every entry of the map points to a text equal to its key, keys are unique -/
def Inv (mem : Ptr → String) (m : TypeMap) : Prop := ∀ name q, m.find name = some q → mem q = name

theorem inv_register (mem : Ptr → String) (m : TypeMap) (p : Ptr) (h : Inv mem m) : Inv mem (register mem m p).1 := by
  unfold register
  split
  · exact h
  · intro name q hq
    simp only [TypeMap.find, List.find?_cons] at hq
    split at hq
    · rename_i heq; simp at heq hq; rw [← hq, heq]
    · exact h name q hq

theorem register_text (mem : Ptr → String) (m : TypeMap) (p : Ptr) (h : Inv mem m) :
    mem (register mem m p).2 = mem p := by
  unfold register
  split
  · rename_i q hq; exact h _ _ hq
  · rfl

theorem register_find (mem : Ptr → String) (m : TypeMap) (p : Ptr) :
    (register mem m p).1.find (mem p) = some (register mem m p).2 := by
  unfold register
  split
  · rename_i q hq; exact hq
  · simp [TypeMap.find]

theorem register_keeps (mem : Ptr → String) (m : TypeMap) (p : Ptr) (name : String) (q : Ptr)
    (h : m.find name = some q) : (register mem m p).1.find name = some q := by
  unfold register
  split
  · exact h
  · rename_i hn
    have : mem p ≠ name := by intro he; rw [he, h] at hn; simp at hn
    simp only [TypeMap.find, List.find?_cons]
    rw [show (mem p == name) = false from by simp [this]]
    exact h

theorem registerAll_spec (mem : Ptr → String) (ps : List Ptr) (m : TypeMap) (h : Inv mem m) (i : Nat) (p : Ptr)
    (hp : ps[i]? = some p) : ∃ q, (registerAll mem m ps)[i]? = some q ∧ mem q = mem p ∧
      (∀ q', m.find (mem p) = some q' → q = q') := by
  induction ps generalizing m i with
  | nil => simp at hp
  | cons x ps ih =>
    cases i with
    | zero =>
      simp only [List.getElem?_cons_zero, Option.some.injEq] at hp
      subst hp
      refine ⟨_, by simp [registerAll], register_text mem m x h, ?_⟩
      intro q' hq'
      have := register_keeps mem m x _ _ hq'
      rw [register_find] at this
      simpa using this
    | succ i =>
      simp only [List.getElem?_cons_succ] at hp
      obtain ⟨q, h1, h2, h3⟩ := ih _ (inv_register mem m x h) i hp
      exact ⟨q, by simpa [registerAll] using h1, h2, fun q' hq' => h3 q' (register_keeps mem m x _ _ hq')⟩

/-- **C51.** Whatever classes are registered, in whatever order, how many times and from whatever
modules: two registrations yield the same identity if and only if they are for the same class (equal
type names). -/
theorem C51_same_identity_iff_same_class (mem : Ptr → String) (ps : List Ptr) (i j : Nat) (p q : Ptr)
    (hi : ps[i]? = some p) (hj : ps[j]? = some q) :
    ∃ a b, (registerAll mem [] ps)[i]? = some a ∧ (registerAll mem [] ps)[j]? = some b ∧
      (a = b ↔ mem p = mem q) := by
  have hinv : Inv mem [] := by intro n q h; simp [TypeMap.find] at h
  -- the later of two registrations of one class finds the identity of the earlier one
  have later : ∀ (ps : List Ptr) (m : TypeMap), Inv mem m → ∀ (i j : Nat) (p q : Ptr), i ≤ j → ps[i]? = some p →
      ps[j]? = some q → mem p = mem q → (registerAll mem m ps)[i]? = (registerAll mem m ps)[j]? := by
    intro ps
    induction ps with
    | nil => intro m _ i j p q _ h; simp at h
    | cons x ps ih =>
      intro m hm i j p q hle hp hq he
      cases i with
      | zero =>
        cases j with
        | zero => rfl
        | succ j =>
          simp only [List.getElem?_cons_zero, Option.some.injEq, List.getElem?_cons_succ] at hp hq
          subst hp
          obtain ⟨b, h1, _, h3⟩ := registerAll_spec mem ps _ (inv_register mem m x hm) j q hq
          have := h3 _ (by rw [← he]; exact register_find mem m x)
          simp only [registerAll, List.getElem?_cons_zero, List.getElem?_cons_succ, h1, this]
      | succ i =>
        cases j with
        | zero => omega
        | succ j =>
          simp only [List.getElem?_cons_succ] at hp hq
          simp only [registerAll, List.getElem?_cons_succ]
          exact ih _ (inv_register mem m x hm) i j p q (by omega) hp hq he
  obtain ⟨a, ha, hta, _⟩ := registerAll_spec mem ps [] hinv i p hi
  obtain ⟨b, hb, htb, _⟩ := registerAll_spec mem ps [] hinv j q hj
  refine ⟨a, b, ha, hb, ?_, ?_⟩
  · intro h; rw [← hta, ← htb, h]
  · intro he
    have : (registerAll mem [] ps)[i]? = (registerAll mem [] ps)[j]? := by
      rcases Nat.le_total i j with hle | hle
      · exact later ps [] hinv i j p q hle hi hj he
      · exact (later ps [] hinv j i q p hle hj hi he.symm).symm
    rw [ha, hb] at this; simpa using this

/-- three modules, two of them with the same class -/
example : registerAll (fun p => if p = 10 ∨ p = 30 then "ping" else "pong") [] [10, 20, 30, 20] = [10, 20, 10, 20] := by
  decide

end Verif.TypeRegistry
