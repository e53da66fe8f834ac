import Verif.Locality.Props
/-!
# Localities of created supervisors (C47)
-/

namespace Verif.Locality

/-- in a history of creations (parent, strand), `q` is the root above supervisor `i` -/
inductive Top (ops : List (Option Nat × Option Nat)) : Nat → Nat → Prop
  | here (i : Nat) (s : Option Nat) : ops[i]? = some (none, s) → Top ops i i
  | up (i p q : Nat) (s : Option Nat) : ops[i]? = some (some p, s) → Top ops p q → Top ops i q

theorem top_mono {a : List (Option Nat × Option Nat)} (b : List (Option Nat × Option Nat)) {i q : Nat} (h : Top a i q) : Top (a ++ b) i q := by
  induction h with
  | here i s h => exact .here i s (by rw [List.getElem?_append_left (List.getElem?_eq_some_iff.1 h).1]; exact h)
  | up i p q s h _ ih => exact .up i p q s (by rw [List.getElem?_append_left (List.getElem?_eq_some_iff.1 h).1]; exact h) ih

/-- the tree matches the history -/
structure Matches (ops : List (Option Nat × Option Nat)) (t : Tree) : Prop where
  len : t.length = ops.length
  get : ∀ (i : Nat) (p s : Option Nat), ops[i]? = some (p, s) → ∃ r, t[i]? = some r ∧ r.parent = p ∧ (∀ n, s = some n → r.loc = .strand n) ∧
    (s = none → ∃ q, Top ops i q ∧ r.loc = .root q)

theorem top_rootOf {ops : List (Option Nat × Option Nat)} {t : Tree} (hm : Matches ops t) (hi : Inv t) :
    ∀ (f p : Nat), p < t.length → p ≤ f → Top ops p (rootOf t f p) := by
  intro f
  induction f with
  | zero =>
    intro p hp hf
    have : p = 0 := by omega
    subst this
    obtain ⟨⟨par, s⟩, ho⟩ : ∃ x, ops[0]? = some x := ⟨_, List.getElem?_eq_getElem (by have := hm.len; omega)⟩
    obtain ⟨r, h1, h2, _⟩ := hm.get 0 par s ho
    cases par with
    | none => exact .here 0 s ho
    | some q => have := hi.parentLt 0 r q h1 h2; omega
  | succ f ih =>
    intro p hp hf
    obtain ⟨⟨par, s⟩, ho⟩ : ∃ x, ops[p]? = some x := ⟨_, List.getElem?_eq_getElem (by have := hm.len; omega)⟩
    obtain ⟨r, h1, h2, _⟩ := hm.get p par s ho
    obtain ⟨rp, rl, rd⟩ := r
    dsimp only at h2
    subst h2
    simp only [rootOf, h1]
    cases rp with
    | none => exact .here p s ho
    | some q =>
      have := hi.parentLt p _ q h1 rfl
      exact .up p q _ s ho (ih q (by omega) (by omega))

theorem matches_create {ops : List (Option Nat × Option Nat)} {t t' : Tree} (hm : Matches ops t) (hi : Inv t) {p s : Option Nat}
    (h : create t p s = some t') : Matches (ops ++ [(p, s)]) t' := by
  have key : ∀ x : Sup, x.parent = p → (∀ n, s = some n → x.loc = .strand n) → (s = none → ∃ q, Top (ops ++ [(p, s)]) t.length q ∧ x.loc = .root q) →
      Matches (ops ++ [(p, s)]) (t ++ [x]) := by
    intro x h1 h2 h3
    refine ⟨by simp [hm.len], ?_⟩
    intro i p' s' ho
    by_cases hlt : i < ops.length
    · rw [List.getElem?_append_left hlt] at ho
      obtain ⟨r, a, b, c, d⟩ := hm.get i p' s' ho
      refine ⟨r, get_mono a, b, c, fun hs => ?_⟩
      obtain ⟨q, e, f⟩ := d hs
      exact ⟨q, top_mono _ e, f⟩
    · have hil := (List.getElem?_eq_some_iff.1 ho).1
      simp at hil
      have : i = ops.length := by omega
      subst this
      simp at ho
      obtain ⟨e1, e2⟩ := ho
      subst e1; subst e2
      refine ⟨x, by rw [← hm.len]; simp, h1, h2, fun hs => ?_⟩
      rw [← hm.len]; exact h3 hs
  unfold create at h
  cases p with
  | none =>
    dsimp only at h
    injection h with h; subst h
    refine key _ rfl (fun n hn => by simp [locOf, hn]) (fun hs => ⟨t.length, .here _ s ?_, by simp [locOf, hs]⟩)
    rw [hm.len]; simp
  | some p =>
    dsimp only at h
    split at h
    · cases h
    · rename_i ps hp
      injection h with h; subst h
      have hlt := (List.getElem?_eq_some_iff.1 hp).1
      refine key _ rfl (fun n hn => by simp [locOf, hn]) (fun hs => ⟨_, .up _ p _ s ?_ (top_mono _ (top_rootOf hm hi t.length p hlt (by omega))), by simp [locOf, hs]⟩)
      rw [hm.len]; simp

theorem matches_build : ∀ (rest ops : List (Option Nat × Option Nat)) (t t' : Tree), Matches ops t → Inv t → build t rest = some t' → Matches (ops ++ rest) t'
  | [], ops, t, t', hm, _, h => by simp only [build, Option.some.injEq] at h; subst h; simpa using hm
  | (p, s) :: rest, ops, t, t', hm, hi, h => by
    simp only [build] at h
    split at h
    · cases h
    · rename_i u hu
      have := matches_build rest (ops ++ [(p, s)]) u t' (matches_create hm hi hu) (inv_create hi hu) h
      simpa using this

/-- **C47** Every creation makes one supervisor, with the parent given, at the strand given, or, if it has none, at the locality of the root above
it: supervisors of one tree without strands are all in one locality, supervisors of different trees never are. -/
theorem C47_created (ops : List (Option Nat × Option Nat)) (t : Tree) (hb : build [] ops = some t) :
    t.length = ops.length ∧ ∀ (i : Nat) (p s : Option Nat), ops[i]? = some (p, s) → ∃ r, t[i]? = some r ∧ r.parent = p ∧
      (∀ n, s = some n → r.loc = .strand n) ∧ (s = none → ∃ q, Top ops i q ∧ r.loc = .root q) := by
  have h0 : Matches [] [] := ⟨rfl, by intro i p s h; simp at h⟩
  have := matches_build ops [] [] t h0 inv_nil hb
  exact ⟨this.len, this.get⟩

theorem build_some : ∀ (rest : List (Option Nat × Option Nat)) (t : Tree),
    (∃ t', build t rest = some t') ↔ ∀ (i p : Nat) (s : Option Nat), rest[i]? = some (some p, s) → p < t.length + i
  | [], t => by simp [build]
  | (par, st) :: rest, t => by
    simp only [build]
    have hlen : ∀ u, create t par st = some u → u.length = t.length + 1 := by
      intro u hu
      unfold create at hu
      cases par with
      | none => dsimp only at hu; injection hu with hu; subst hu; simp
      | some p =>
        dsimp only at hu
        split at hu
        · cases hu
        · injection hu with hu; subst hu; simp
    cases hc : create t par st with
    | none =>
      simp only
      constructor
      · rintro ⟨_, h⟩; cases h
      · intro h
        unfold create at hc
        cases par with
        | none => simp at hc
        | some p =>
          have := h 0 p st (by simp)
          simp [List.getElem?_eq_getElem (show p < t.length by omega)] at hc
    | some u =>
      simp only
      have hl := hlen u hc
      rw [build_some rest u]
      constructor
      · intro h i p s hi
        cases i with
        | zero =>
          simp at hi
          obtain ⟨e, _⟩ := hi
          subst e
          unfold create at hc
          dsimp only at hc
          split at hc
          · cases hc
          · rename_i ps hp; exact (List.getElem?_eq_some_iff.1 hp).1
        | succ i =>
          have := h i p s (by simpa using hi)
          omega
      · intro h i p s hi
        have := h (i + 1) p s (by simpa using hi)
        omega

/-- **C47** Creation fails in no other case than that of a parent that does not exist yet. -/
theorem C47_creatable (ops : List (Option Nat × Option Nat)) :
    (∃ t, build [] ops = some t) ↔ ∀ (i p : Nat) (s : Option Nat), ops[i]? = some (some p, s) → p < i := by
  have := build_some ops []
  simpa using this

/-- two trees without strands, and a supervisor on a strand -/
example : ∃ t, build [] [(none, none), (some 0, none), (none, none), (some 1, some 5)] = some t ∧
    t.map (·.loc) = [.root 0, .root 0, .root 2, .strand 5] := by
  refine ⟨_, rfl, by decide⟩

end Verif.Locality
