import Verif.TextMaker.Props
/-!
# C81: concrete cases, and the race of two calls
-/

namespace Verif.TextMaker

/-- a root, two child supervisors that ask at the same time, and a second root that is refused -/
def tree : List Op := [.create 1, .go 1, .go 1, .go 1, .go 1, .child 1 2, .child 1 3, .go 2, .go 3, .create 9, .go 3, .go 2, .use 2, .use 3, .use 1]

def view (r : Except Err State) : Option (Option Nat × Nat × List Nat × Option Nat × List Nat × List PC) :=
  match r with
  | .ok s => some (s.ptr, s.count, s.dead, s.root, s.refused, [s.pc 1, s.pc 2, s.pc 3, s.pc 9])
  | .error _ => none

theorem tree_view : view (run .init tree) = some (some 0, 1, [], some 1, [9], [.done 0, .done 0, .done 0, .idle]) := rfl

theorem tree_unasked : Unasked tree := by intro k; simp [tree]

/-- the hypotheses of `C81_library`, and by it those of the others, are met -/
theorem case_library : ∃ s, run .init tree = .ok s ∧ s.count = 1 ∧ s.pc 3 = .done 0 ∧ s.ptr = some 0 := by
  have h := tree_view
  cases hr : run .init tree with
  | error e => rw [hr] at h; cases h
  | ok s => rw [hr] at h; simp [view] at h; exact ⟨s, rfl, h.2.1, h.2.2.2.2.2.2.2.1, h.1⟩

/-- the user asks first, then the root is created, then the user asks twice at the same time -/
def asked : List Op := [.call 1, .go 1, .go 1, .go 1, .go 1, .create 2, .call 3, .go 3, .go 2, .go 2, .go 3, .use 3]

theorem asked_calm : Calm .init asked := by
  refine ⟨.inl fun _ => rfl, fun s1 h1 => ?_⟩
  cases h1
  refine ⟨trivial, fun s2 h2 => ?_⟩
  cases h2
  refine ⟨trivial, fun s3 h3 => ?_⟩
  cases h3
  refine ⟨trivial, fun s4 h4 => ?_⟩
  cases h4
  refine ⟨trivial, fun s5 h5 => ?_⟩
  cases h5
  refine ⟨.inr (.inr ⟨1, 0, rfl⟩), fun s6 h6 => ?_⟩
  cases h6
  refine ⟨.inr ⟨1, 0, rfl⟩, fun s7 h7 => ?_⟩
  exact ⟨trivial, fun _ _ => ⟨trivial, fun _ _ => ⟨trivial, fun _ _ => ⟨trivial, fun _ _ => ⟨trivial, fun _ _ => trivial⟩⟩⟩⟩⟩

/-- the hypotheses of `C81_once`, `C81_same`, `C81_no_fault` and `C81_gets` are met -/
theorem case_once : Calm .init asked ∧
    view (run .init asked) = some (some 0, 1, [], some 2, [], [.done 0, .done 0, .done 0, .idle]) := ⟨asked_calm, rfl⟩

/-- `C81_first_root` and `C81_one_root`: the root is the supervisor 1, the supervisor 9 is refused -/
theorem case_first_root : tree = [] ++ .create 1 :: tree.tail ∧ ∃ s, run .init tree = .ok s ∧ s.root = some 1 ∧ 9 ∈ s.refused := by
  refine ⟨rfl, ?_⟩
  have h := tree_view
  cases hr : run .init tree with
  | error e => rw [hr] at h; cases h
  | ok s => rw [hr] at h; simp [view] at h; exact ⟨s, rfl, h.2.2.2.1, by simp [h.2.2.2.2.1]⟩

/-- the user asks in two threads before there is a root: both find none; the second destroys what the first has got -/
def race : List Op := [.call 1, .call 2, .go 1, .go 2, .go 1, .go 1, .go 1, .go 2, .go 2]

/-- **C81**, what is not so: the function is not safe to be called in several threads before the root supervisor is there. -/
theorem C81_race_counterexample : ∃ ops s, run .init ops = .ok s ∧ s.count = 2 ∧ s.dead = [0] ∧ s.pc 1 = .done 0 ∧
    step s (.use 1) = .error .fault := ⟨race, _, rfl, rfl, rfl, rfl, rfl⟩

/-- the same with one call of the user while the root supervisor is created -/
theorem C81_root_race_counterexample : ∃ ops s, run .init ops = .ok s ∧ s.root = some 1 ∧ s.dead = [0] ∧ s.pc 1 = .done 0 ∧
    step s (.use 1) = .error .fault :=
  ⟨[.create 1, .call 2, .go 1, .go 2, .go 1, .go 1, .go 1, .go 2, .go 2], _, rfl, rfl, rfl, rfl, rfl⟩

end Verif.TextMaker
